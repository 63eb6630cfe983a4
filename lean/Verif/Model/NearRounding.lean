import Verif.Model.PartInt

/-!
The search for sightlines near a particle in single precision, fake_spectra/index_table.cpp:20-150: positions and radii of particles are `float`, and so
are the limits of the window and the squared radius. `fl` is what the exact result of an operation becomes when it is a `float`. Sightlines and
distances are `double`, and exact here.
-/

namespace Verif.NearRounding
open Verif Verif.IndexTable Verif.PartInt Verif.Absorption

/-- fake_spectra/index_table.cpp:52-68: `ffp` and `ffm` are `float`; `ffp - boxsize` and `ffm + boxsize` are `double`. -/
noncomputable def second_close (fl : ℝ → ℝ) (boxsize second lproj2 hh : ℝ) : Bool :=
  let ffp := fl (second + hh)
  let ffm := fl (second - hh)
  if ffp > boxsize ∧ lproj2 < ffp - boxsize then true
  else if ffm < 0 ∧ lproj2 > ffm + boxsize then true
  else if lproj2 > ffm ∧ lproj2 < ffp then true
  else false

/-- The loop of fake_spectra/index_table.cpp:22-50 over the elements in the iterator range: `hh*hh` is a `float`. As in
`Verif.IndexTable.get_nearby_from_range`, a line number outside the table, which the constructor never produces, is skipped. -/
noncomputable def get_nearby_from_range (fl : ℝ → ℝ) (t : Table) (elems : List (ℝ × ℕ)) (nearby : StdMap ℝ)
    (pos : Vec3) (hh first : ℝ) : StdMap ℝ :=
  elems.foldl (fun nearby it =>
    match t.lines[it.2]? with
    | none => nearby
    | some line =>
      let second := if line.axis = 3 then pos 1 else pos 2
      let lproj2 := if line.axis = 3 then line.cofm 1 else line.cofm 2
      let lproj := it.1
      if second_close fl t.boxsize second lproj2 hh then
        let dr2 := calc_dr2 t.boxsize (first - lproj) (second - lproj2)
        if dr2 ≤ fl (hh * hh) then nearby.assign it.2 dr2 else nearby
      else nearby) nearby

/-- fake_spectra/index_table.cpp:89-113: `ffp` and `ffm` are `float`, and are stored again when they are wrapped. -/
noncomputable def get_nearby (fl : ℝ → ℝ) (t : Table) (first : ℝ) (sort_los : List (ℝ × ℕ)) (nearby : StdMap ℝ)
    (pos : Vec3) (hh : ℝ) : StdMap ℝ :=
  let ffp := fl (first + hh)
  let ffp := if ffp > t.boxsize then fl (ffp - t.boxsize) else ffp
  let ffm := fl (first - hh)
  let ffm := if ffm < 0 then fl (ffm + t.boxsize) else ffm
  let low := MultiMap.lowerBound sort_los ffm
  let high := MultiMap.lowerBound sort_los ffp
  if ffm ≤ ffp then
    get_nearby_from_range fl t (MultiMap.range sort_los low high) nearby pos hh first
  else
    let nearby := get_nearby_from_range fl t (MultiMap.range sort_los 0 high) nearby pos hh first
    get_nearby_from_range fl t (MultiMap.range sort_los low sort_los.length) nearby pos hh first

/-- fake_spectra/index_table.cpp:117-127. -/
noncomputable def get_near_lines (fl : ℝ → ℝ) (t : Table) (pos : Vec3) (hh : ℝ) : StdMap ℝ :=
  let nearby : StdMap ℝ := []
  let nearby := if t.index_table.length > 0 then get_nearby fl t (pos 0) t.index_table nearby pos hh
    else nearby
  if t.index_table_xx.length > 0 then get_nearby fl t (pos 1) t.index_table_xx nearby pos hh else nearby

/-- One loop iteration of `get_near_particles`, fake_spectra/index_table.cpp:136-148. -/
noncomputable def nearParticlesStep (fl : ℝ → ℝ) (t : Table) (parts : List (Vec3 × ℝ)) (acc : List (StdMap ℝ))
    (i : ℕ) : List (StdMap ℝ) :=
  match parts[i]? with
  | none => acc
  | some p => critical i (get_near_lines fl t p.1 p.2) acc

/-- `get_near_particles` when the critical sections run in the order `sched`, fake_spectra/index_table.cpp:130-150. -/
noncomputable def get_near_particles_sched (fl : ℝ → ℝ) (t : Table) (parts : List (Vec3 × ℝ)) (sched : List ℕ) :
    List (StdMap ℝ) :=
  sched.foldl (nearParticlesStep fl t parts) (List.replicate t.lines.length [])

/-- One loop iteration of `Py_near_lines`, fake_spectra/py_module.cpp:74-82. -/
noncomputable def nearLinesStep (fl : ℝ → ℝ) (t : Table) (parts : List (Vec3 × ℝ)) (acc : List ℕ) (i : ℕ) : List ℕ :=
  match parts[i]? with
  | none => acc
  | some p => if (get_near_lines fl t p.1 p.2).length > 0 then StdSet.insert acc i else acc

/-- `_near_lines(box, pos, hh, axis, cofm)` when the critical sections run in the order `sched`, fake_spectra/py_module.cpp:63-89. -/
noncomputable def near_lines_sched (fl : ℝ → ℝ) (box : ℝ) (parts : List (Vec3 × ℝ)) (lines : List Line)
    (sched : List ℕ) : List ℕ :=
  sched.foldl (nearLinesStep fl (build lines box) parts) []

/-- Common shape of `compute_tau` and `compute_colden` (fake_spectra/part_int.cpp:22-50, 55-83), as `Verif.PartInt.overLines`, with the particles near
each sightline searched in single precision. `sched` is the order of the critical sections of that search. -/
noncomputable def overLines (fl : ℝ → ℝ) (body : ℕ → Line → List ((ℕ × ℝ) × (ℝ × ℝ)) → List ℝ → CRes (List ℝ))
    (kernel : ℤ) (box : ℝ) (lines : List Line) (parts : List Part) (sched : List ℕ) (out : List ℝ) : CRes (List ℝ) :=
  let nearby_array := get_near_particles_sched fl (build lines box) (posH parts) sched
  (List.range nearby_array.length).foldlM (fun out (i : ℕ) => do
    let nearby ← readAt nearby_array i
    let line ← readAt lines i
    let entries ← lineEntries kernel box line parts nearby
    body i line entries out) out

/-- fake_spectra/part_int.cpp:53-84. The kernels themselves are exact. -/
noncomputable def compute_colden (fl : ℝ → ℝ) (L : LineAbsorption) (nbins : ℕ) (box : ℝ) (lines : List Line)
    (parts : List Part) (sched : List ℕ) (colden : List ℝ) : CRes (List ℝ) :=
  overLines fl (coldenLine L nbins parts) L.kernel box lines parts sched colden

/-- fake_spectra/part_int.cpp:20-51. The kernels themselves are exact. -/
noncomputable def compute_tau (fl : ℝ → ℝ) (L : LineAbsorption) (nbins : ℕ) (box : ℝ) (lines : List Line)
    (parts : List Part) (sched : List ℕ) (tau : List ℝ) : CRes (List ℝ) :=
  overLines fl (tauLine L nbins parts) L.kernel box lines parts sched tau

end Verif.NearRounding
