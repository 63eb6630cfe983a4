import Verif.Model.StdMap

/-!
Model of `IndexTable` (fake_spectra/index_table.h, fake_spectra/index_table.cpp): the search for
sightlines near a particle. `float` and `double` are exact reals.
-/

namespace Verif

/-- Position, one real per Cartesian axis: `pos[3*i], pos[3*i+1], pos[3*i+2]`. -/
abbrev Vec3 := Fin 3 → ℝ

/-- A sightline: `axis[i]` and `cofm[3*i .. 3*i+2]`. -/
structure Line where
  axis : ℤ
  cofm : Vec3

namespace IndexTable

/-- State of the object: fake_spectra/index_table.h:44-51. -/
structure Table where
  /-- lines with axis 2 or 3, keyed by x (index_table.h:44) -/
  index_table : List (ℝ × ℕ)
  /-- lines with axis 1, keyed by y (index_table.h:46) -/
  index_table_xx : List (ℝ × ℕ)
  lines : List Line
  boxsize : ℝ

/-- One iteration of the constructor loop, fake_spectra/index_table.cpp:10-15. -/
noncomputable def addLine (t : Table) (i : ℕ) (l : Line) : Table :=
  if l.axis = 1 then
    { t with index_table_xx := MultiMap.insert t.index_table_xx (l.cofm 1) i }
  else
    { t with index_table := MultiMap.insert t.index_table (l.cofm 0) i }

/-- Constructor loop from line number `i` on. -/
noncomputable def buildFrom (t : Table) : ℕ → List Line → Table
  | _, [] => t
  | i, l :: ls => buildFrom (addLine t i l) (i + 1) ls

/-- Constructor, fake_spectra/index_table.cpp:7-18. -/
noncomputable def build (lines : List Line) (box : ℝ) : Table :=
  buildFrom { index_table := [], index_table_xx := [], lines := lines, boxsize := box } 0 lines

/-- fake_spectra/index_table.cpp:52-68. -/
noncomputable def second_close (boxsize second lproj2 hh : ℝ) : Bool :=
  let ffp := second + hh
  let ffm := second - hh
  if ffp > boxsize ∧ lproj2 < ffp - boxsize then true
  else if ffm < 0 ∧ lproj2 > ffm + boxsize then true
  else if lproj2 > ffm ∧ lproj2 < ffp then true
  else false

/-- fake_spectra/index_table.cpp:70-87. -/
noncomputable def calc_dr2 (boxsize d1 d2 : ℝ) : ℝ :=
  let dr := |d1|
  let dr := if dr > 0.5 * boxsize then boxsize - dr else dr
  let dr2 := dr * dr
  let dr := |d2|
  let dr := if dr > 0.5 * boxsize then boxsize - dr else dr
  dr2 + dr * dr

/-- The loop of fake_spectra/index_table.cpp:22-50 over the elements in the iterator range. A line
number outside the table would be an out-of-bounds read: such an element is skipped here; the
constructor never produces one (`Verif.IndexTable.build_mem`). -/
noncomputable def get_nearby_from_range (t : Table) (elems : List (ℝ × ℕ)) (nearby : StdMap ℝ)
    (pos : Vec3) (hh first : ℝ) : StdMap ℝ :=
  elems.foldl (fun nearby it =>
    match t.lines[it.2]? with
    | none => nearby
    | some line =>
      let second := if line.axis = 3 then pos 1 else pos 2
      let lproj2 := if line.axis = 3 then line.cofm 1 else line.cofm 2
      let lproj := it.1
      if second_close t.boxsize second lproj2 hh then
        let dr2 := calc_dr2 t.boxsize (first - lproj) (second - lproj2)
        if dr2 ≤ hh * hh then nearby.assign it.2 dr2 else nearby
      else nearby) nearby

/-- fake_spectra/index_table.cpp:89-113. -/
noncomputable def get_nearby (t : Table) (first : ℝ) (sort_los : List (ℝ × ℕ)) (nearby : StdMap ℝ)
    (pos : Vec3) (hh : ℝ) : StdMap ℝ :=
  let ffp := first + hh
  let ffp := if ffp > t.boxsize then ffp - t.boxsize else ffp
  let ffm := first - hh
  let ffm := if ffm < 0 then ffm + t.boxsize else ffm
  let low := MultiMap.lowerBound sort_los ffm
  let high := MultiMap.lowerBound sort_los ffp
  if ffm ≤ ffp then
    get_nearby_from_range t (MultiMap.range sort_los low high) nearby pos hh first
  else
    let nearby := get_nearby_from_range t (MultiMap.range sort_los 0 high) nearby pos hh first
    get_nearby_from_range t (MultiMap.range sort_los low sort_los.length) nearby pos hh first

/-- fake_spectra/index_table.cpp:117-127. -/
noncomputable def get_near_lines (t : Table) (pos : Vec3) (hh : ℝ) : StdMap ℝ :=
  let nearby : StdMap ℝ := []
  let nearby := if t.index_table.length > 0 then get_nearby t (pos 0) t.index_table nearby pos hh
    else nearby
  if t.index_table_xx.length > 0 then get_nearby t (pos 1) t.index_table_xx nearby pos hh else nearby

/-- The body of the critical section of `get_near_particles`, fake_spectra/index_table.cpp:140-147:
particle `i` with the given near lines is inserted into the list of each line. -/
def critical (i : ℕ) (nearby : StdMap ℝ) (acc : List (StdMap ℝ)) : List (StdMap ℝ) :=
  nearby.foldl (fun acc it => acc.modify it.1 (fun m => m.insertNew i it.2)) acc

/-- One loop iteration of `get_near_particles` (fake_spectra/index_table.cpp:136-148) for particle
`i`: the near-line search reads only constant data, the update is a critical section, so the
iteration is atomic. -/
noncomputable def nearParticlesStep (t : Table) (parts : List (Vec3 × ℝ)) (acc : List (StdMap ℝ))
    (i : ℕ) : List (StdMap ℝ) :=
  match parts[i]? with
  | none => acc
  | some p => critical i (get_near_lines t p.1 p.2) acc

/-- `get_near_particles` when the critical sections run in the order `sched`
(fake_spectra/index_table.cpp:130-150). -/
noncomputable def get_near_particles_sched (t : Table) (parts : List (Vec3 × ℝ)) (sched : List ℕ) :
    List (StdMap ℝ) :=
  sched.foldl (nearParticlesStep t parts) (List.replicate t.lines.length [])

/-- `get_near_particles` run by one thread, fake_spectra/index_table.cpp:130-150. -/
noncomputable def get_near_particles (t : Table) (parts : List (Vec3 × ℝ)) : List (StdMap ℝ) :=
  get_near_particles_sched t parts (List.range parts.length)

/-- One loop iteration of `Py_near_lines`, fake_spectra/py_module.cpp:74-82. -/
noncomputable def nearLinesStep (t : Table) (parts : List (Vec3 × ℝ)) (acc : List ℕ) (i : ℕ) : List ℕ :=
  match parts[i]? with
  | none => acc
  | some p => if (get_near_lines t p.1 p.2).length > 0 then StdSet.insert acc i else acc

/-- `Py_near_lines` when the critical sections run in the order `sched`
(fake_spectra/py_module.cpp:63-89, argument checks are in `Verif.Model.PyModule`). -/
noncomputable def near_lines_sched (box : ℝ) (parts : List (Vec3 × ℝ)) (lines : List Line)
    (sched : List ℕ) : List ℕ :=
  sched.foldl (nearLinesStep (build lines box) parts) []

/-- `_near_lines(box, pos, hh, axis, cofm)` on one thread, fake_spectra/py_module.cpp:25-99;
called by `Spectra.particles_near_lines`, fake_spectra/spectra.py:675-685. -/
noncomputable def near_lines (box : ℝ) (parts : List (Vec3 × ℝ)) (lines : List Line) : List ℕ :=
  near_lines_sched box parts lines (List.range parts.length)

end IndexTable
end Verif
