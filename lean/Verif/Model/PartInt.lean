import Verif.Model.Absorption
import Verif.Model.IndexTable

/-!
Model of `IndexTable::assign_cells` (fake_spectra/index_table.cpp:152-223) and `ParticleInterp`
(fake_spectra/part_int.h, part_int.cpp): interpolation of all particles to all sightlines.
-/

namespace Verif
namespace PartInt

open Absorption IndexTable

/-- One particle: the entries of the arrays `Pos, Vel, Dens, temp, h` with the same index. -/
structure Part where
  pos : Vec3
  vel : Vec3
  dens : ℝ
  temp : ℝ
  h : ℝ

/-- `Pos[3*ipart+axis-1]` (fake_spectra/part_int.cpp:40,73): with an axis outside 1..3 the read leaves
the particle's own triple, which is an error here. -/
def coord (v : Vec3) (axis : ℤ) : CRes ℝ :=
  if axis = 1 then .ok (v 0) else if axis = 2 then .ok (v 1) else if axis = 3 then .ok (v 2)
  else .error .outOfBounds

/-- Component number `k % 3` of a position (`axis_i%3`, `(axis_i+1)%3` in
fake_spectra/index_table.cpp:167,183-188), for non-negative `k`. -/
def coordMod (v : Vec3) (k : ℤ) : ℝ :=
  if k % 3 = 0 then v 0 else if k % 3 = 1 then v 1 else v 2

/-- Grid step used to cut a sightline, fake_spectra/index_table.h:8 -/
noncomputable def RESO : ℝ := 0.1

/-- `dx = fabs(a-b); if(dx > boxsize/2.) dx = boxsize - dx`, fake_spectra/index_table.cpp:181-188. -/
noncomputable def wrapAbs (box d : ℝ) : ℝ := if |d| > box / 2 then box - |d| else |d|

/-- Distance from a particle to the point `xp` of a sightline, fake_spectra/index_table.cpp:178-189. -/
noncomputable def cellDist (box : ℝ) (line : Line) (pos : Vec3) (posx xp : ℝ) : ℝ :=
  let yp := coordMod line.cofm line.axis
  let zp := coordMod line.cofm (line.axis + 1)
  let dx := wrapAbs box (posx - xp)
  let dy := wrapAbs box (coordMod pos line.axis - yp)
  let dz := wrapAbs box (coordMod pos (line.axis + 1) - zp)
  √(dx * dx + dy * dy + dz * dz)

/-- The search loop of fake_spectra/index_table.cpp:173-194: `(min_dist, min_ind, ind)` over the
distances of the near particles in order. -/
noncomputable def nearestStep (st : ℝ × ℕ × ℕ) (dist : ℝ) : ℝ × ℕ × ℕ :=
  if dist < st.1 then (dist, st.2.2, st.2.2 + 1) else (st.1, st.2.1, st.2.2 + 1)

/-- `min_ind` after the search loop, fake_spectra/index_table.cpp:173-194. -/
noncomputable def nearestCell (box : ℝ) (dists : List ℝ) : ℕ := (dists.foldl nearestStep (box, 0, 0)).2.1

/-- Result of one pass of the loop body: go on, or leave the loop. -/
inductive CellStep where
  | next (arr : List (ℝ × ℝ))
  | brk (arr : List (ℝ × ℝ))

/-- Body of the grid loop after the search, fake_spectra/index_table.cpp:195-216. `arr2[2*k]` and
`arr2[2*k+1]` are the two parts of element `k`. -/
noncomputable def cellStep (box reso : ℝ) (arr : List (ℝ × ℝ)) (min_ind : ℕ) (xp : ℝ) : CRes CellStep :=
  match arr[min_ind]? with
  | none => .error .outOfBounds
  | some c =>
    if c.1 < reso ∧ xp > box / 2 + 0.5 * reso then .ok (.brk (arr.set min_ind (xp, c.2 + box)))
    else if xp > 1.5 * reso + c.2 then .error (.exit 1)
    else
      let left := if c.1 > 2 * box then xp else c.1
      .ok (.next (arr.set min_ind (left, xp)))

/-- The grid loop, `n` iterations from grid point `i` on; `sel xp` is the particle chosen by the
search. fake_spectra/index_table.cpp:169-217. -/
noncomputable def assignLoop (box reso : ℝ) (sel : ℝ → ℕ) : ℕ → ℕ → List (ℝ × ℝ) → CRes (List (ℝ × ℝ))
  | 0, _, arr => .ok arr
  | n + 1, i, arr =>
    let xp := (i + 0.5) * reso
    match cellStep box reso arr (sel xp) xp with
    | .error e => .error e
    | .ok (.brk arr) => .ok arr
    | .ok (.next arr) => assignLoop box reso sel n (i + 1) arr

/-- `assign_cells` for a line with the given near particles, fake_spectra/index_table.cpp:152-223. -/
noncomputable def assign_cells (box : ℝ) (line : Line) (parts : List Part) (nearby : StdMap ℝ) :
    CRes (List (ℝ × ℝ)) := do
  let cells ← nearby.mapM (fun it => readAt parts it.1)
  let posx ← cells.mapM (fun p => coord p.pos line.axis)
  let arr := List.replicate cells.length (3 * box, 3 * box)
  let N := ⌊box / RESO⌋.toNat
  let reso := box / N
  let sel := fun xp => nearestCell box
    ((cells.zip posx).map (fun c => cellDist box line c.1.pos c.2 xp))
  let arr ← assignLoop box reso sel N 0 arr
  .ok (arr.map (fun c => (c.1 - 0.5 * reso, c.2 + 0.5 * reso)))

/-- The particle loop of one sightline in `compute_colden`, fake_spectra/part_int.cpp:68-80. The
limits from `assign_cells` are paired with the near particles in order (`ind++`). -/
noncomputable def coldenLine (L : LineAbsorption) (nbins : ℕ) (parts : List Part) (i : ℕ) (line : Line)
    (entries : List ((ℕ × ℝ) × (ℝ × ℝ))) (colden : List ℝ) : CRes (List ℝ) :=
  entries.foldlM (fun colden e => do
    let p ← readAt parts e.1.1
    let ppos ← coord p.pos line.axis
    if L.kernel = VORONOI_MESH then
      add_colden_particle L colden (i * nbins) nbins e.2.1 p.dens ppos e.2.2
    else
      add_colden_particle L colden (i * nbins) nbins e.1.2 p.dens ppos p.h) colden

/-- The particle loop of one sightline in `compute_tau`, fake_spectra/part_int.cpp:35-47. -/
noncomputable def tauLine (L : LineAbsorption) (nbins : ℕ) (parts : List Part) (i : ℕ) (line : Line)
    (entries : List ((ℕ × ℝ) × (ℝ × ℝ))) (tau : List ℝ) : CRes (List ℝ) :=
  entries.foldlM (fun tau e => do
    let p ← readAt parts e.1.1
    let ppos ← coord p.pos line.axis
    let pvel ← coord p.vel line.axis
    if L.kernel = VORONOI_MESH then
      add_tau_particle L tau (i * nbins) nbins e.2.1 p.dens ppos pvel p.temp e.2.2
    else
      add_tau_particle L tau (i * nbins) nbins e.1.2 p.dens ppos pvel p.temp p.h) tau

/-- Near particles of a line with their segment limits; without the Voronoi kernel `arr2` is `NULL`
and never read (the pair `(0, 0)` stands for it). fake_spectra/part_int.cpp:28-29, 61-62. -/
noncomputable def lineEntries (kernel : ℤ) (box : ℝ) (line : Line) (parts : List Part)
    (nearby : StdMap ℝ) : CRes (List ((ℕ × ℝ) × (ℝ × ℝ))) :=
  if kernel = VORONOI_MESH then do
    let arr2 ← assign_cells box line parts nearby
    .ok (nearby.zip arr2)
  else .ok (nearby.map (fun e => (e, (0, 0))))

/-- The positions and radii given to the index table. -/
def posH (parts : List Part) : List (Vec3 × ℝ) := parts.map (fun p => (p.pos, p.h))

/-- Common shape of `compute_tau` and `compute_colden`: one pass over the sightlines in order
(fake_spectra/part_int.cpp:22-50, 55-83). The `omp parallel for` over sightlines is treated in
`Verif.Model.Race`. -/
noncomputable def overLines
    (body : ℕ → Line → List ((ℕ × ℝ) × (ℝ × ℝ)) → List ℝ → CRes (List ℝ))
    (kernel : ℤ) (box : ℝ) (lines : List Line) (parts : List Part) (out : List ℝ) : CRes (List ℝ) :=
  let nearby_array := get_near_particles (build lines box) (posH parts)
  (List.range nearby_array.length).foldlM (fun out (i : ℕ) => do
    let nearby ← readAt nearby_array i
    let line ← readAt lines i
    let entries ← lineEntries kernel box line parts nearby
    body i line entries out) out

/-- fake_spectra/part_int.cpp:53-84 -/
noncomputable def compute_colden (L : LineAbsorption) (nbins : ℕ) (box : ℝ) (lines : List Line)
    (parts : List Part) (colden : List ℝ) : CRes (List ℝ) :=
  overLines (coldenLine L nbins parts) L.kernel box lines parts colden

/-- fake_spectra/part_int.cpp:20-51 -/
noncomputable def compute_tau (L : LineAbsorption) (nbins : ℕ) (box : ℝ) (lines : List Line)
    (parts : List Part) (tau : List ℝ) : CRes (List ℝ) :=
  overLines (tauLine L nbins parts) L.kernel box lines parts tau

end PartInt
end Verif
