import Verif.Model.PartInt

/-!
The assignment of cells with limits in single precision: `float * arr2`, fake_spectra/index_table.cpp:152-223. `fl` is what a `double` becomes when it
is stored in a `float`. Everything else is in double precision and exact here.
-/

namespace Verif.CellRounding
open Verif Verif.PartInt Verif.IndexTable Verif.Absorption

/-- Body of the grid loop after the search, fake_spectra/index_table.cpp:195-216: `arr2[2*min_ind+1] += boxsize` is computed in double precision
and stored. -/
noncomputable def cellStep (fl : ℝ → ℝ) (box reso : ℝ) (arr : List (ℝ × ℝ)) (min_ind : ℕ) (xp : ℝ) : CRes CellStep :=
  match arr[min_ind]? with
  | none => .error .outOfBounds
  | some c =>
    if c.1 < reso ∧ xp > box / 2 + 0.5 * reso then .ok (.brk (arr.set min_ind (fl xp, fl (c.2 + box))))
    else if xp > 1.5 * reso + c.2 then .error (.exit 1)
    else
      let left := if c.1 > 2 * box then fl xp else c.1
      .ok (.next (arr.set min_ind (left, fl xp)))

/-- The grid loop, fake_spectra/index_table.cpp:169-217. -/
noncomputable def assignLoop (fl : ℝ → ℝ) (box reso : ℝ) (sel : ℝ → ℕ) : ℕ → ℕ → List (ℝ × ℝ) → CRes (List (ℝ × ℝ))
  | 0, _, arr => .ok arr
  | n + 1, i, arr =>
    let xp := (i + 0.5) * reso
    match cellStep fl box reso arr (sel xp) xp with
    | .error e => .error e
    | .ok (.brk arr) => .ok arr
    | .ok (.next arr) => assignLoop fl box reso sel n (i + 1) arr

/-- `assign_cells`, fake_spectra/index_table.cpp:152-223. -/
noncomputable def assign_cells (fl : ℝ → ℝ) (box : ℝ) (line : Line) (parts : List Part) (nearby : StdMap ℝ) : CRes (List (ℝ × ℝ)) := do
  let cells ← nearby.mapM (fun it => readAt parts it.1)
  let posx ← cells.mapM (fun p => coord p.pos line.axis)
  let arr := List.replicate cells.length (fl (3 * box), fl (3 * box))
  let N := ⌊box / RESO⌋.toNat
  let reso := box / N
  let sel := fun xp => nearestCell box ((cells.zip posx).map (fun c => cellDist box line c.1.pos c.2 xp))
  let arr ← assignLoop fl box reso sel N 0 arr
  .ok (arr.map (fun c => (fl (c.1 - 0.5 * reso), fl (c.2 + 0.5 * reso))))

/-- What the particle loop of a sightline runs over, with limits in single precision: fake_spectra/part_int.cpp:28-39, 61-72. -/
noncomputable def lineEntries (fl : ℝ → ℝ) (kernel : ℤ) (box : ℝ) (line : Line) (parts : List Part) (nearby : StdMap ℝ) :
    CRes (List ((ℕ × ℝ) × (ℝ × ℝ))) :=
  if kernel = VORONOI_MESH then do
    let arr2 ← assign_cells fl box line parts nearby
    .ok (nearby.zip arr2)
  else .ok (nearby.map (fun e => (e, (0, 0))))

/-- `compute_colden` with limits in single precision, fake_spectra/part_int.cpp:53-84. -/
noncomputable def compute_colden (fl : ℝ → ℝ) (L : LineAbsorption) (nbins : ℕ) (box : ℝ) (lines : List Line) (parts : List Part)
    (colden : List ℝ) : CRes (List ℝ) :=
  let nearby_array := get_near_particles (build lines box) (posH parts)
  (List.range nearby_array.length).foldlM (fun colden (i : ℕ) => do
    let nearby ← readAt nearby_array i
    let line ← readAt lines i
    let entries ← lineEntries fl L.kernel box line parts nearby
    coldenLine L nbins parts i line entries colden) colden

end Verif.CellRounding
