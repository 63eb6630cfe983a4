import Verif.Model.ComputeSpectra
import Verif.Model.MeanFlux

/-!
The functions of the extension module at the level of numpy arrays and memory: argument checks (fake_spectra/py_module.cpp) and
every read of an input array (fake_spectra/index_table.cpp, part_int.cpp). An array is its type, its shape and its elements in
C order; an access outside the elements, or outside the shape, is an error.

Sizes fit the C types; those that do not are in MachineInts. The critical sections run in the order of the particles; that their order does not matter is proved
elsewhere. The conversion of arguments by `PyArg_ParseTuple` is in ParseArgs.
-/

namespace Verif.PyModule
open Verif Verif.ComputeSpectra Verif.PartInt Verif.IndexTable Verif.Absorption

/-- The types of elements the module tells apart, py_module.cpp:11-20. -/
inductive DType where
  | float32
  | float64
  | int32
  | other
  deriving DecidableEq

/-- A numpy array. -/
structure Arr (α : Type) where
  dtype : DType
  dims : List ℕ
  data : List α

/-- `PyArray_DIM(a, k)`: there is no check that the array has that many dimensions. -/
def dim {α : Type} (a : Arr α) (k : ℕ) : CRes ℕ := readAt a.dims k

/-- `check_type`, py_module.cpp:12-15. -/
def check_type {α : Type} (a : Arr α) (t : DType) : Bool := !(a.dtype == t)

/-! ### index_table.cpp on arrays -/

/-- The constructor loop, index_table.cpp:10-15, `n` more lines from line `i` on: the tables `index_table` and
`index_table_xx`. -/
noncomputable def buildM (axis : List ℤ) (cofm : List ℝ) : ℕ → ℕ → List (ℝ × ℕ) × List (ℝ × ℕ) → CRes (List (ℝ × ℕ) × List (ℝ × ℕ))
  | 0, _, t => .ok t
  | n + 1, i, t => do
    let a ← readAt axis (i : ℤ)
    if a = 1 then do
      let k ← readAt cofm (3 * (i : ℤ) + 1)
      buildM axis cofm n (i + 1) (t.1, MultiMap.insert t.2 k i)
    else do
      let k ← readAt cofm (3 * (i : ℤ))
      buildM axis cofm n (i + 1) (MultiMap.insert t.1 k i, t.2)

/-- One iteration of index_table.cpp:24-49. -/
noncomputable def rangeStepM (box : ℝ) (axis : List ℤ) (cofm : List ℝ) (pos : ℤ → CRes ℝ) (hh first : ℝ) (nearby : StdMap ℝ)
    (it : ℝ × ℕ) : CRes (StdMap ℝ) := do
  let iaxis ← readAt axis (it.2 : ℤ)
  let second ← pos (if iaxis = 3 then 1 else 2)
  let lproj2 ← readAt cofm (3 * (it.2 : ℤ) + (if iaxis = 3 then 1 else 2))
  if second_close box second lproj2 hh then
    let dr2 := calc_dr2 box (first - it.1) (second - lproj2)
    .ok (if dr2 ≤ hh * hh then nearby.assign it.2 dr2 else nearby)
  else .ok nearby

/-- index_table.cpp:22-50. -/
noncomputable def get_nearby_from_rangeM (box : ℝ) (axis : List ℤ) (cofm : List ℝ) (elems : List (ℝ × ℕ)) (nearby : StdMap ℝ)
    (pos : ℤ → CRes ℝ) (hh first : ℝ) : CRes (StdMap ℝ) :=
  elems.foldlM (rangeStepM box axis cofm pos hh first) nearby

/-- index_table.cpp:89-113. -/
noncomputable def get_nearbyM (box : ℝ) (axis : List ℤ) (cofm : List ℝ) (first : ℝ) (sort_los : List (ℝ × ℕ)) (nearby : StdMap ℝ)
    (pos : ℤ → CRes ℝ) (hh : ℝ) : CRes (StdMap ℝ) :=
  let ffp := first + hh
  let ffp := if ffp > box then ffp - box else ffp
  let ffm := first - hh
  let ffm := if ffm < 0 then ffm + box else ffm
  let low := MultiMap.lowerBound sort_los ffm
  let high := MultiMap.lowerBound sort_los ffp
  if ffm ≤ ffp then
    get_nearby_from_rangeM box axis cofm (MultiMap.range sort_los low high) nearby pos hh first
  else do
    let nearby ← get_nearby_from_rangeM box axis cofm (MultiMap.range sort_los 0 high) nearby pos hh first
    get_nearby_from_rangeM box axis cofm (MultiMap.range sort_los low sort_los.length) nearby pos hh first

/-- index_table.cpp:117-127: `pos k` reads coordinate `k` of the particle. -/
noncomputable def get_near_linesM (box : ℝ) (axis : List ℤ) (cofm : List ℝ) (t : List (ℝ × ℕ) × List (ℝ × ℕ)) (pos : ℤ → CRes ℝ)
    (hh : ℝ) : CRes (StdMap ℝ) := do
  let nearby : StdMap ℝ := []
  let nearby ← (if t.1.length > 0 then do
    let x ← pos 0
    get_nearbyM box axis cofm x t.1 nearby pos hh
    else .ok nearby : CRes (StdMap ℝ))
  if t.2.length > 0 then do
    let y ← pos 1
    get_nearbyM box axis cofm y t.2 nearby pos hh
  else .ok nearby

/-- `Pos[3*i + k]`. -/
def posAt (Pos : List ℝ) (i : ℕ) (k : ℤ) : CRes ℝ := readAt Pos (3 * (i : ℤ) + k)

/-- `get_near_particles`, index_table.cpp:130-150. -/
noncomputable def get_near_particlesM (box : ℝ) (axis : List ℤ) (cofm : List ℝ) (numLos : ℕ) (t : List (ℝ × ℕ) × List (ℝ × ℕ))
    (Pos h : List ℝ) (npart : ℕ) : CRes (List (StdMap ℝ)) :=
  (List.range npart).foldlM (fun acc (i : ℕ) => do
    let hh ← readAt h (i : ℤ)
    let nearby ← get_near_linesM box axis cofm t (posAt Pos i) hh
    .ok (critical i nearby acc)) (List.replicate numLos [])

/-- The distance used by `assign_cells`, index_table.cpp:178-189, from the coordinates read. -/
noncomputable def cellDistM (box : ℝ) (c : ℝ × ℝ × ℝ) (xp yp zp : ℝ) : ℝ :=
  let dx := wrapAbs box (c.1 - xp)
  let dy := wrapAbs box (c.2.1 - yp)
  let dz := wrapAbs box (c.2.2 - zp)
  √(dx * dx + dy * dy + dz * dz)

/-- `assign_cells`, index_table.cpp:152-223. The coordinates are read in every pass of the grid loop; they are read once here,
and not at all if the loop makes no pass. -/
noncomputable def assign_cellsM (box : ℝ) (axis : List ℤ) (cofm Pos : List ℝ) (i : ℕ) (nearby : StdMap ℝ) : CRes (List (ℝ × ℝ)) := do
  let a ← readAt axis (i : ℤ)
  let yp ← readAt cofm (3 * (i : ℤ) + Int.tmod a 3)
  let zp ← readAt cofm (3 * (i : ℤ) + Int.tmod (a + 1) 3)
  let N := ⌊box / RESO⌋.toNat
  let cells ← (if N = 0 then .ok [] else nearby.mapM (fun it => do
    let x ← posAt Pos it.1 (a - 1)
    let y ← posAt Pos it.1 (Int.tmod a 3)
    let z ← posAt Pos it.1 (Int.tmod (a + 1) 3)
    .ok (x, y, z)) : CRes (List (ℝ × ℝ × ℝ)))
  let arr := List.replicate nearby.length (3 * box, 3 * box)
  let reso := box / N
  let sel := fun xp => nearestCell box (cells.map (fun c => cellDistM box c xp yp zp))
  let arr ← assignLoop box reso sel N 0 arr
  .ok (arr.map (fun c => (c.1 - 0.5 * reso, c.2 + 0.5 * reso)))

/-! ### part_int.cpp on arrays -/

/-- The limits of the particles of a line, part_int.cpp:28-29, 61-62. -/
noncomputable def lineEntriesM (kernel : ℤ) (box : ℝ) (axis : List ℤ) (cofm Pos : List ℝ) (i : ℕ) (nearby : StdMap ℝ) :
    CRes (List ((ℕ × ℝ) × (ℝ × ℝ))) :=
  if kernel = VORONOI_MESH then do
    let arr2 ← assign_cellsM box axis cofm Pos i nearby
    .ok (nearby.zip arr2)
  else .ok (nearby.map (fun e => (e, (0, 0))))

/-- One particle of `compute_colden`, part_int.cpp:68-79. -/
noncomputable def coldenStepM (L : LineAbsorption) (nbins : ℕ) (Pos Dens h : List ℝ) (i : ℕ) (a : ℤ) (colden : List ℝ)
    (e : (ℕ × ℝ) × (ℝ × ℝ)) : CRes (List ℝ) := do
  let ppos ← posAt Pos e.1.1 (a - 1)
  let dens ← readAt Dens (e.1.1 : ℤ)
  if L.kernel = VORONOI_MESH then add_colden_particle L colden (i * nbins) nbins e.2.1 dens ppos e.2.2
  else do
    let hh ← readAt h (e.1.1 : ℤ)
    add_colden_particle L colden (i * nbins) nbins e.1.2 dens ppos hh

/-- One particle of `compute_tau`, part_int.cpp:35-47. -/
noncomputable def tauStepM (L : LineAbsorption) (nbins : ℕ) (Pos Vel Dens temp h : List ℝ) (i : ℕ) (a : ℤ) (tau : List ℝ)
    (e : (ℕ × ℝ) × (ℝ × ℝ)) : CRes (List ℝ) := do
  let ppos ← posAt Pos e.1.1 (a - 1)
  let pvel ← posAt Vel e.1.1 (a - 1)
  let dens ← readAt Dens (e.1.1 : ℤ)
  let t ← readAt temp (e.1.1 : ℤ)
  if L.kernel = VORONOI_MESH then add_tau_particle L tau (i * nbins) nbins e.2.1 dens ppos pvel t e.2.2
  else do
    let hh ← readAt h (e.1.1 : ℤ)
    add_tau_particle L tau (i * nbins) nbins e.1.2 dens ppos pvel t hh

/-- The loop over sightlines, part_int.cpp:22-50, 55-83. -/
noncomputable def overLinesM (step : ℕ → ℤ → List ℝ → (ℕ × ℝ) × (ℝ × ℝ) → CRes (List ℝ)) (kernel : ℤ) (box : ℝ) (axis : List ℤ)
    (cofm : List ℝ) (numLos : ℕ) (t : List (ℝ × ℕ) × List (ℝ × ℕ)) (Pos h : List ℝ) (npart : ℕ) (out : List ℝ) : CRes (List ℝ) := do
  let nearby_array ← get_near_particlesM box axis cofm numLos t Pos h npart
  (List.range nearby_array.length).foldlM (fun out (i : ℕ) => do
    let nearby ← readAt nearby_array (i : ℤ)
    let entries ← lineEntriesM kernel box axis cofm Pos i nearby
    let a ← readAt axis (i : ℤ)
    entries.foldlM (step i a) out) out

/-! ### py_module.cpp -/

/-- The rest of a C function as seen from Python. -/
def crash {α β : Type} (r : CRes α) (k : α → Outcome β) : Outcome β :=
  match r with
  | .ok a => k a
  | .error e => .crashed e

/-- `Py_near_lines`, py_module.cpp:25-99. -/
noncomputable def py_near_lines (box : ℝ) (pos hh : Arr ℝ) (axis : Arr ℤ) (cofm : Arr ℝ) : Outcome (List ℕ) :=
  if 2 > cofm.dims.length ∨ 1 > axis.dims.length then .raised .valueError
  else crash (dim cofm 0) fun numLos => crash (dim pos 0) fun npart => crash (dim axis 0) fun naxis =>
    if numLos ≠ naxis then .raised .valueError
    else crash (dim cofm 1) fun three =>
      if 3 ≠ three then .raised .valueError
      else if check_type cofm .float64 || check_type axis .int32 then .raised .valueError
      else if check_type pos .float32 || check_type hh .float32 then .raised .typeError
      else crash (do
        let t ← buildM axis.data cofm.data numLos 0 ([], [])
        (List.range npart).foldlM (fun acc (i : ℕ) => do
          let h ← readAt hh.data (i : ℤ)
          let nearby ← get_near_linesM box axis.data cofm.data t (posAt pos.data i) h
          .ok (if nearby.length > 0 then StdSet.insert acc i else acc)) []) .value

/-- `Py_Particle_Interpolation`, py_module.cpp:103-233: the shape and the elements of the result. `L` stands for the line and
the particle kernel. A negative number of bins makes the allocation of the result fail, and the failure is looked at only after
the pointer to the data has been read from it, lines 189-190, 210-211. No bins: `z % nbins` stops the program if a pixel is
touched; here this is an access outside the empty result. -/
noncomputable def py_particle_interpolate (compute_tau : Bool) (nbins : ℤ) (L : LineAbsorption) (box : ℝ) (pos vel dens temp h : Arr ℝ)
    (axis : Arr ℤ) (cofm : Arr ℝ) : Outcome (List ℤ × List ℝ) :=
  if check_type pos .float32 || check_type vel .float32 || check_type dens .float32 || check_type temp .float32 || check_type h .float32 then
    .raised .typeError
  else if check_type cofm .float64 then .raised .typeError
  else if check_type axis .int32 then .raised .typeError
  else crash (dim cofm 0) fun numLos => crash (dim pos 0) fun npart => crash (dim dens 0) fun ndens =>
    if npart ≠ ndens then .raised .valueError
    else crash (dim h 0) fun nh =>
      if npart ≠ nh then .raised .valueError
      else crash (dim axis 0) fun naxis =>
        if numLos ≠ naxis then .raised .valueError
        else crash (dim cofm 1) fun three =>
          if 3 ≠ three then .raised .valueError
          else crash (do
            let t ← buildM axis.data cofm.data numLos 0 ([], [])
            if nbins < 0 then .error .outOfBounds
            else do
              let out := List.replicate (numLos * nbins.toNat) (0 : ℝ)
              let res ← (if compute_tau then
                  overLinesM (tauStepM L nbins.toNat pos.data vel.data dens.data temp.data h.data) L.kernel box axis.data cofm.data
                    numLos t pos.data h.data npart out
                else overLinesM (coldenStepM L nbins.toNat pos.data dens.data h.data) L.kernel box axis.data cofm.data
                    numLos t pos.data h.data npart out)
              .ok ([(numLos : ℤ), nbins], res)) .value

/-- `Py_mean_flux`, py_module.cpp:263-282: the number of pixels is an argument of its own. `iterate` is the Newton iteration on the
pixels read; the loop reads all of them. -/
noncomputable def py_mean_flux (iterate : List ℝ → ℝ) (tau : Arr ℝ) (nbins : ℤ) : Outcome ℝ :=
  if check_type tau .float64 then .raised .typeError
  else crash ((List.range nbins.toNat).mapM (fun (i : ℕ) => readAt tau.data (i : ℤ))) fun pixels => .value (iterate pixels)

/-- The elements found when the memory of an array is read as doubles: elements of four bytes are read in pairs (`pairs` is what
they mean), of elements of another size nothing is known. -/
def asDoubles (pairs : List ℝ → List ℝ) (a : Arr ℝ) : List ℝ :=
  match a.dtype with
  | .float64 => a.data
  | .float32 => (pairs a.data).take (a.data.length / 2)
  | .int32 => (pairs a.data).take (a.data.length / 2)
  | .other => pairs a.data

/-- The arrays read by `Py_interpolate_2d`, py_module.cpp:291-345, when no particle is outside the table: the particles, and the
grid, whose types are not checked, and neither is its shape. `eval` is the interpolation by GSL, which reads the whole grid. -/
noncomputable def py_interpolate_2d (pairs : List ℝ → List ℝ) (eval : List ℝ → List ℝ → List ℝ → ℝ → ℝ → ℝ)
    (partA partB xvals yvals grid : Arr ℝ) : Outcome (List ℝ) :=
  if check_type partA .float32 || check_type partB .float32 then .raised .typeError
  else crash (dim xvals 0) fun xsize => crash (dim yvals 0) fun ysize => crash (dim partA 0) fun osize =>
    crash (do
      let xs ← (List.range xsize).mapM (fun (i : ℕ) => readAt (asDoubles pairs xvals) (i : ℤ))
      let ys ← (List.range ysize).mapM (fun (i : ℕ) => readAt (asDoubles pairs yvals) (i : ℤ))
      let zs ← (List.range (xsize * ysize)).mapM (fun (i : ℕ) => readAt (asDoubles pairs grid) (i : ℤ))
      (List.range osize).mapM (fun (i : ℕ) => do
        let a ← readAt partA.data (i : ℤ)
        let b ← readAt partB.data (i : ℤ)
        .ok (eval xs ys zs a b))) .value

/-! ### The callers in spectra.py -/

/-- A float32 array of shape `(n, 3)`. -/
def vectors (vs : List Vec3) : Arr ℝ := ⟨.float32, [vs.length, 3], vs.flatMap (fun v => [v 0, v 1, v 2])⟩

/-- A float32 array of shape `(n,)`. -/
def numbers (xs : List ℝ) : Arr ℝ := ⟨.float32, [xs.length], xs⟩

/-- `self.axis`, an int32 array, spectra.py:171-174. -/
def axisArr (lines : List Line) : Arr ℤ := ⟨.int32, [lines.length], lines.map Line.axis⟩

/-- `self.cofm`, a float64 array. -/
def cofmArr (lines : List Line) : Arr ℝ := ⟨.float64, [lines.length, 3], lines.flatMap (fun l => [l.cofm 0, l.cofm 1, l.cofm 2])⟩

/-- `particles_near_lines`, spectra.py:675-685: the smallest of no axes is a `ValueError`. -/
noncomputable def particles_near_linesM (c : Config) (seg : List Raw) : Outcome (List ℕ) :=
  if c.lines = [] then .raised .valueError
  else if c.lines.all (fun l => decide (0 < l.axis)) && c.lines.all (fun l => decide (l.axis < 4)) then
    py_near_lines c.box (vectors (seg.map Raw.pos)) (numbers (seg.map Raw.h)) (axisArr c.lines) (cofmArr c.lines)
  else .raised .assertionError

/-- `_do_interpolation_work`, spectra.py:666-673, on the arrays of `_read_particle_data`: the velocities are an array of one zero
unless an optical depth is computed, the temperatures unless they were read, spectra.py:571-590. -/
noncomputable def do_interpolation_work (c : Config) (get_tau haveTemp : Bool) (parts : List Part) : Outcome (List ℤ × List ℝ) :=
  py_particle_interpolate get_tau c.nbins c.L c.box (vectors (parts.map Part.pos))
    (if get_tau then vectors (parts.map Part.vel) else numbers [0]) (numbers (parts.map Part.dens))
    (if haveTemp then numbers (parts.map Part.temp) else numbers [0]) (numbers (parts.map Part.h)) (axisArr c.lines) (cofmArr c.lines)

end Verif.PyModule
