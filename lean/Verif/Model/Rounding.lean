import Verif.Model.ComputeSpectra
import Verif.Model.Race
import Mathlib.Data.Int.Log
import Mathlib.Algebra.Order.Round

/-!
The sums of `Spectra.compute_spectra` in floating point: every `+=` of the interpolator
(fake_spectra/absorption.cpp:167-271), the sum over segments and the sum over MPI ranks
(fake_spectra/spectra.py:801-831) rounded to the type of the array it is made in. The values added are those of
the exact model; only the sums are rounded. The exponent range is unlimited: no overflow, no underflow.
-/

namespace Verif
namespace Rounding

open PartInt IndexTable Absorption ComputeSpectra Race

/-- Element types: `np.float32` and `double`/`np.float64`. -/
inductive Width where
  | single
  | double
deriving DecidableEq

/-- Binary digits of the significand. -/
def Width.digits : Width → ℕ
  | .single => 24
  | .double => 53

/-- The type numpy computes a sum of two arrays in: the wider of the two. -/
def Width.wider : Width → Width → Width
  | .single, .single => .single
  | _, _ => .double

/-- Rounding to the nearest number with `p` binary digits. Simplification: ties go up, where IEEE 754 rounds them to
even; the theorems are about every rounding that is as close. -/
noncomputable def roundTo (p : ℕ) (x : ℝ) : ℝ :=
  round (x * (2 : ℝ) ^ ((p : ℤ) - 1 - Int.log 2 |x|)) * (2 : ℝ) ^ (Int.log 2 |x| - ((p : ℤ) - 1))

/-- `array[j] += x` in double precision (fake_spectra/absorption.cpp:208, 251, 267). -/
noncomputable def addOp (fl : Width → ℝ → ℝ) (a : List ℝ) (op : ℕ × ℝ) : CRes (List ℝ) :=
  match a[op.1]? with
  | none => .error .outOfBounds
  | some r => .ok (a.set op.1 (fl .double (r + op.2)))

/-- `compute_tau` or `compute_colden` on an array of zeros (fake_spectra/part_int.cpp:20-84,
fake_spectra/py_module.cpp:165-221): the updates of all the sightlines in order. A smoothing kernel is assumed. Which
thread runs a sightline makes no difference: sightlines do not share elements (C54). -/
noncomputable def interpolateFl (fl : Width → ℝ → ℝ) (c : Config) (get_tau : Bool) (parts : List Part) :
    CRes (List ℝ) := do
  let ops ← threadOps get_tau c.L c.nbins c.lines parts (get_near_particles (build c.lines c.box) (posH parts))
    (List.range c.lines.length)
  ops.foldlM (addOp fl) (zeros c)

/-- `_interpolate_single_file`, fake_spectra/spectra.py:501-548: an array of doubles from the interpolator, or zeros of
type `float32` when there is nothing to interpolate (line 527). -/
noncomputable def single_file_fl (fl : Width → ℝ → ℝ) (c : Config) (get_tau : Bool) (seg : List Raw) :
    Outcome (Width × List ℝ) :=
  match read_particle_data c get_tau seg with
  | .error e => .raised e
  | .ok none => .value (.single, zeros c)
  | .ok (some parts) => match interpolateFl fl c get_tau parts with
    | .error e => .crashed e
    | .ok a => .value (.double, a)

/-- One element of `result += tresult`, fake_spectra/spectra.py:823: the sum is made in the wider type and stored in
the type of `result`. -/
noncomputable def addInto (fl : Width → ℝ → ℝ) (w w' : Width) (x y : ℝ) : ℝ :=
  if w.wider w' = w then fl w (x + y) else fl w (fl (w.wider w') (x + y))

/-- The loop over the remaining segments, fake_spectra/spectra.py:819-824. -/
noncomputable def addSegmentsFl (fl : Width → ℝ → ℝ) (c : Config) (get_tau : Bool) (w : Width) (result : List ℝ) :
    List (List Raw) → Outcome (Width × List ℝ)
  | [] => .value (w, result)
  | seg :: segs => match single_file_fl fl c get_tau seg with
    | .value t => addSegmentsFl fl c get_tau w (List.zipWith (addInto fl w t.1) result t.2) segs
    | .raised e => .raised e
    | .crashed e => .crashed e

/-- `compute_spectra` without MPI, fake_spectra/spectra.py:801-826. -/
noncomputable def compute_spectra_fl (fl : Width → ℝ → ℝ) (c : Config) (get_tau : Bool) :
    List (List Raw) → Outcome (Width × List ℝ)
  | [] => .raised .indexError
  | seg :: segs => match single_file_fl fl c get_tau seg with
    | .value t => addSegmentsFl fl c get_tau t.1 t.2 segs
    | .raised e => .raised e
    | .crashed e => .crashed e

/-- The order in which `Allreduce` adds up the arrays of the ranks: any binary tree. -/
inductive Reduction where
  | rank (segs : List (List Raw))
  | add (l r : Reduction)

/-- The segments of every rank, from left to right. -/
def Reduction.ranks : Reduction → List (List (List Raw))
  | .rank segs => [segs]
  | .add l r => l.ranks ++ r.ranks

/-- `compute_spectra` with MPI, fake_spectra/spectra.py:826-831: the array of each rank is converted to `float32` and the
arrays are added up in that type. -/
noncomputable def compute_spectra_mpi_fl (fl : Width → ℝ → ℝ) (c : Config) (get_tau : Bool) :
    Reduction → Outcome (List ℝ)
  | .rank segs => match compute_spectra_fl fl c get_tau segs with
    | .value t => .value (t.2.map (fl .single))
    | .raised e => .raised e
    | .crashed e => .crashed e
  | .add l r => match compute_spectra_mpi_fl fl c get_tau l, compute_spectra_mpi_fl fl c get_tau r with
    | .value a, .value b => .value (List.zipWith (fun x y => fl .single (x + y)) a b)
    | .raised e, _ => .raised e
    | .crashed e, _ => .crashed e
    | _, .raised e => .raised e
    | _, .crashed e => .crashed e

end Rounding
end Verif
