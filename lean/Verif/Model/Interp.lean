import Verif.Common
import Mathlib.Analysis.SpecialFunctions.Exp
import Mathlib.Analysis.SpecialFunctions.Pow.Real
import Mathlib.Analysis.SpecialFunctions.Log.Base
import Mathlib.Logic.Relation

/-!
Table look-ups: scipy's `interp1d` as used by rate_network.py:434-486 and gas_properties.py:49-58, the parallel
two-dimensional look-up (py_module.cpp:291-355) and its caller (ratenetworkspectra.py:54-82).
-/

namespace Verif.Interp

/-- `searchsorted(xs, x)` on the first `n` elements of a sorted array: the number of elements below `x`. -/
noncomputable def searchsorted (xs : ℕ → ℝ) (x : ℝ) : ℕ → ℕ
  | 0 => 0
  | n + 1 => if xs n < x then n + 1 else searchsorted xs x n

/-- `interp1d(xs, ys)(x)`, linear: outside the range it raises ValueError. Tables have `n ≥ 2` rows. -/
noncomputable def interp1d (n : ℕ) (xs ys : ℕ → ℝ) (x : ℝ) : Py ℝ :=
  if x < xs 0 ∨ x > xs (n - 1) then .error .valueError
  else
    let hi := max 1 (min (searchsorted xs x n) (n - 1))
    let lo := hi - 1
    let slope := (ys hi - ys lo) / (xs hi - xs lo)
    .ok (slope * (x - xs lo) + ys lo)

/-- `interp1d(xs, ys, bounds_error=False, fill_value=(ys[0], ys[-1]))`, rate_network.py:81. -/
noncomputable def interp1dFill (n : ℕ) (xs ys : ℕ → ℝ) (x : ℝ) : ℝ :=
  match interp1d n xs ys x with
  | .ok y => y
  | .error _ => if x < xs 0 then ys 0 else ys (n - 1)

/-- `Gray_ss`, rate_network.py:77-81: the gray opacity at a redshift. -/
noncomputable def graySS (redshift : ℝ) : ℝ :=
  interp1dFill 6 (fun i => (i : ℝ)) (fun i => ([2.59e-18, 2.37e-18, 2.27e-18, 2.15e-18, 2.02e-18, 1.94e-18] : List ℝ).getD i 0) redshift

/-- `gH0`, `gHe0`, `gHep` and the heating rates, rate_network.py:450-486: a table of `n` rows with `log10(1+z)` in the
first column, interpolated in the logarithm of the rate. Rates of zero (in the last row of one of the shipped tables) are
not modelled. -/
noncomputable def photoRate (n : ℕ) (log1z rates : ℕ → ℝ) (redshift : ℝ) : Py ℝ := do
  let l ← interp1d n log1z (fun i => Real.logb 10 (rates i)) (Real.logb 10 (1 + redshift))
  pure ((10 : ℝ) ^ l)

/-! The parallel look-up. -/

/-- A float of the result array: zero as allocated, a value, or what happened to be on the stack. -/
inductive Cell where
  | zero
  | value (x : ℝ)
  | uninit

/-- A thread: the particles it still has to look up, and whether it has passed `if(errval == GSL_EDOM) continue` for the
first of them. -/
structure Thread where
  todo : List ℕ
  entered : Bool

/-- The shared state: `errval == GSL_EDOM`, the results, the threads. -/
structure State (n : ℕ) where
  err : Bool
  res : ℕ → Cell
  th : Fin n → Thread

/-- One step of one thread of the loop, py_module.cpp:332-341. `out i` says that particle `i` is outside the table, in
which case `gsl_interp2d_eval_e` returns `GSL_EDOM` and leaves `result` unset; else `val i` is the interpolated value.
The test of `errval` and the assignment to it are separate accesses to the shared variable. The race on the text of the
message is not modelled. -/
inductive Step {n : ℕ} (out : ℕ → Bool) (val : ℕ → ℝ) : State n → State n → Prop where
  | skip (s : State n) (k : Fin n) (i : ℕ) (rest : List ℕ) (hk : s.th k = ⟨i :: rest, false⟩) (he : s.err = true) :
      Step out val s { s with th := Function.update s.th k ⟨rest, false⟩ }
  | enter (s : State n) (k : Fin n) (i : ℕ) (rest : List ℕ) (hk : s.th k = ⟨i :: rest, false⟩) (he : s.err = false) :
      Step out val s { s with th := Function.update s.th k ⟨i :: rest, true⟩ }
  | eval (s : State n) (k : Fin n) (i : ℕ) (rest : List ℕ) (hk : s.th k = ⟨i :: rest, true⟩) :
      Step out val s
        { err := out i, res := Function.update s.res i (if out i then .uninit else .value (val i)),
          th := Function.update s.th k ⟨rest, false⟩ }

/-- The state before the loop, py_module.cpp:320-330, with the given distribution of the particles over threads. -/
def start {n : ℕ} (queues : Fin n → List ℕ) : State n := ⟨false, fun _ => .zero, fun k => ⟨queues k, false⟩⟩

/-- Some execution of the loop ends in state `s`. -/
def Ends {n : ℕ} (out : ℕ → Bool) (val : ℕ → ℝ) (queues : Fin n → List ℕ) (s : State n) : Prop :=
  Relation.ReflTransGen (Step out val) (start queues) s ∧ ∀ k, (s.th k).todo = []

/-- What the call returns, py_module.cpp:342-352: the results, or AttributeError. -/
def outcome {n : ℕ} (s : State n) : Py (ℕ → Cell) := if s.err then .error .attributeError else .ok s.res

/-- gsl's test of the arguments: outside when below the first or above the last grid value. -/
noncomputable def outside (xmin xmax ymin ymax x y : ℝ) : Bool :=
  decide (x < xmin ∨ x > xmax ∨ y < ymin ∨ y > ymax)

/-- The look-up without threads: AttributeError if any particle is outside, py_module.cpp:332-345. `eval` is gsl's
bicubic interpolation of the table, which is not modelled. -/
noncomputable def interpolate_2d (xmin xmax ymin ymax : ℝ) (eval : ℝ → ℝ → ℝ) (parts : List (ℝ × ℝ)) : Py (List ℝ) :=
  if parts.any (fun p => outside xmin xmax ymin ymax p.1 p.2) then .error .attributeError
  else .ok (parts.map (fun p => eval p.1 p.2))

/-! The caller. -/

/-- The limits of the table, ratenetworkspectra.py:19-32. -/
structure Grid where
  dmin : ℝ
  dmax : ℝ
  emin : ℝ
  emax : ℝ

/-- The two clamps of the log of the internal energy, ratenetworkspectra.py:62-66, in order. -/
noncomputable def clampE (g : Grid) (l : ℝ) : ℝ :=
  let l1 := if l ≥ g.emax then g.emax * 0.99 else l
  if l1 ≤ g.emin then g.emin * 1.01 else l1

/-- `out[ii] = np.exp(vals)` with `ii` the particles below the largest tabulated density, ratenetworkspectra.py:70-80:
the values go back in order; `none` where nothing is written. -/
noncomputable def writeVals (g : Grid) : List (ℝ × ℝ) → List ℝ → List (Option ℝ)
  | [], _ => []
  | p :: ps, v =>
    if p.1 < g.dmax then
      match v with
      | x :: vs => some (Real.exp x) :: writeVals g ps vs
      | [] => none :: writeVals g ps []
    else none :: writeVals g ps v

/-- `_get_interp`, ratenetworkspectra.py:54-82, on particles given by log density and log energy: the value for each
particle, `none` for those the table does not cover (`ii2`). Python's `np.max` of an empty array raises ValueError. The
rounding to 32 bits is not modelled. -/
noncomputable def getInterp (g : Grid) (eval : ℝ → ℝ → ℝ) (parts : List (ℝ × ℝ)) : Py (List (Option ℝ)) := do
  let clamped := parts.map (fun p => (p.1, clampE g p.2))
  let ii := clamped.filter (fun p => p.1 < g.dmax)
  if ii = [] then .error .valueError
  else if ii.any (fun p => decide (g.emax < p.2)) = true ∨ ii.any (fun p => decide (g.emin > p.2)) = true then
    .error .valueError
  else do
    let vals ← interpolate_2d g.dmin g.dmax g.emin g.emax eval ii
    pure (writeVals g clamped vals)

end Verif.Interp
