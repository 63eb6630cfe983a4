import Verif.Model.Numpy
import Mathlib.Analysis.SpecialFunctions.Log.Base
import Mathlib.Analysis.SpecialFunctions.Pow.Real

/-!
Model of `get_b_param_dist`, voigtfit.py:331-396. A point is a pair (log10 of the column density, log10 of b). The minimiser of
scipy is a parameter.
-/

namespace Verif.BParam
open Verif.Np

/-- A log column density and a log b parameter. -/
abbrev Pt := ℝ × ℝ

/-- `a[mask]` for a boolean mask as long as the array. -/
def select {α : Type} (mask : List Bool) (a : List α) : List α :=
  (mask.zip a).filterMap (fun x => if x.1 then some x.2 else none)

/-- `np.std(a)`; the result for an empty array is not a number and is not modelled. -/
noncomputable def std (a : List ℝ) : ℝ := Real.sqrt (mean (a.map (fun x => (x - mean a) ^ 2)))

/-- `used` and the sort, voigtfit.py:335-338: the points in range, sorted by column density. -/
noncomputable def usedPoints (n_vals b_params : List ℝ) : List Pt :=
  (((n_vals.zip b_params).filter (fun p => decide (8 < p.2 ∧ p.2 < 100 ∧ p.1 < 10 ^ (14.5 : ℝ) ∧ 10 ^ (12.5 : ℝ) < p.1))).map
    (fun p => (Real.logb 10 p.1, Real.logb 10 p.2))).mergeSort (fun a b => decide (a.1 ≤ b.1))

/-- `12.5+i*0.25`. -/
noncomputable def edge (i : ℕ) : ℝ := 12.5 + i * 0.25

/-- `(ln_vals >= 12.5+i*0.25)*(ln_vals < 12.5+(i+1)*0.25)`, voigtfit.py:346. -/
noncomputable def inBin (i : ℕ) (p : Pt) : Bool := decide (edge i ≤ p.1 ∧ p.1 < edge (i + 1))

/-- `bin_range` before the loop, voigtfit.py:348. -/
noncomputable def startMask (i : ℕ) (pts : List Pt) : List Bool :=
  pts.map (fun p => inBin i p && decide ((10 : ℝ) ^ p.2 < 40))

/-- The state of the clipping loop: `bin_range` and `n_removed`. -/
structure Clip where
  mask : List Bool
  removed : ℕ

/-- `keep`, voigtfit.py:351-354: with no points the mean is not a number and nothing compares. -/
noncomputable def keep (lb : List ℝ) (mask : List Bool) : List Bool :=
  let sel := select mask lb
  if sel = [] then lb.map (fun _ => false)
  else lb.map (fun x => decide (|x - mean sel| < 2 * std sel))

/-- The body of the clipping loop, voigtfit.py:351-357. -/
noncomputable def Clip.step (lb : List ℝ) (s : Clip) : Clip :=
  let mask := s.mask.zipWith (· && ·) (keep lb s.mask)
  ⟨mask, s.mask.count true - mask.count true⟩

/-- The clipping loop, voigtfit.py:349-357. -/
noncomputable def clip (lb : List ℝ) (mask : List Bool) (fuel : ℕ) : Run Clip :=
  whileRun (fun s => .ok (decide (0 < s.removed))) (fun s => some (.ok (s.step lb))) fuel ⟨mask, 1⟩

/-- `bin_range[(bin_range is False)*(lb_params > mean)] = True`, voigtfit.py:360: an array is not the object `False`, so the
index is all false, whatever `above` is. -/
def restore (mask above : List Bool) : List Bool :=
  let isFalse := false
  mask.zipWith (fun m a => if isFalse && a then true else m) above

/-- One bin, voigtfit.py:345-361: what is appended to `final_retained`. -/
noncomputable def oneBin (pts : List Pt) (fuel i : ℕ) : Run (List Bool) :=
  Run.andThen (clip (pts.map Prod.snd) (startMask i pts) fuel) fun s =>
    let lb := pts.map Prod.snd
    let mask := restore s.mask (lb.map (fun x => decide (mean (select s.mask lb) < x)))
    let idx := (List.range pts.length).filter (fun j => ((pts[j]?).map (inBin i)).getD false)
    match idx.head?, idx.getLast? with
    | some first, some last => some (.ok (slice mask first (last + 1)))
    | _, _ => some (.error .indexError)

/-- The loop over bins, voigtfit.py:345-361, for the remaining bins. -/
noncomputable def allBins (pts : List Pt) (fuel : ℕ) : List ℕ → List Bool → Run (List Bool)
  | [], retained => some (.ok retained)
  | i :: is, retained => Run.andThen (oneBin pts fuel i) fun m => allBins pts fuel is (retained ++ m)

/-- The retained points, voigtfit.py:345-364: indexing with a mask of another length raises. -/
noncomputable def retainedPoints (pts : List Pt) (fuel : ℕ) : Run (List Pt) :=
  Run.andThen (allBins pts fuel (List.range 8) []) fun retained =>
    if retained.length = pts.length then some (.ok (select retained pts)) else some (.error .indexError)

/-- `lb_params - _power_fit(ln_vals, result[0], result[1])`, voigtfit.py:320-322. -/
noncomputable def residual (r : ℝ × ℝ) (p : Pt) : ℝ := p.2 - (r.1 + r.2 * (p.1 - 13.6))

/-- `sigma_fit`, voigtfit.py:377; not a number (and not modelled) without points. -/
noncomputable def sigmaFit (r : ℝ × ℝ) (pts : List Pt) : ℝ :=
  let res := pts.map (residual r)
  (res.map (fun x => |mean res - x|)).sum / res.length

/-- The state of the second loop: the points, `result`, `newresult` and `n_discarded`. -/
structure Refine where
  pts : List Pt
  result : ℝ × ℝ
  newresult : ℝ × ℝ
  discarded : ℕ

/-- The body of the second loop, voigtfit.py:374-385. Without points nothing is selected. -/
noncomputable def Refine.step (M : ℝ × ℝ → List Pt → ℝ × ℝ) (s : Refine) : Refine :=
  let result := s.newresult
  let pts := s.pts.filter (fun p => decide (residual result p ≤ sigmaFit result s.pts))
  ⟨pts, result, M result pts, s.pts.length - pts.length⟩

/-- The fits, voigtfit.py:368-396; `outside` is `n_vals.size - used[0].size`, the number of components out of range. -/
noncomputable def finalFit (M : ℝ × ℝ → List Pt → ℝ × ℝ) (guess : ℝ × ℝ) (pts : List Pt) (outside fuel : ℕ) : Run (ℝ × ℝ) :=
  Run.andThen (whileRun (fun s : Refine => .ok (decide (0 < s.discarded))) (fun s => some (.ok (s.step M))) fuel
    ⟨pts, guess, M guess pts, outside⟩) fun s =>
      let pts := s.pts.filter (fun p => decide (-1 * sigmaFit s.result s.pts < residual s.result p))
      let newresult := M s.result pts
      some (.ok ((10 : ℝ) ^ newresult.1, newresult.2))

/-- `get_b_param_dist`, voigtfit.py:331-396, after the Voigt fits. `M start pts` is the minimiser. -/
noncomputable def get_b_param_dist (M : ℝ × ℝ → List Pt → ℝ × ℝ) (n_vals b_params : List ℝ) (fuel : ℕ) : Run (ℝ × ℝ) :=
  let pts := usedPoints n_vals b_params
  Run.andThen (retainedPoints pts fuel) fun kept =>
    finalFit M (Real.logb 10 18, 0.17) kept (n_vals.length - pts.length) fuel

end Verif.BParam
