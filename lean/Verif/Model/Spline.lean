import Verif.Model.Curvature
import Verif.Model.Absorbers

/-!
Model of `spline_fit` (spectra.py:1325-1408): the choice of breakpoints of a least squares spline.

scipy's `LSQUnivariateSpline(vel, flux, vel[inds], k=3, ext=3)` is a parameter `fit flux inds`: an exception, or the spline as
its values at the pixels. The code only evaluates it there.
-/

namespace Verif.Spline
open Verif Verif.Np Verif.Curvature

/-- The spline fitted to a flux with breakpoints at some pixels. -/
abbrev Fit := List ℝ → List ℕ → Py (ℕ → ℝ)

/-- The population variance, `np.std(a)**2`. -/
noncomputable def variance (a : List ℝ) : ℝ := mean (a.map (fun x => (x - mean a) ^ 2))

/-- `chi_squared`, spectra.py:1337-1339, when the deviation of `expected` is not zero. -/
noncomputable def chi_squared (expected observed : List ℝ) : ℝ :=
  (List.zipWith (fun e o => (e - o) ^ 2 / variance expected) expected observed).sum

/-- `int(np.round(a/2 + b/2))`, spectra.py:1396: halves go to the even neighbour. -/
def midRound (a b : ℕ) : ℕ :=
  if (a + b) % 2 = 0 then (a + b) / 2 else if (a + b) / 2 % 2 = 0 then (a + b) / 2 else (a + b) / 2 + 1

/-- `all_inds`, spectra.py:1369. -/
def allInds (size : ℕ) (inds : List ℕ) : List ℕ := [0] ++ inds ++ [size]

/-- `(all_inds[:-1] + all_inds[1:])//2`, spectra.py:1372. -/
def midInds (all : List ℕ) : List ℕ := List.zipWith (fun a b => (a + b) / 2) all all.tail

/-- `next_inds`, spectra.py:1372. -/
def nextInds (all : List ℕ) : List ℕ := (((all ++ midInds all).mergeSort (fun a b => decide (a ≤ b))).tail).dropLast

/-- Is a breakpoint added in segment `i`, spectra.py:1379-1394? If the flux of a segment is constant both `chi_squared` are
infinite or not numbers, and their difference is not a number, so the answer is no. -/
noncomputable def splits (vel flux : List ℝ) (chi_min vel_seg_min : ℝ) (cur next : ℕ → ℝ) (all next_inds : List ℕ) (i : ℕ) :
    Py Bool := do
  let lo ← get all i
  let hi ← get all (i + 1)
  let seg := (List.range flux.length).filter (fun p => decide (lo ≤ p ∧ p < hi + 1))
  let seg_vel := slice vel lo (hi + 1)
  let seg_flux := slice flux lo (hi + 1)
  let chisq := chi_squared seg_flux (seg.map cur)
  let next_chisq := chi_squared seg_flux (seg.map next)
  let m ← get next_inds (2 * i)
  let vm ← get vel m
  let top ← maxOf seg_vel
  let bottom ← minOf seg_vel
  pure (decide (variance seg_flux ≠ 0 ∧ chisq - next_chisq > chi_min ∧ top - vm ≥ vel_seg_min ∧ vm - bottom ≥ vel_seg_min))

/-- The breakpoints that one pass of the loop adds, spectra.py:1376-1396. -/
noncomputable def newBreaks (vel flux : List ℝ) (chi_min vel_seg_min : ℝ) (cur next : ℕ → ℝ) (all next_inds : List ℕ) :
    Py (List ℕ) := do
  let yes ← (List.range (all.length - 1)).mapM (fun (i : ℕ) => splits vel flux chi_min vel_seg_min cur next all next_inds i)
  pure ((List.range (all.length - 1)).filterMap (fun i =>
    if yes.getD i false then some (midRound (all.getD i 0) (all.getD (i + 1) 0)) else none))

/-- The `while` loop, spectra.py:1362-1403, with a bound on the number of passes: the final breakpoints and the spline. -/
noncomputable def breakLoop (fit : Fit) (vel flux : List ℝ) (chi_min vel_seg_min : ℝ) : ℕ → List ℕ → Run (List ℕ × (ℕ → ℝ))
  | 0, _ => none
  | fuel + 1, inds =>
    Run.andThen (some (fit flux inds)) fun cur =>
      let all := allInds vel.length inds
      let next_inds := nextInds all
      Run.andThen (some (fit flux next_inds)) fun next =>
        Run.andThen (some (newBreaks vel flux chi_min vel_seg_min cur next all next_inds)) fun new_bp =>
          if 0 < new_bp.length then
            breakLoop fit vel flux chi_min vel_seg_min fuel ((inds ++ new_bp).mergeSort (fun a b => decide (a ≤ b)))
          else some (.ok (inds, cur))

/-- `np.arange(s, n, s)`, spectra.py:1356. -/
def arangeInds (s : ℤ) (n : ℕ) : Py (List ℕ) :=
  if s = 0 then .error .zeroDivisionError
  else if s < 0 then .ok []
  else .ok ((List.range n).filter (fun (p : ℕ) => decide (0 < p ∧ s ∣ (p : ℤ))))

/-- The first breakpoints, spectra.py:1356-1360. -/
noncomputable def firstInds (vel : List ℝ) (vel_seg_min : ℝ) (spacing : ℤ) : Py (List ℕ) := do
  let inds ← arangeInds spacing vel.length
  let last ← get inds (-1)
  let vlast ← get vel (-1)
  let vbreak ← get vel last
  pure (if vlast - vbreak < vel_seg_min then inds.dropLast else inds)

/-- The spline of one sightline, spectra.py:1352-1406. -/
noncomputable def splineRow (fit : Fit) (vel flux : List ℝ) (chi_min vel_seg_min : ℝ) (spacing : ℤ) (fuel : ℕ) :
    Run (List ℕ × List ℝ) :=
  Run.andThen (some (firstInds vel vel_seg_min spacing)) fun inds =>
    Run.andThen (breakLoop fit vel flux chi_min vel_seg_min fuel inds) fun r =>
      some (.ok (r.1, (List.range vel.length).map r.2))

/-- The loop over sightlines, spectra.py:1350-1406. -/
noncomputable def splineRows (fit : Fit) (vel : List ℝ) (chi_min vel_seg_min : ℝ) (spacing : ℤ) (fuel : ℕ) :
    List (List ℝ) → Run (List (List ℝ))
  | [] => some (.ok [])
  | flux :: rest =>
    Run.andThen (splineRow fit vel flux chi_min vel_seg_min spacing fuel) fun r =>
      Run.andThen (splineRows fit vel chi_min vel_seg_min spacing fuel rest) fun rs => some (.ok (r.2 :: rs))

/-- `spline_fit`, spectra.py:1325-1408, for one row of `ncol` pixels for each sightline. A velocity step of zero gives an
infinite spacing, and `int` of that is an `OverflowError`. -/
noncomputable def spline_fit (fit : Fit) (vmax : ℝ) (ncol : ℕ) (flux_i : List (List ℝ)) (chi_min vel_seg_min ini_break_spacing : ℝ)
    (fuel : ℕ) : Run (List (List ℝ)) :=
  let vel := linspace vmax ncol
  Run.andThen (some (get vel 1)) fun v1 =>
    Run.andThen (some (get vel 0)) fun v0 =>
      let vel_stepsize := v1 - v0
      if vel_stepsize ≥ vel_seg_min then some (.error .runtimeError)
      else if vel_stepsize = 0 then some (.error .overflowError)
      else
        let spacing := Absorbers.npRound (ini_break_spacing / vel_stepsize)
        splineRows fit vel chi_min vel_seg_min spacing fuel flux_i

end Verif.Spline
