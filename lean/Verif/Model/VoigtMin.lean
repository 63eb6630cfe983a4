import Verif.Model.Voigt
import Verif.Model.BParam
import Verif.Model.Absorbers
import Verif.Model.LineData
import Mathlib.Analysis.SpecialFunctions.Trigonometric.Basic
import Mathlib.Analysis.Complex.Basic

/-!
Model of the parts of voigtfit.py that are parameters in Model/Voigt: the constructor, the functions that are minimised,
the Gaussian profile, the column density of a component; and of `column_density_from_voigt` in spectra.py.

`scipy.special.wofz` and the two minimisers of scipy are parameters. A width of zero, for which numpy gives infinities, is
not modelled.
-/

namespace Verif.VoigtMin
open Verif.Np Verif.Voigt

/-- A `Profiles` object before the fit; `gaussian` says which profile `self.profile` is. -/
structure Profiles where
  dvbin : ℝ
  tau : List ℝ
  gaussian : Bool
  voigt_fac : ℝ
  sigma_a : ℝ
  light : ℝ

/-- The constructor, voigtfit.py:23-47, given the table of lines. -/
noncomputable def Profiles.init (table : LineData.Key → Option LineData.Line) (tau : List ℝ) (dvbin : ℝ) (gaussian : Bool)
    (key : LineData.Key) : Py Profiles :=
  match table key with
  | none => .error .keyError
  | some ln =>
    let sigma_t := 6.652458558e-25
    .ok { dvbin := dvbin, tau := tau, gaussian := gaussian,
          voigt_fac := ln.gamma * ln.lambda / (4 * Real.pi) / 1e13,
          sigma_a := √(3 * Real.pi * sigma_t / 8) * ln.lambda / 1e8 * ln.fosc,
          light := 2.99e5 }

/-- `self.wavelengths`, voigtfit.py:44. -/
noncomputable def Profiles.wavelengths (P : Profiles) : List ℝ := (List.range P.tau.length).map (fun (i : ℕ) => (i : ℝ) * P.dvbin)

/-- `np.real(scipy.special.wofz(v/b + 1j*self.voigt_fac/b))`, voigtfit.py:187-191 and 229. -/
noncomputable def Profiles.voigt (wofz : ℂ → ℂ) (P : Profiles) (b v : ℝ) : ℝ :=
  (wofz ((v / b : ℝ) + Complex.I * (P.voigt_fac / b : ℝ))).re

/-- `gaussian_profile`, voigtfit.py:199-205, for `n` pixels of width `dv` and a width other than 0. -/
noncomputable def gaussian_profile (n : ℕ) (dv stddev mean amplitude : ℝ) : Py (List ℝ) := do
  let midpt : ℕ := n / 2
  let gauss := (List.range n).map (fun (i : ℕ) => Real.exp (-((i : ℝ) * dv - (midpt : ℝ)) ^ 2 / stddev ^ 2 / 2) * amplitude)
  let k ← argmax gauss
  let profile := roll gauss (pyround (mean / dv) - k)
  let k' ← argmax profile
  if (k' : ℤ) = pyround (mean / dv) then pure profile else .error .assertionError

/-- `self.profile`, voigtfit.py:28-31. -/
noncomputable def Profiles.profile (wofz : ℂ → ℂ) (P : Profiles) (stddev mean amplitude : ℝ) : Py (List ℝ) :=
  if P.gaussian then gaussian_profile P.tau.length P.dvbin stddev mean amplitude
  else voigt_profile (P.voigt wofz) P.tau.length P.dvbin stddev mean amplitude

/-- The minima inside the spectrum, voigtfit.py:134-135: positions in `ind`, which is shifted by one pixel. -/
noncomputable def innerMins (tau : List ℝ) : List ℤ :=
  ((List.range (tau.length - 2)).filter (fun (j : ℕ) =>
    decide (tau.getD (j + 1) 0 ≤ tau.getD (j + 2) 0 ∧ tau.getD (j + 1) 0 ≤ tau.getD j 0))).map (fun (j : ℕ) => (j : ℤ))

/-- All minima, voigtfit.py:134-141. -/
noncomputable def allMins (tau : List ℝ) : Py (List ℤ) := do
  let last ← Np.get tau (-1)
  let prev ← Np.get tau (-2)
  let first ← Np.get tau 0
  let second ← Np.get tau 1
  let mins := innerMins tau
  let mins := if last < prev ∧ last < first then mins ++ [-1] else mins
  let mins := if first < last ∧ first < second then mins ++ [0] else mins
  pure mins

/-- `fun_min`, voigtfit.py:123-149. -/
noncomputable def fun_min (profile : ℝ → ℝ → ℝ → Py (List ℝ)) (dv stddev amplitude : ℝ) (tau : List ℝ) : Py ℝ := do
  let midpt : ℕ := tau.length / 2
  let c ← Np.get tau (midpt : ℤ)
  if c ≠ amplitude then .error .assertionError
  else do
    let gauss ← profile stddev ((midpt : ℝ) * dv) amplitude
    let k ← argmax gauss
    if k ≠ midpt then .error .assertionError
    else do
      let mins ← allMins tau
      if mins = [] then .error .assertionError
      else do
        let deep ← mins.mapM (fun (m : ℤ) => do
          let t ← Np.get tau m
          pure (m, decide (Real.log (1 / 0.92) < |amplitude - t|)))
        let mins := (deep.filter (fun p => p.2)).map Prod.fst
        let minn := (mins.filter (fun (m : ℤ) => decide (m < (midpt : ℤ)))).foldl max 0
        let maxx := (mins.filter (fun (m : ℤ) => decide ((midpt : ℤ) < m))).foldl min (tau.length : ℤ)
        if minn < midpt ∧ midpt < maxx then
          pure (slice (List.zipWith (fun (t g : ℝ) => (Real.exp (-t) - Real.exp (-g)) ^ 2) tau gauss) minn.toNat maxx.toNat).sum
        else .error .assertionError

/-- `profile_multiple`, voigtfit.py:151-154, for `n` pixels. -/
noncomputable def profileSum (profile : ℝ → ℝ → ℝ → Py (List ℝ)) (n : ℕ) (p : Peaks) : Py (List ℝ) := do
  let rows ← (p.stddev.zip (p.means.zip p.amplitudes)).mapM (fun c => profile c.1 c.2.1 c.2.2)
  pure ((List.range n).map (fun i : ℕ => (rows.map (fun r => r.getD i 0)).sum))

/-- `fun_min_multiple`, voigtfit.py:156-164. -/
noncomputable def fun_min_multiple (profile : ℝ → ℝ → ℝ → Py (List ℝ)) (tau inputs : List ℝ) : Py ℝ := do
  let third := inputs.length / 3
  let gauss ← profileSum profile tau.length ⟨slice inputs 0 third, slice inputs third (2 * third), inputs.drop (2 * third)⟩
  pure (List.zipWith (fun (t g : ℝ) => (Real.exp (-t) - Real.exp (-g)) ^ 2) tau gauss).sum

/-- What the fit needs (Model/Voigt), for an object: the width is found by `optimize.minimize_scalar` on `fun_min`, the
components by `optimize.minimize` on `fun_min_multiple`. -/
noncomputable def Profiles.fitter (wofz : ℂ → ℂ) (minScalar : (ℝ → Py ℝ) → Py ℝ)
    (minimize : (List ℝ → Py ℝ) → List ℝ → Py MinRes) (P : Profiles) : Fitter where
  profile := P.profile wofz
  width := fun amplitude f => minScalar (fun x => fun_min (P.profile wofz) P.dvbin x amplitude f)
  minimize := minimize (fun_min_multiple (P.profile wofz) P.tau)

/-- `get_column_density`, voigtfit.py:219-232. -/
noncomputable def Profiles.get_column_density (wofz : ℂ → ℂ) (P : Profiles) (btherm amp : ℝ) : ℝ :=
  let vnorm := btherm / P.light * √Real.pi / P.sigma_a
  let fnorm := P.voigt wofz btherm 0
  amp * vnorm / fnorm

/-- `get_fitted_profile`, voigtfit.py:207-209. -/
noncomputable def Profiles.get_fitted_profile (wofz : ℂ → ℂ) (P : Profiles) (f : Fit) : Py (List ℝ × List ℝ) := do
  let prof ← profileSum (P.profile wofz) P.tau.length ⟨f.stddev, f.means, f.amplitudes⟩
  pure (P.wavelengths, prof)

/-- `get_positions`, voigtfit.py:215-217. -/
def get_positions (f : Fit) : List ℝ := f.means

/-- `_opt_power_fit`, voigtfit.py:324-329: the sum that is minimised by the fits of `get_b_param_dist`. -/
noncomputable def opt_power_fit (r : ℝ × ℝ) (pts : List BParam.Pt) : ℝ := (pts.map (fun p => |BParam.residual r p|)).sum

/-- `column_density_from_voigt`, spectra.py:1051-1073, for optical depths `tau` of `tau.length` sightlines; `systems` is
`get_voigt_systems` with `close`, without b parameters. -/
noncomputable def column_density_from_voigt (o : Absorbers.Obj) (systems : List (List ℝ) → Run (List ℝ)) (dlogN minN maxN : ℝ)
    (dX : Bool) (nspectra : ℤ) (tau : List (List ℝ)) : Run (List ℝ × List ℝ) :=
  Run.andThen (some (Absorbers.nhiTable minN maxN dlogN)) fun table =>
    let center := table.zipWith (fun a b => (a + b) / 2) table.tail
    let width := table.tail.zipWith (· - ·) table
    let tot_lines := (tau.length : ℝ) + o.discarded
    let used := if 0 < nspectra then tau.take nspectra.toNat else tau
    let tot_lines := if 0 < nspectra then tot_lines * ((nspectra : ℝ) / (tau.length : ℝ)) else tot_lines
    Run.andThen (systems used) fun n_vals =>
      Run.andThen (some (Absorbers.histogramOf table n_vals)) fun h =>
        some (.ok (center, h.zipWith (fun (c : ℤ) (w : ℝ) => (c : ℝ) / (w * o.dist dX * tot_lines)) width))

end Verif.VoigtMin
