import Verif.Model.SpecTools
import Mathlib.Analysis.SpecialFunctions.Log.Basic
import Mathlib.Analysis.Real.Sqrt

/-!
Model of instrumental broadening, spec_utils.py:5-25, and its use in `get_observer_tau`. `scipy.ndimage.gaussian_filter1d` is
modelled from its documentation (a normalised Gaussian, cut off at four standard deviations, here in periodic mode) and, for a
width of zero, from its source: the weights are NaN, so that the result is.
-/

namespace Verif.Broadening
open Verif.Np

/-- The weight of a pixel `x` pixels away, before normalisation. -/
noncomputable def weight (sigma : ℝ) (x : ℤ) : ℝ := Real.exp (-0.5 / sigma ^ 2 * (x : ℝ) ^ 2)

/-- The radius of the filter in pixels, `int(truncate * sigma + 0.5)`. -/
noncomputable def radius (sigma : ℝ) : ℕ := ⌊4 * sigma + 0.5⌋₊

/-- The pixels the filter reaches, `arange(-radius, radius + 1)`. -/
noncomputable def reach (sigma : ℝ) : List ℤ := (List.range (2 * radius sigma + 1)).map (fun (k : ℕ) => (k : ℤ) - (radius sigma : ℤ))

/-- `gaussian_filter1d(flux, sigma, axis=-1, mode='wrap')` of one spectrum, for `0 ≤ sigma`; `none` is a spectrum of NaN. -/
noncomputable def gaussian_filter1d (flux : List ℝ) (sigma : ℝ) : Option (List ℝ) :=
  if sigma = 0 then none
  else
    let total := ((reach sigma).map (weight sigma)).sum
    some ((List.range flux.length).map (fun (i : ℕ) =>
      ((reach sigma).map (fun x => weight sigma x / total * flux.getD (((i : ℤ) + x) % (flux.length : ℤ)).toNat 0)).sum))

/-- `res_corr`, spec_utils.py:5-25, of one spectrum. -/
noncomputable def res_corr (flux : List ℝ) (dvbin fwhm : ℝ) : Option (List ℝ) :=
  let res := fwhm / dvbin
  let sigma := res / (2 * √(2 * Real.log 2))
  gaussian_filter1d flux sigma

/-- `get_observer_tau`, spectra.py:895-943, for one sightline when nothing is cached. If the broadened spectra are NaN no line is
equal to the maximum, and a row of the result is set from an empty array. -/
noncomputable def observer_tau (dvbin spec_res : ℝ) (taus : List (List ℝ)) : Py (List ℝ) :=
  if taus.all (fun t => (res_corr t dvbin spec_res).isSome) then SpecTools.observerTau (fun t => (res_corr t dvbin spec_res).getD []) taus
  else .error .valueError

end Verif.Broadening
