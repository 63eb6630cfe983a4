import Verif.Common
import Mathlib.Analysis.SpecialFunctions.Exp

/-!
Model of the mean flux rescaling: `get_mean_flux_scale` (py_module.cpp:235-262), `mean_flux`
(fluxstatistics.py:26-39) and the stand-alone `mean_flux` (cextract/mean_flux.c:24-49).
-/

namespace Verif.MeanFlux

/-- The sum of `exp(-scale*tau[i])` over the pixels, py_module.cpp:244-253. The OpenMP reduction adds the
terms in some order; over the reals the order does not matter. -/
noncomputable def fluxSum (taus : List ℝ) (scale : ℝ) : ℝ := (taus.map (fun t => Real.exp (-scale * t))).sum

/-- The sum of `exp(-scale*tau[i])*tau[i]`, py_module.cpp:251. -/
noncomputable def tauFluxSum (taus : List ℝ) (scale : ℝ) : ℝ :=
  (taus.map (fun t => Real.exp (-scale * t) * t)).sum

/-- The pixels not skipped by `if(tau[i] > thresh) continue`, py_module.cpp:246. -/
noncomputable def used (taus : List ℝ) (thresh : ℝ) : List ℝ := taus.filter (fun t => t ≤ thresh)

/-- One pass of the loop of `get_mean_flux_scale`, py_module.cpp:239-260: the new scale; `none` when it is
an infinity or not a number (division by zero; a negative infinity is replaced by the lower limit). -/
noncomputable def newScale (taus : List ℝ) (desired thresh scale : ℝ) : Option ℝ :=
  let us := used taus thresh
  let num := fluxSum us scale - desired * us.length
  let den := tauFluxSum us scale
  if den = 0 then
    if num < 0 then some 1e-10 else none
  else if scale + num / den ≤ 0 then some 1e-10 else some (scale + num / den)

/-- One pass of the loop of the stand-alone `mean_flux`, mean_flux.c:31-47. -/
noncomputable def cNewScale (taus : List ℝ) (obs scale : ℝ) : Option ℝ :=
  let num := fluxSum taus scale - obs * taus.length
  let den := tauFluxSum taus scale
  if den = 0 then
    if num < 0 then some 0 else none
  else if scale + num / den < 0 then some 0 else some (scale + num / den)

/-- `do { ... } while(fabs(newscale-scale) > tol*newscale)`, py_module.cpp:238-261 and mean_flux.c:31-47,
with a bound on the number of passes: `none` when it is not enough. The inner `none` is a result that is not
finite; comparisons with it are false, so the loop ends. -/
noncomputable def loop (step : ℝ → Option ℝ) (tol : ℝ) : ℕ → ℝ → Option (Option ℝ)
  | 0, _ => none
  | fuel + 1, scale =>
    match step scale with
    | none => some none
    | some newscale => if |newscale - scale| > tol * newscale then loop step tol fuel newscale else some (some newscale)

/-- `get_mean_flux_scale`, py_module.cpp:235-262: starts at 1. -/
noncomputable def get_mean_flux_scale (taus : List ℝ) (desired tol thresh : ℝ) (fuel : ℕ) : Option (Option ℝ) :=
  loop (newScale taus desired thresh) tol fuel 1

/-- `mean_flux` of fluxstatistics.py:26-39. -/
noncomputable def mean_flux (taus : List ℝ) (desired tol thresh : ℝ) (fuel : ℕ) : Option (Option ℝ) :=
  if taus.length = 0 then some (some 0) else get_mean_flux_scale taus desired tol thresh fuel

/-- The stand-alone `mean_flux`, mean_flux.c:24-49: starts at 100, uses every pixel. -/
noncomputable def c_mean_flux (taus : List ℝ) (obs tol : ℝ) (fuel : ℕ) : Option (Option ℝ) :=
  loop (cNewScale taus obs) tol fuel 100

end Verif.MeanFlux
