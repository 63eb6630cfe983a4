import Verif.Model.RateGas
import Mathlib.Analysis.SpecialFunctions.Pow.Real

/-!
Model of tempdens.py: the temperature-density relation of a snapshot. `scipy.optimize.leastsq` is a parameter; the plots and
what is printed are not modelled, except for the temperature at mean density. Arrays of densities and temperatures are lists of
pairs, as both are read from the same particles.
-/

namespace Verif.TempDens
open Verif

/-- `np.log10`. -/
noncomputable def log10 (x : ℝ) : ℝ := Real.log x / Real.log 10

/-- `mean_density`, tempdens.py:16-27. The argument `unit` is replaced by the default one before it is used. -/
noncomputable def mean_density (hub redshift omegab : ℝ) : ℝ :=
  let rhoc := Units.rho_crit hub
  let rhoc := rhoc / Units.protonmass
  rhoc * omegab * (1 + redshift) ^ 3

/-- The gas that is fitted, tempdens.py:31-34: logarithms of overdensity and temperature. -/
noncomputable def forest (parts : List (ℝ × ℝ)) : List (ℝ × ℝ) :=
  parts.filter (fun p => decide (0 < p.1 ∧ p.1 < 1 ∧ 0.1 < p.2 ∧ p.2 < 5))

/-- `scipy.optimize.leastsq` for two parameters: from the function and the start. It raises a TypeError itself if there are
fewer values than parameters. -/
abbrev Leastsq := (ℝ × ℝ → List ℝ) → ℝ × ℝ → Py (ℝ × ℝ)

/-- `min_func`, tempdens.py:36-41. -/
noncomputable def min_func (pts : List (ℝ × ℝ)) (param : ℝ × ℝ) : List ℝ := pts.map (fun p => p.2 - (param.1 + param.2 * p.1))

/-- `fit_temp_dens_relation`, tempdens.py:29-47. -/
noncomputable def fit_temp_dens_relation (leastsq : Leastsq) (parts : List (ℝ × ℝ)) : Py (ℝ × ℝ) :=
  let pts := forest parts
  if pts.length < 2 then .error .typeError
  else do
    let params ← leastsq (min_func pts) (log10 1e4, 0.5)
    pure ((10 : ℝ) ^ params.1, params.2 + 1)

/-- `np.median`; `none` is the NaN of an empty array. -/
noncomputable def median (a : List ℝ) : Option ℝ :=
  let s := a.mergeSort (fun x y => decide (x ≤ y))
  if s.length = 0 then none
  else if s.length % 2 = 1 then s[s.length / 2]?
  else some ((s.getD (s.length / 2 - 1) 0 + s.getD (s.length / 2) 0) / 2)

/-- `get_temp_meandensity`, tempdens.py:49-53, for pairs of overdensity and temperature. -/
noncomputable def get_temp_meandensity (parts : List (ℝ × ℝ)) : Option ℝ :=
  median ((parts.filter (fun p => decide (0.95 < p.1 ∧ p.1 < 1.05))).map Prod.snd)

/-- The gas particles of a snapshot in its own units. -/
structure Particle where
  density : ℝ
  ienergy : ℝ
  nelec : ℝ

/-- What is read from a snapshot; `units` is the result of `get_units`. -/
structure Snap where
  units : Units.UnitSystem
  time : ℝ
  hubble : ℝ
  omegab : ℝ
  gas : List Particle

/-- Density (in protons per cubic cm) and temperature of all gas, tempdens.py:67-78. -/
noncomputable def snapGas (mkNet : ℝ → ℝ → Py Rates.Net) (bicubic : RateGas.Bicubic) (raw : Bool) (s : Snap) : Py (List (ℝ × ℝ)) :=
  let redshift := 1 / s.time - 1
  if raw then do
    let rates ← Gas.Obj.init redshift s.hubble 0.17 s.units true
    pure (s.gas.map (fun p => (p.density * rates.conv, Units.snapTemp rates.units 0.76 p.ienergy p.nelec)))
  else do
    let rates ← RateGas.Obj.init mkNet redshift s.hubble 0.17 Units.gadget true 1 1
    let temp ← rates.get_temp bicubic (s.gas.map (fun p => (p.density, p.ienergy)))
    pure (List.zipWith (fun (p : Particle) t => (p.density * rates.gas.conv, t)) s.gas temp)

/-- `fit_td_rel_plot(plot=False)`, tempdens.py:55-85 and 109: the temperature at mean density that is printed, and what is returned. -/
noncomputable def fit_td_rel_plot (leastsq : Leastsq) (mkNet : ℝ → ℝ → Py Rates.Net) (bicubic : RateGas.Bicubic) (raw : Bool) (s : Snap) :
    Py (Option ℝ × ℝ × ℝ) := do
  let redshift := 1 / s.time - 1
  let gas ← snapGas mkNet bicubic raw s
  let mean_dens := mean_density s.hubble redshift s.omegab
  let T00 := get_temp_meandensity (gas.map (fun p => (p.1 / mean_dens, p.2)))
  let r ← fit_temp_dens_relation leastsq (gas.map (fun p => (log10 p.1 - log10 mean_dens, log10 p.2)))
  pure (T00, r)

end Verif.TempDens
