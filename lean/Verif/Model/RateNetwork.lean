import Verif.Common
import Mathlib.Analysis.SpecialFunctions.Exp
import Mathlib.Analysis.SpecialFunctions.Pow.Real
import Mathlib.Analysis.SpecialFunctions.Log.Base
import Mathlib.Analysis.Real.Sqrt

/-!
Model of the rate network, rate_network.py. Numbers are exact reals. Temperatures are positive; `**` and
`np.power` are the real power.
-/

namespace Verif.Rates

/-- What the network asks of a table of recombination and collisional rates, rate_network.py:294-432. -/
structure Recomb where
  alphaHp : ℝ → ℝ
  alphaHep : ℝ → ℝ
  alphad : ℝ → ℝ
  alphaHepp : ℝ → ℝ
  GammaeH0 : ℝ → ℝ
  GammaeHe0 : ℝ → ℝ
  GammaeHep : ℝ → ℝ

/-! Cen 1992, rate_network.py:294-328. -/

/-- rate_network.py:298-301. -/
noncomputable def cenHp (temp : ℝ) : ℝ :=
  8.4e-11 / √temp / (temp / 1000) ^ (0.2 : ℝ) / (1 + (temp / 1e6) ^ (0.7 : ℝ))

/-- rate_network.py:303-306. -/
noncomputable def cenHep (temp : ℝ) : ℝ := 1.5e-10 / temp ^ (0.6353 : ℝ)

/-- rate_network.py:308-311. -/
noncomputable def cenAlphad (temp : ℝ) : ℝ :=
  1.9e-3 / temp ^ (1.5 : ℝ) * Real.exp (-4.7e5 / temp) * (1 + 0.3 * Real.exp (-9.4e4 / temp))

/-- The three collisional rates, rate_network.py:318-328, which differ in two constants. -/
noncomputable def cenGamma (a e temp : ℝ) : ℝ := a * √temp * Real.exp (-e / temp) / (1 + √(temp / 1e5))

/-- `RecombRatesCen92`, rate_network.py:294-328. -/
noncomputable def Cen92 : Recomb where
  alphaHp := cenHp
  alphaHep := cenHep
  alphad := cenAlphad
  alphaHepp := fun temp => 4 * cenHp temp
  GammaeH0 := cenGamma 5.85e-11 157809.1
  GammaeHe0 := cenGamma 2.38e-11 285335.4
  GammaeHep := cenGamma 5.68e-12 631515.0

/-! Verner & Ferland 1996, rate_network.py:330-401. -/

/-- `_Verner96Fit`, rate_network.py:338-342. -/
noncomputable def vernerFit (temp aa bb temp0 temp1 : ℝ) : ℝ :=
  let sqrttt0 := √(temp / temp0)
  let sqrttt1 := √(temp / temp1)
  aa / (sqrttt0 * (1 + sqrttt0) ^ (1 - bb) * (1 + sqrttt1) ^ (1 + bb))

/-- A comparison used as a number. -/
noncomputable def ind (p : Prop) : ℝ := open Classical in if p then 1 else 0

/-- `alphaHep`, rate_network.py:351-368: two fits, joined linearly between 6e5 and 8e5 K by a sum of three
comparisons used as numbers. -/
noncomputable def vernerHep (temp : ℝ) : ℝ :=
  let lowTfit := vernerFit temp 3.294e-11 0.6910 1.554e+01 3.676e+07
  let highTfit := vernerFit temp 9.356e-10 0.7892 4.266e-02 4.677e+06
  let swtmp : ℝ := 7e5
  let deltat : ℝ := 1e5
  let upper := swtmp + deltat
  let lower := swtmp - deltat
  let interpfit := (lowTfit * (upper - temp) + highTfit * (temp - lower)) / (2 * deltat)
  ind (temp < lower) * lowTfit + ind (temp > upper) * highTfit + ind (upper > temp) * ind (temp > lower) * interpfit

/-- `alphad`, rate_network.py:370-376. -/
noncomputable def vernerAlphad (temp : ℝ) : ℝ :=
  1.23e-3 / temp ^ (1.5 : ℝ) * Real.exp (-4.72e5 / temp) * (1 + 0.3 * Real.exp (-9.4e4 / temp))

/-- `_Voronov96Fit`, rate_network.py:384-389. -/
noncomputable def voronovFit (dE PP AA XX KK temp : ℝ) : ℝ :=
  let bolevk : ℝ := 8.61734e-5
  let UU := dE / (bolevk * temp)
  AA * (1 + PP * √UU) / (XX + UU) * UU ^ KK * Real.exp (-UU)

/-- `RecombRatesVerner96`, rate_network.py:330-401. -/
noncomputable def Verner96 : Recomb where
  alphaHp := fun temp => vernerFit temp 7.982e-11 0.748 3.148 7.036e+05
  alphaHep := vernerHep
  alphad := vernerAlphad
  alphaHepp := fun temp => vernerFit temp 1.891e-10 0.7524 9.370 2.774e6
  GammaeH0 := voronovFit 13.6 0 0.291e-07 0.232 0.39
  GammaeHe0 := voronovFit 24.6 0 0.175e-07 0.180 0.35
  GammaeHep := voronovFit 54.4 1 0.205e-08 0.265 0.25

/-! Badnell 2006, rate_network.py:403-432. -/

/-- `_RecombRateFit_lowcharge_ion`, rate_network.py:408-413. -/
noncomputable def badnellFit (temp aa bb cc temp0 temp1 temp2 : ℝ) : ℝ :=
  let sqrttt0 := √(temp / temp0)
  let sqrttt1 := √(temp / temp1)
  let BB := bb + cc * Real.exp (-temp2 / temp)
  aa / (sqrttt0 * (1 + sqrttt0) ^ (1 - BB) * (1 + sqrttt1) ^ (1 + BB))

/-- `RecombRatesBadnell`, rate_network.py:403-432: the rest is inherited from `RecombRatesVerner96`. -/
noncomputable def Badnell : Recomb where
  alphaHp := fun temp => vernerFit temp 8.318e-11 0.7472 2.965 7.001e5
  alphaHep := fun temp => vernerFit temp 1.818E-10 0.7492 10.17 2.786e6
  alphad := vernerAlphad
  alphaHepp := fun temp => badnellFit temp 5.235E-11 0.6988 0.0829 7.301 4.475e6 1.682e5
  GammaeH0 := voronovFit 13.6 0 0.291e-07 0.232 0.39
  GammaeHe0 := voronovFit 24.6 0 0.175e-07 0.180 0.35
  GammaeHep := voronovFit 54.4 1 0.205e-08 0.265 0.25

/-! The network. -/

/-- The attributes of `RateNetwork` that the equilibrium depends on, rate_network.py:47-81. The photoionisation
rates `gH0`, `gHe0`, `gHep` and the gray opacity `Gray_ss` are those at `self.redshift`. -/
structure Net where
  recomb : Recomb
  gH0 : ℝ
  gHe0 : ℝ
  gHep : ℝ
  gray : ℝ
  photo_factor : ℝ
  f_bar : ℝ
  converge : ℝ
  selfshield : Bool
  collisional : Bool

/-- The choice of the table of rates in the constructor, rate_network.py:48-53: any other name means Cen 1992. -/
noncomputable def recombOf (name : String) : Recomb :=
  if name = "V96" then Verner96 else if name = "B06" then Badnell else Cen92

/-- `_self_shield_dens`, rate_network.py:230-239. -/
noncomputable def selfShieldDens (n : Net) (temp : ℝ) : ℝ :=
  6.73e-3 * (n.gray / 2.49e-18) ^ (-2 / 3 : ℝ) * (temp / 1e4) ^ (0.17 : ℝ) * (n.gH0 / 1e-12) ^ (2 / 3 : ℝ) *
    (n.f_bar / 0.17) ^ (-1 / 3 : ℝ)

/-- `_self_shield_corr`, rate_network.py:219-229. -/
noncomputable def selfShieldCorr (n : Net) (nh temp : ℝ) : ℝ :=
  if n.selfshield then
    let nSSh := 1.003 * selfShieldDens n temp
    0.98 * (1 + (nh / nSSh) ^ (1.64 : ℝ)) ^ (-2.28 : ℝ) + 0.02 * (1 + nh / nSSh) ^ (-0.84 : ℝ)
  else 1

/-- `_photofac`, rate_network.py:163-178; the array and the scalar branch do the same to each element. -/
noncomputable def photofac (n : Net) (nebynh nh temp : ℝ) : ℝ :=
  if nebynh > 1e-40 then n.photo_factor * selfShieldCorr n nh temp / (nebynh * nh) else 0

/-- `self.collisional * x`. -/
noncomputable def collis (n : Net) (x : ℝ) : ℝ := if n.collisional then x else 0

/-- `_nH0`, rate_network.py:180-185. -/
noncomputable def nH0 (n : Net) (nh temp nebynh : ℝ) : ℝ :=
  let alphaHp := n.recomb.alphaHp temp
  let GammaeH0 := collis n (n.recomb.GammaeH0 temp)
  let photorate := n.gH0 * photofac n nebynh nh temp
  alphaHp / (alphaHp + GammaeH0 + photorate)

/-- `_nHp`, rate_network.py:187-189. -/
noncomputable def nHp (n : Net) (nh temp nebynh : ℝ) : ℝ := 1 - nH0 n nh temp nebynh

/-- `GammaHe0`, rate_network.py:196 and 205. -/
noncomputable def GammaHe0 (n : Net) (nh temp nebynh : ℝ) : ℝ :=
  collis n (n.recomb.GammaeHe0 temp) + n.gHe0 * photofac n nebynh nh temp

/-- `GammaHep`, rate_network.py:197 and 211. -/
noncomputable def GammaHep (n : Net) (nh temp nebynh : ℝ) : ℝ :=
  collis n (n.recomb.GammaeHep temp) + n.gHep * photofac n nebynh nh temp

/-- `_nHep`, rate_network.py:191-198. A zero `GammaHe0` makes the quotient infinite and the result zero. -/
noncomputable def nHep (n : Net) (nh temp nebynh : ℝ) : ℝ :=
  let alphaHep := n.recomb.alphaHep temp + n.recomb.alphad temp
  let alphaHepp := n.recomb.alphaHepp temp
  if GammaHe0 n nh temp nebynh = 0 then 0
  else 1 / (1 + alphaHep / GammaHe0 n nh temp nebynh + GammaHep n nh temp nebynh / alphaHepp)

/-- `_nHe0`, rate_network.py:200-206; `none` is not a number (0/0 when `GammaHe0` is zero). -/
noncomputable def nHe0 (n : Net) (nh temp nebynh : ℝ) : Option ℝ :=
  let alphaHep := n.recomb.alphaHep temp + n.recomb.alphad temp
  if GammaHe0 n nh temp nebynh = 0 then none
  else some (nHep n nh temp nebynh * alphaHep / GammaHe0 n nh temp nebynh)

/-- `_nHepp`, rate_network.py:207-212. -/
noncomputable def nHepp (n : Net) (nh temp nebynh : ℝ) : ℝ :=
  nHep n nh temp nebynh * GammaHep n nh temp nebynh / n.recomb.alphaHepp temp

/-- `yy = helium / 4 / (1 - helium)`, rate_network.py:216. -/
noncomputable def yy (helium : ℝ) : ℝ := helium / 4 / (1 - helium)

/-- `_nebynh`, rate_network.py:214-217. -/
noncomputable def nebynhOf (n : Net) (nh temp nebynh helium : ℝ) : ℝ :=
  nHp n nh temp nebynh + yy helium * nHep n nh temp nebynh + 2 * yy helium * nHepp n nh temp nebynh

/-- `self.protonmass`, rate_network.py:72. -/
noncomputable def protonmass : ℝ := 1.67262178e-24

/-- `_get_temp`, rate_network.py:256-292, without the assertion. -/
noncomputable def tempOf (nebynh ienergy helium : ℝ) : ℝ :=
  let hy_mass := 1 - helium
  let meanweight := 4 / (1 + (3 + 4 * nebynh) * hy_mass)
  let muienergy := meanweight * ienergy * 1e10
  let boltzmann : ℝ := 1.38066e-16
  let gamma : ℝ := 5 / 3
  (gamma - 1) * protonmass / boltzmann * muienergy

/-- `_get_temp` on an array, with `assert np.all(temp >= 0)`, rate_network.py:291. -/
noncomputable def getTemp {ι : Type} (nebynh ienergy : ι → ℝ) (helium : ℝ) : Py (ι → ℝ) :=
  open Classical in
  if ∀ i, 0 ≤ tempOf (nebynh i) (ienergy i) helium then .ok (fun i => tempOf (nebynh i) (ienergy i) helium)
  else .error .assertionError

/-! The solver. -/

/-- `_del2`, rate_network.py:670-673. -/
noncomputable def del2 (p0 p1 d : ℝ) : ℝ := max (p0 - (p1 - p0) ^ 2 / d) 0

/-- The accelerated step, rate_network.py:682-687. -/
noncomputable def accel {ι : Type} (p0 p1 p2 : ι → ℝ) (i : ι) : ℝ :=
  let d := p2 i - 2 * p1 i + p0 i
  if d ≠ 0 then del2 (p0 i) (p1 i) d else p2 i

open Classical in
/-- The loop of `_fixed_point_helper`, rate_network.py:675-692, at pass `i` with `left` passes left. The function may
raise. -/
noncomputable def fixedLoop {ι : Type} (func : (ι → ℝ) → Py (ι → ℝ)) (xtol : ℝ) (maxiter : ℕ) (use_accel : Bool) :
    ℕ → ℕ → (ι → ℝ) → Py (ι → ℝ)
  | 0, _, _ => .error .runtimeError
  | left + 1, i, p0 => do
    let p1 ← func p0
    if ∀ j, |p1 j - p0 j| < xtol / 2 then pure p1
    else if use_accel = true ∧ i < maxiter / 2 then do
      let p2 ← func p1
      fixedLoop func xtol maxiter use_accel left (i + 1) (accel p0 p1 p2)
    else fixedLoop func xtol maxiter use_accel left (i + 1) p1

/-- `fixed_point`, rate_network.py:695-740. Starting values that are not finite are not modelled. -/
noncomputable def fixed_point {ι : Type} (func : (ι → ℝ) → Py (ι → ℝ)) (x0 : ι → ℝ) (xtol : ℝ) (maxiter : ℕ)
    (use_accel : Bool) : Py (ι → ℝ) :=
  fixedLoop func xtol maxiter use_accel maxiter 0 x0

/-- `rooted`, rate_network.py:141-142. -/
noncomputable def rooted {ι : Type} (n : Net) (nh ienergy : ι → ℝ) (helium : ℝ) (nebynh : ι → ℝ) : Py (ι → ℝ) := do
  let temp ← getTemp nebynh ienergy helium
  pure (fun i => nebynhOf n (nh i) (temp i) (nebynh i) helium)

open Classical in
/-- `get_equilib_ne`, rate_network.py:132-145. -/
noncomputable def get_equilib_ne {ι : Type} (n : Net) (density ienergy : ι → ℝ) (helium : ℝ) : Py (ι → ℝ) := do
  let nh := fun i => density i * (1 - helium)
  let nebynh ← fixed_point (rooted n nh ienergy helium) nh n.converge 500 true
  let again ← rooted n nh ienergy helium nebynh
  if ∀ i, |again i - nebynh i| < n.converge then pure (fun i => nebynh i * nh i) else .error .assertionError

/-- `get_ne_by_nh`, rate_network.py:147-149. Densities are positive. -/
noncomputable def get_ne_by_nh {ι : Type} (n : Net) (density ienergy : ι → ℝ) (helium : ℝ) : Py (ι → ℝ) := do
  let ne ← get_equilib_ne n density ienergy helium
  pure (fun i => ne i / (density i * (1 - helium)))

/-- `get_neutral_fraction`, rate_network.py:151-160. -/
noncomputable def get_neutral_fraction {ι : Type} (n : Net) (density ienergy : ι → ℝ) (helium : ℝ) : Py (ι → ℝ) := do
  let ne ← get_equilib_ne n density ienergy helium
  let nh := fun i => density i * (1 - helium)
  let temp ← getTemp (fun i => ne i / nh i) ienergy helium
  pure (fun i => nH0 n (nh i) (temp i) (ne i / nh i))

/-- `get_temp`, rate_network.py:83-90. -/
noncomputable def get_temp {ι : Type} (n : Net) (density ienergy : ι → ℝ) (helium : ℝ) : Py (ι → ℝ) := do
  let ne ← get_equilib_ne n density ienergy helium
  let nh := fun i => density i * (1 - helium)
  getTemp (fun i => ne i / nh i) ienergy helium

end Verif.Rates
