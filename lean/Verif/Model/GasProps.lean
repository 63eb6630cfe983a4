import Verif.Model.Units
import Verif.Model.Interp

/-!
Model of gas_properties.py: the neutral fraction of self-shielded gas. Numbers are exact reals; the rounding of the
conversion factor to 32 bits is not modelled.
-/

namespace Verif.Gas
open Verif.Units

/-- The ultra-violet background an object stores, gas_properties.py:57-58. -/
structure Uvb where
  gray_opac : ℝ
  gamma_UVB : ℝ

/-- `gray_opac`, gas_properties.py:45. -/
noncomputable def grayTable : List ℝ :=
  [2.59e-18, 2.37e-18, 2.27e-18, 2.15e-18, 2.02e-18, 1.94e-18, 1.82e-18, 1.71e-18, 1.60e-18]

/-- `gamma_UVB`, gas_properties.py:46. -/
noncomputable def gammaTable : List ℝ :=
  [3.99e-14, 3.03e-13, 6e-13, 5.53e-13, 4.31e-13, 3.52e-13, 2.678e-13, 1.81e-13, 9.43e-14]

/-- The background at a redshift, gas_properties.py:47-58: `none` if not `redshift_coverage`. -/
noncomputable def uvbAt (redshift : ℝ) : Py (Option Uvb) :=
  if redshift > 8 then .ok none
  else do
    let gamma ← Interp.interp1d 9 (fun i => (i : ℝ)) (fun i => gammaTable.getD i 0) redshift
    let gray ← Interp.interp1d 9 (fun i => (i : ℝ)) (fun i => grayTable.getD i 0) redshift
    .ok (some ⟨gray, gamma⟩)

/-- `_self_shield_dens`, gas_properties.py:74-84. -/
noncomputable def selfShieldDens (b : Uvb) (f_bar temp : ℝ) : ℝ :=
  let T4 := temp / 1e4
  let G12 := b.gamma_UVB / 1e-12
  6.73e-3 * (b.gray_opac / 2.49e-18) ^ (-2 / 3 : ℝ) * T4 ^ (0.17 : ℝ) * G12 ^ (2 / 3 : ℝ) * (f_bar / 0.17) ^ (-1 / 3 : ℝ)

/-- `_photo_rate`, gas_properties.py:64-72. -/
noncomputable def photoRate (b : Uvb) (f_bar nH temp : ℝ) : ℝ :=
  let nSSh := selfShieldDens b f_bar temp
  let photUVBratio := 0.98 * (1 + (nH / nSSh) ^ (1.64 : ℝ)) ^ (-2.28 : ℝ) + 0.02 * (1 + nH / nSSh) ^ (-0.84 : ℝ)
  photUVBratio * b.gamma_UVB

/-- `_recomb_rate`, gas_properties.py:86-90. -/
noncomputable def recombRate (temp : ℝ) : ℝ :=
  let lamb := 315614 / temp
  1.269e-13 * lamb ^ (1.503 : ℝ) / (1 + (lamb / 0.522) ^ (0.47 : ℝ)) ^ (1.923 : ℝ)

/-- `LambdaT`, gas_properties.py:96. -/
noncomputable def lambdaT (temp : ℝ) : ℝ :=
  1.17e-10 * temp ^ (0.5 : ℝ) * Real.exp (-157809 / temp) / (1 + √(temp / 1e5))

/-- `_neutral_fraction`, gas_properties.py:92-99, for positive density and temperature. -/
noncomputable def neutralFraction (b : Uvb) (f_bar nH temp : ℝ) : ℝ :=
  let alpha_A := recombRate temp
  let LambdaT := lambdaT temp
  let A := alpha_A + LambdaT
  let B := 2 * alpha_A + photoRate b f_bar nH temp / nH + LambdaT
  (B - √(B ^ 2 - 4 * A * alpha_A)) / (2 * A)

/-- `_get_rho_thresh`, gas_properties.py:148-200, with its default parameters; `hubble` is the argument and
`selfHubble` the attribute (the constructor passes the same value). -/
noncomputable def rhoThresh (u : UnitSystem) (selfHubble hubble : ℝ) : ℝ :=
  let t_0_star : ℝ := 2.27
  let T_SN : ℝ := 5.73e7
  let T_c : ℝ := 1000
  let A_0 : ℝ := 573
  let UnitTime_in_s := u.UnitLength_in_cm / u.UnitVelocity_in_cm_per_s
  let hy_mass : ℝ := 0.76
  let t_0_star := t_0_star * UnitTime_in_s / hubble
  let beta : ℝ := 0.264089
  let meanweight := 4 / (1 + 3 * hy_mass)
  let u_c := 1 / meanweight * (1 / (gamma - 1)) * (boltzmann / protonmass) * T_c
  let meanweight := 4 / (8 - 5 * (1 - hy_mass))
  let u_SN := 1 / meanweight * (1 / (gamma - 1)) * (boltzmann / protonmass) * T_SN
  let rhoinf := 277.476 * u.UnitDensity_in_cgs * selfHubble ^ 2
  let tcool := 4.64419e-10 * UnitTime_in_s / selfHubble
  let u_h := u_SN / A_0
  let u_4 := 1 / meanweight * (1 / (gamma - 1)) * (boltzmann / protonmass) * 1e4
  let coolrate := u_h / tcool / rhoinf
  let x := (u_h - u_4) / (u_h - u_c)
  let physdens := x / (1 - x) ^ 2 * (beta * u_SN - (1 - beta) * u_c) / (t_0_star * coolrate)
  physdens / protonmass * hy_mass

/-- A `GasProperties` object, gas_properties.py:30-62. -/
structure Obj where
  units : UnitSystem
  f_bar : ℝ
  redshift : ℝ
  sf_neutral : Bool
  uvb : Option Uvb
  hubble : ℝ
  PhysDensThresh : ℝ

/-- The constructor, gas_properties.py:30-62. -/
noncomputable def Obj.init (redshift hubble fbar : ℝ) (units : UnitSystem) (sf_neutral : Bool) : Py Obj := do
  let uvb ← uvbAt redshift
  .ok { units := units, f_bar := fbar, redshift := redshift, sf_neutral := sf_neutral, uvb := uvb, hubble := hubble,
        PhysDensThresh := rhoThresh units hubble hubble }

/-- `conv`, gas_properties.py:108, 138. -/
noncomputable def Obj.conv (g : Obj) : ℝ :=
  g.units.UnitDensity_in_cgs * g.hubble ^ 2 / protonmass * (1 + g.redshift) ^ 3

/-- `get_code_rhoH`, gas_properties.py:105-110. -/
noncomputable def Obj.get_code_rhoH (g : Obj) (density : ℕ → ℝ) (i : ℕ) : ℝ := density i * g.conv

open Classical in
/-- `get_reproc_HI`, gas_properties.py:116-146, on the density and neutral fraction blocks of a segment. The second is
`_code_neutral_fraction`, gas_properties.py:112-114. -/
noncomputable def Obj.get_reproc_HI (g : Obj) (density nH0 : ℕ → ℝ) : ℕ → ℝ :=
  if g.sf_neutral then fun i =>
    if density i > g.PhysDensThresh / 0.76 / g.conv then
      match g.uvb with
      | some b => neutralFraction b g.f_bar (density i * g.conv) 1e4
      | none => 1
    else nH0 i
  else nH0

end Verif.Gas
