import Mathlib.Analysis.SpecialFunctions.Log.Basic
import Mathlib.Analysis.SpecialFunctions.Pow.Asymptotics

/-!
Physical constants in cgs units, and what it takes for a number to agree with one and for a rate to have a threshold. Nothing
here refers to the model. Values: CODATA 2018; NIST atomic spectra database for ionisation energies; IAU for the parsec and
the mass of the sun.
-/

namespace Verif.Spec.Codata

/-- Speed of light (exact), cm/s. -/
noncomputable def c : ℝ := 2.99792458e10
/-- Boltzmann's constant (exact), erg/K. -/
noncomputable def k : ℝ := 1.380649e-16
/-- An electron volt (exact), erg. -/
noncomputable def eV : ℝ := 1.602176634e-12
/-- Mass of the proton, g. -/
noncomputable def m_p : ℝ := 1.67262192369e-24
/-- The atomic mass unit, g. -/
noncomputable def amu : ℝ := 1.66053906660e-24
/-- Mass of the electron, g. -/
noncomputable def m_e : ℝ := 9.1093837015e-28
/-- Cross section of Thomson scattering, cm². -/
noncomputable def sigma_T : ℝ := 6.6524587321e-25
/-- Classical radius of the electron, cm. -/
noncomputable def r_e : ℝ := 2.8179403262e-13
/-- Newton's constant, cm³ g⁻¹ s⁻². -/
noncomputable def G : ℝ := 6.67430e-8
/-- The radiation constant, erg cm⁻³ K⁻⁴. -/
noncomputable def aRad : ℝ := 7.565733e-15
/-- Megaparsec, cm. -/
noncomputable def Mpc : ℝ := 3.0856775814913673e24
/-- Mass of the sun, g. -/
noncomputable def M_sun : ℝ := 1.98841e33
/-- Ionisation energy of hydrogen, eV. -/
noncomputable def ionH : ℝ := 13.598434
/-- Ionisation energy of neutral helium, eV. -/
noncomputable def ionHe : ℝ := 24.587389
/-- Ionisation energy of singly ionised helium, eV. -/
noncomputable def ionHeII : ℝ := 54.417765

/-- `x` agrees with `y` up to a relative error of `tol`. -/
def Near (tol x y : ℝ) : Prop := |x - y| ≤ tol * |y|

open Filter Topology in
/-- The rate `r` of a process in gas of temperature `T` has the threshold `E` (in kelvin): as the gas gets colder it falls off
as `exp(-E/T)`, up to powers of the temperature. -/
def Threshold (r : ℝ → ℝ) (E : ℝ) : Prop := Tendsto (fun T => -T * Real.log (r T)) (𝓝[>] 0) (𝓝 E)

end Verif.Spec.Codata
