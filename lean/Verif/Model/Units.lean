import Verif.Common
import Mathlib.Analysis.Real.Sqrt
import Mathlib.Analysis.Real.Pi.Bounds

/-!
Model of the unit system, unitsystem.py, and of the two conversions of internal energy to temperature outside the rate
network. Numbers are exact reals.
-/

namespace Verif.Units

/-- `UnitSystem`, unitsystem.py:7-31: the three units a user can choose. -/
structure UnitSystem where
  UnitMass_in_g : ℝ
  UnitLength_in_cm : ℝ
  UnitVelocity_in_cm_per_s : ℝ

/-- The defaults, unitsystem.py:7. -/
noncomputable def gadget : UnitSystem := ⟨1.98892e43, 3.085678e21, 1e5⟩

/-- unitsystem.py:13. -/
noncomputable def UnitSystem.UnitDensity_in_cgs (u : UnitSystem) : ℝ := u.UnitMass_in_g / u.UnitLength_in_cm ^ 3

/-- unitsystem.py:17. -/
noncomputable def UnitSystem.UnitInternalEnergy_in_cgs (u : UnitSystem) : ℝ := u.UnitVelocity_in_cm_per_s ^ 2

/-- unitsystem.py:19. -/
noncomputable def light : ℝ := 2.99e10
/-- unitsystem.py:21. -/
noncomputable def protonmass : ℝ := 1.67262178e-24
/-- unitsystem.py:23. -/
noncomputable def boltzmann : ℝ := 1.38066e-16
/-- unitsystem.py:25. -/
noncomputable def gravcgs : ℝ := 6.674e-8
/-- unitsystem.py:27. -/
noncomputable def h100 : ℝ := 3.2407789e-18
/-- unitsystem.py:29. -/
noncomputable def gamma : ℝ := 5 / 3

/-- `absorption_distance`, unitsystem.py:31-42. -/
noncomputable def absorption_distance (u : UnitSystem) (speclen red : ℝ) : ℝ :=
  h100 / light * speclen * u.UnitLength_in_cm * (1 + red) ^ 2

/-- `hubble`, unitsystem.py:53-55. -/
noncomputable def hubble (z omegam0 : ℝ) : ℝ := h100 * √(omegam0 * (1 + z) ^ 3 + (1 - omegam0))

/-- `redshift_distance`, unitsystem.py:44-51. -/
noncomputable def redshift_distance (u : UnitSystem) (speclen red omegam0 : ℝ) : ℝ :=
  hubble red omegam0 / light * speclen * u.UnitLength_in_cm

/-- `rho_crit`, unitsystem.py:57-62. -/
noncomputable def rho_crit (hub : ℝ) : ℝ :=
  let h100 := h100 * hub
  3 * h100 ^ 2 / (8 * Real.pi * gravcgs)

/-- `AbstractSnapshot.get_temp`, abstractsnapshot.py:121-154, for one particle. -/
noncomputable def snapTemp (u : UnitSystem) (hy_mass ienergy nelec : ℝ) : ℝ :=
  let ienergy := ienergy * u.UnitInternalEnergy_in_cgs
  let muienergy := 4 / (hy_mass * (3 + 4 * nelec) + 1) * ienergy
  (gamma - 1) * protonmass / boltzmann * muienergy

/-- `BOLTZMANN`, absorption.cpp:24. -/
noncomputable def cBoltzmann : ℝ := 1.3806504e-16

/-- `TSCALE`, absorption.cpp:33 with absorption.h:4. -/
noncomputable def TSCALE : ℝ := (5 / 3 - 1) * 1.67262178e-24 * 1e10 / cBoltzmann

/-- `compute_temp`, absorption.cpp:292-304. -/
noncomputable def compute_temp (uu ne xh : ℝ) : ℝ :=
  let mu := 1 / (xh * (0.75 + ne) + 0.25)
  uu * mu * TSCALE

end Verif.Units
