import Verif.Model.Units
import Verif.Props.RateNetwork

/-!
C48: units and cosmology. C52: the three conversions of internal energy to temperature.
-/

namespace Verif.Props
open Verif Verif.Units Verif.Spec

/-- A choice of units. -/
def ValidUnits (u : UnitSystem) : Prop :=
  0 < u.UnitMass_in_g ∧ 0 < u.UnitLength_in_cm ∧ 0 < u.UnitVelocity_in_cm_per_s

theorem gadget_valid : ValidUnits gadget := by
  unfold ValidUnits gadget
  norm_num

/-- C48: the Friedmann equation for matter and a cosmological constant in a flat universe, with the positive root. -/
theorem hubble_friedmann {z Om : ℝ} (hz : -1 < z) (h0 : 0 ≤ Om) (h1 : Om < 1) :
    0 < hubble z Om ∧ hubble z Om ^ 2 = h100 ^ 2 * (Om * (1 + z) ^ 3 + (1 - Om)) ∧ hubble 0 Om = h100 := by
  have hz' : 0 < 1 + z := by linarith
  have hp : 0 < Om * (1 + z) ^ 3 + (1 - Om) := by
    have : 0 ≤ Om * (1 + z) ^ 3 := by positivity
    linarith
  refine ⟨?_, ?_, ?_⟩
  · unfold hubble h100
    have := Real.sqrt_pos.2 hp
    positivity
  · unfold hubble
    rw [mul_pow, Real.sq_sqrt hp.le]
  · unfold hubble
    have : Om * (1 + 0) ^ 3 + (1 - Om) = (1 : ℝ) := by ring
    rw [this, Real.sqrt_one, mul_one]

/-- C48: the universe expands faster at higher redshift. -/
theorem hubble_mono {z z' Om : ℝ} (hz : -1 < z) (hzz : z ≤ z') (h0 : 0 ≤ Om) : hubble z Om ≤ hubble z' Om := by
  unfold hubble h100
  have : 0 ≤ 1 + z := by linarith
  gcongr

/-- C48: the critical density is that of the Friedmann equation, and positive. -/
theorem rho_crit_friedmann {h : ℝ} (hh : 0 < h) :
    0 < rho_crit h ∧ (h100 * h) ^ 2 = 8 * Real.pi * gravcgs / 3 * rho_crit h := by
  have hpi := Real.pi_pos
  unfold rho_crit gravcgs h100
  dsimp only
  constructor
  · positivity
  · field_simp

/-- C48: absorption and redshift distance are positive and additive in the length, the absorption distance is
`(1+z)² H₀/H(z)` times the redshift distance, and both depend only on the physical length. -/
theorem distances {u : UnitSystem} (hu : ValidUnits u) {L z Om : ℝ} (hL : 0 < L) (hz : -1 < z) (h0 : 0 ≤ Om) (h1 : Om < 1) :
    0 < absorption_distance u L z ∧ 0 < redshift_distance u L z Om ∧
    (∀ a b : ℝ, absorption_distance u (a + b) z = absorption_distance u a z + absorption_distance u b z) ∧
    (∀ a b : ℝ, redshift_distance u (a + b) z Om = redshift_distance u a z Om + redshift_distance u b z Om) ∧
    absorption_distance u L z = (1 + z) ^ 2 * (hubble 0 Om / hubble z Om) * redshift_distance u L z Om ∧
    ∀ u' L', ValidUnits u' → L' * u'.UnitLength_in_cm = L * u.UnitLength_in_cm →
      absorption_distance u' L' z = absorption_distance u L z ∧
      redshift_distance u' L' z Om = redshift_distance u L z Om := by
  obtain ⟨hp, -, h00⟩ := hubble_friedmann hz h0 h1
  obtain ⟨-, hl, -⟩ := hu
  have hz' : 0 < 1 + z := by linarith
  refine ⟨?_, ?_, ?_, ?_, ?_, ?_⟩
  · unfold absorption_distance h100 light
    positivity
  · unfold redshift_distance light
    positivity
  · intro a b
    unfold absorption_distance
    ring
  · intro a b
    unfold redshift_distance
    ring
  · rw [h00]
    unfold absorption_distance redshift_distance
    field_simp
  · intro u' L' _ h
    unfold absorption_distance redshift_distance
    constructor
    · rw [mul_assoc (h100 / light), h]; ring
    · rw [mul_assoc (hubble z Om / light), h]; ring

/-- Witness: a 60 Mpc/h box at redshift 3. -/
example : 0 < absorption_distance gadget 60000 3 :=
  (distances gadget_valid (by norm_num) (by norm_num) (by norm_num : (0 : ℝ) ≤ 0.3) (by norm_num)).1

/-- C52: the temperature of a snapshot is that of an ideal monatomic gas with the given mass fraction of hydrogen. -/
theorem snapTemp_ideal_gas {u : UnitSystem} {X e ne : ℝ} (hX : 0 < X) (hX1 : X ≤ 1) (hne : 0 ≤ ne) :
    e * u.UnitInternalEnergy_in_cgs = 3 / 2 * boltzmann * snapTemp u X e ne / (meanMass ne (1 - X) * protonmass) := by
  have h1 := temp_ideal_gas (u := e * u.UnitInternalEnergy_in_cgs / 1e10) hne (by linarith : 0 ≤ 1 - X) (by linarith)
  have h2 : snapTemp u X e ne = Rates.tempOf ne (e * u.UnitInternalEnergy_in_cgs / 1e10) (1 - X) := by
    unfold snapTemp Rates.tempOf gamma protonmass Rates.protonmass boltzmann
    dsimp only
    have : 1 + (3 + 4 * ne) * (1 - (1 - X)) = X * (3 + 4 * ne) + 1 := by ring
    rw [this]
    ring
  rw [h2]
  unfold boltzmann protonmass
  rw [← h1]
  ring

/-- C52: the rate network and the snapshot reader agree exactly in default units, and the C++ one up to the ratio of the
two values of Boltzmann's constant. -/
theorem temperatures_agree {X e ne : ℝ} (hX : 0 < X) (hne : 0 ≤ ne) :
    Rates.tempOf ne e (1 - X) = snapTemp gadget X e ne ∧
    compute_temp e ne X = snapTemp gadget X e ne * (boltzmann / cBoltzmann) := by
  constructor
  · unfold snapTemp Rates.tempOf gamma protonmass Rates.protonmass boltzmann UnitSystem.UnitInternalEnergy_in_cgs gadget
    dsimp only
    have : 1 + (3 + 4 * ne) * (1 - (1 - X)) = X * (3 + 4 * ne) + 1 := by ring
    rw [this]
    ring
  · unfold compute_temp snapTemp TSCALE gamma protonmass UnitSystem.UnitInternalEnergy_in_cgs gadget
    dsimp only
    have h1 : 0 < X * (3 + 4 * ne) + 1 := by positivity
    have h2 : 0 < X * (0.75 + ne) + 0.25 := by positivity
    have h3 : 1 / (X * (0.75 + ne) + 0.25) = 4 / (X * (3 + 4 * ne) + 1) := by
      rw [div_eq_div_iff h2.ne' h1.ne']
      ring
    have hb : boltzmann ≠ 0 := by unfold boltzmann; norm_num
    have hc : cBoltzmann ≠ 0 := by unfold cBoltzmann; norm_num
    rw [h3]
    field_simp
    norm_num

/-- C52: positive, increasing with the energy, decreasing with the number of electrons. -/
theorem snapTemp_mono {u : UnitSystem} (hu : ValidUnits u) {X e e' ne ne' : ℝ} (hX : 0 < X) (he : 0 < e) (hee : e < e')
    (hne : 0 ≤ ne) (hnn : ne < ne') :
    0 < snapTemp u X e ne ∧ snapTemp u X e ne < snapTemp u X e' ne ∧ snapTemp u X e ne' < snapTemp u X e ne := by
  obtain ⟨-, -, hv⟩ := hu
  have hg : 0 < gamma - 1 := by unfold gamma; norm_num
  have hp : 0 < protonmass := by unfold protonmass; norm_num
  have hb : 0 < boltzmann := by unfold boltzmann; norm_num
  unfold snapTemp UnitSystem.UnitInternalEnergy_in_cgs
  dsimp only
  refine ⟨?_, ?_, ?_⟩
  · positivity
  · gcongr
  · gcongr

/-- Witness. -/
example : 0 < snapTemp gadget 0.76 100 1.16 :=
  (snapTemp_mono gadget_valid (by norm_num) (by norm_num) (by norm_num : (100 : ℝ) < 200) (by norm_num)
    (by norm_num : (1.16 : ℝ) < 2)).1

/-! The theorems at work for a flat universe with three tenths of matter, and for ionised gas. -/

example := hubble_friedmann (z := 3) (Om := 0.3) (by norm_num) (by norm_num) (by norm_num)

example := hubble_mono (z := 2) (z' := 3) (Om := 0.3) (by norm_num) (by norm_num) (by norm_num)

example := rho_crit_friedmann (h := 0.7) (by norm_num)

example := snapTemp_ideal_gas (u := gadget) (X := 0.76) (e := 100) (ne := 1.16) (by norm_num) (by norm_num) (by norm_num)

example := temperatures_agree (X := 0.76) (e := 100) (ne := 1.16) (by norm_num) (by norm_num)

end Verif.Props
