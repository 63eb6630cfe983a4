import Verif.Spec.Codata
import Mathlib.Analysis.SpecialFunctions.Pow.Continuity
import Verif.Props.Cooling
import Verif.Props.Units
import Verif.Model.Absorption
import Verif.Model.CReader
import Verif.Model.VoigtMin
import Verif.Model.Gridded

/-!
C100: physical constants and thresholds.
-/

namespace Verif.Props
open Verif Filter Topology
open Verif.Spec.Codata (Near Threshold)

theorem near_of {tol x y : ℝ} (hy : 0 < y) (h1 : (1 - tol) * y ≤ x) (h2 : x ≤ (1 + tol) * y) : Near tol x y := by
  unfold Near
  rw [abs_of_pos hy, abs_le]
  constructor <;> linarith

/-! ### Constants -/

/-- C100: every copy of a constant of nature, in C++ and in Python, has its measured value. The exception is the speed of light in
Python (`light_wrong`). -/
theorem constants_near_partial :
    Near 1e-6 Absorption.SIGMA_T Spec.Codata.sigma_T ∧ Near 2e-6 Absorption.BOLTZMANN Spec.Codata.k ∧
    Near 1e-9 Absorption.LIGHT Spec.Codata.c ∧ Near 1e-6 Absorption.PROTONMASS Spec.Codata.m_p ∧
    Near 1e-6 Units.protonmass Spec.Codata.m_p ∧ Near 1e-5 Units.boltzmann Spec.Codata.k ∧
    Near 1e-4 Units.gravcgs Spec.Codata.G ∧ Near 1e-6 Units.h100 (1e7 / Spec.Codata.Mpc) ∧
    Near 2e-6 Units.cBoltzmann Spec.Codata.k ∧ Near 1e-6 Rates.protonmass Spec.Codata.m_p ∧
    Near 1e-5 Rates.eVinergs Spec.Codata.eV ∧ Near 1e-6 Rates.kB Spec.Codata.k ∧
    Near 3e-4 Units.gadget.UnitMass_in_g (1e10 * Spec.Codata.M_sun) ∧
    Near 1e-6 Units.gadget.UnitLength_in_cm (1e-3 * Spec.Codata.Mpc) ∧
    Near 3e-4 CReader.GADGET_MASS (1e10 * Spec.Codata.M_sun) ∧
    Near 1e-6 CReader.GADGET_LENGTH (1e-3 * Spec.Codata.Mpc) ∧
    Near 1e-6 CReader.PROTONMASS Spec.Codata.m_p := by
  refine ⟨?_, ?_, ?_, ?_, ?_, ?_, ?_, ?_, ?_, ?_, ?_, ?_, ?_, ?_, ?_, ?_, ?_⟩ <;> apply near_of <;>
    norm_num [Absorption.SIGMA_T, Absorption.BOLTZMANN, Absorption.LIGHT, Absorption.PROTONMASS, Units.protonmass,
      Units.boltzmann, Units.gravcgs, Units.h100, Units.cBoltzmann, Rates.protonmass, Rates.eVinergs, Rates.kB,
      Units.gadget, CReader.GADGET_MASS, CReader.GADGET_LENGTH, CReader.PROTONMASS, Spec.Codata.sigma_T, Spec.Codata.k,
      Spec.Codata.c, Spec.Codata.m_p, Spec.Codata.G, Spec.Codata.Mpc, Spec.Codata.eV, Spec.Codata.M_sun]

/-- C100 is false for the speed of light of the unit system and of the Voigt fits: it is 0.26 per cent too small, so the absorption
distance and the redshift distance of every sightline are 0.26 per cent too large. -/
theorem light_wrong :
    ¬ Near 2e-3 Units.light Spec.Codata.c ∧ Near 3e-3 Units.light Spec.Codata.c ∧
    (∀ (u : Units.UnitSystem) (L z : ℝ), ∃ r, 1.0026 < r ∧ r < 1.0027 ∧
      Units.absorption_distance u L z = r * (Units.h100 / Spec.Codata.c * L * u.UnitLength_in_cm * (1 + z) ^ 2)) ∧
    (∀ (u : Units.UnitSystem) (L z Om : ℝ), ∃ r, 1.0026 < r ∧ r < 1.0027 ∧
      Units.redshift_distance u L z Om = r * (Units.hubble z Om / Spec.Codata.c * L * u.UnitLength_in_cm)) ∧
    (∀ table tau dvbin g key P, VoigtMin.Profiles.init table tau dvbin g key = .ok P →
      ¬ Near 2e-3 (P.light * 1e5) Spec.Codata.c) := by
  have hc : Spec.Codata.c / Units.light = 2.99792458 / 2.99 := by norm_num [Spec.Codata.c, Units.light]
  have hc0 : Spec.Codata.c ≠ 0 := by norm_num [Spec.Codata.c]
  have hl0 : Units.light ≠ 0 := by norm_num [Units.light]
  refine ⟨?_, ?_, ?_, ?_, ?_⟩
  · unfold Near Units.light Spec.Codata.c
    rw [abs_of_neg (by norm_num), abs_of_pos (by norm_num)]
    norm_num
  · apply near_of <;> norm_num [Units.light, Spec.Codata.c]
  · intro u L z
    refine ⟨Spec.Codata.c / Units.light, by rw [hc]; norm_num, by rw [hc]; norm_num, ?_⟩
    unfold Units.absorption_distance
    field_simp
  · intro u L z Om
    refine ⟨Spec.Codata.c / Units.light, by rw [hc]; norm_num, by rw [hc]; norm_num, ?_⟩
    unfold Units.redshift_distance
    field_simp
  · intro table tau dvbin g key P h
    unfold VoigtMin.Profiles.init at h
    cases ht : table key with
    | none => rw [ht] at h; cases h
    | some ln =>
      rw [ht] at h
      obtain rfl := Except.ok.inj h
      unfold Near Spec.Codata.c
      dsimp only
      rw [abs_of_neg (by norm_num), abs_of_pos (by norm_num)]
      norm_num

/-- C100 is false for the masses of atoms: they are given in atomic mass units but multiplied by the mass of the proton, and so are
overstated by 0.7 per cent; the thermal width of every line is 0.36 per cent too small. `m` is the mass in atomic units. -/
theorem thermal_width {profile : ℝ → ℝ → ℝ} {lambda gamma fosc m velfac box tautail : ℝ} {kernel : ℤ} (hm : 0 < m) :
    ∃ r, 0.9963 < r ∧ r < 0.9965 ∧
      (Absorption.LineAbsorption.mk' profile lambda gamma fosc m velfac box kernel tautail).bfac * 1e5 =
        r * √(2 * Spec.Codata.k / (m * Spec.Codata.amu)) := by
  have hx : Absorption.BOLTZMANN / Absorption.PROTONMASS / (Spec.Codata.k / Spec.Codata.amu) =
      1.3806504 / 1.67262178 / (1.380649 / 1.66053906660) := by
    norm_num [Absorption.BOLTZMANN, Absorption.PROTONMASS, Spec.Codata.k, Spec.Codata.amu]
  have hk : 0 < Spec.Codata.k := by norm_num [Spec.Codata.k]
  have ha : 0 < Spec.Codata.amu := by norm_num [Spec.Codata.amu]
  have hp : 0 < Absorption.PROTONMASS := by norm_num [Absorption.PROTONMASS]
  refine ⟨√(Absorption.BOLTZMANN / Absorption.PROTONMASS / (Spec.Codata.k / Spec.Codata.amu)), ?_, ?_, ?_⟩
  · rw [hx]
    apply Real.lt_sqrt_of_sq_lt
    norm_num
  · rw [hx, Real.sqrt_lt' (by norm_num)]
    norm_num
  · unfold Absorption.LineAbsorption.mk'
    dsimp only
    rw [← Real.sqrt_mul (by rw [hx]; norm_num), div_mul_cancel₀ _ (by norm_num)]
    congr 1
    field_simp

/-- Hydrogen. -/
example := thermal_width (profile := fun _ _ => 1) (lambda := 1215.67e-8) (gamma := 6.265e8) (fosc := 0.4164) (m := 1.00794)
  (velfac := 0.1) (box := 10000) (tautail := 1e-7) (kernel := 1) (by norm_num)

/-- C100: the cross section of a line is that of classical electrodynamics, `π r_e λ f`, in C++ and in the Voigt fits (there for
wavelengths in angstrom). -/
theorem line_cross_section {profile : ℝ → ℝ → ℝ} {lambda gamma fosc m velfac box tautail : ℝ} {kernel : ℤ} (hl : 0 < lambda)
    (hf : 0 < fosc) :
    Near 1e-6 (Absorption.LineAbsorption.mk' profile lambda gamma fosc m velfac box kernel tautail).sigma_a
      (Real.pi * Spec.Codata.r_e * lambda * fosc) ∧
    (∀ table tau dvbin g key ln P, table key = some ln → 0 < ln.lambda → 0 < ln.fosc →
      VoigtMin.Profiles.init table tau dvbin g key = .ok P →
        Near 1e-6 P.sigma_a (Real.pi * Spec.Codata.r_e * (ln.lambda * 1e-8) * ln.fosc)) := by
  have hpi := Real.pi_pos
  have key : Near 1e-6 (√(3 * Real.pi * 6.652458558e-25 / 8)) (Real.pi * Spec.Codata.r_e) := by
    have h1 := Real.pi_gt_d20
    have h2 := Real.pi_lt_d20
    apply near_of (by unfold Spec.Codata.r_e; positivity)
    · apply Real.le_sqrt_of_sq_le
      unfold Spec.Codata.r_e
      nlinarith
    · rw [Real.sqrt_le_iff]
      unfold Spec.Codata.r_e
      constructor
      · positivity
      · nlinarith
  have mul : ∀ {x y z : ℝ}, Near 1e-6 x y → 0 < z → Near 1e-6 (x * z) (y * z) := by
    intro x y z h hz
    unfold Near at *
    rw [← sub_mul, abs_mul, abs_mul, ← mul_assoc]
    gcongr
  constructor
  · have := mul key (mul_pos hl hf)
    unfold Absorption.LineAbsorption.mk' Absorption.SIGMA_T
    convert this using 1 <;> ring
  · intro table tau dvbin g key' ln P ht hl hf h
    unfold VoigtMin.Profiles.init at h
    rw [ht] at h
    obtain rfl := Except.ok.inj h
    have := mul key (show 0 < ln.lambda * 1e-8 * ln.fosc by positivity)
    convert this using 1
    · dsimp only; ring
    · ring

/-- Lyman alpha. -/
example := line_cross_section (profile := fun _ _ => 1) (lambda := 1215.67e-8) (gamma := 6.265e8) (fosc := 0.4164) (m := 1.00794)
  (velfac := 0.1) (box := 10000) (tautail := 1e-7) (kernel := 1) (by norm_num) (by norm_num)

/-- C100: cooling by inverse Compton scattering off the microwave background of temperature 2.7255 K today. -/
theorem compton_cooling {T z : ℝ} (hz : -1 < z) (hT : 2.7255 * (1 + z) < T) :
    Near 1e-4 (Rates.inverseCompton T z) (4 * Spec.Codata.sigma_T * Spec.Codata.aRad * Spec.Codata.k / (Spec.Codata.m_e * Spec.Codata.c) *
      (2.7255 * (1 + z)) ^ 4 * (T - 2.7255 * (1 + z))) := by
  have h0 : 0 < 1 + z := by linarith
  have hd : 0 < T - 2.7255 * (1 + z) := by linarith
  have key : ∀ {x y w : ℝ}, 0 < y → (1 - 1e-4) * y ≤ x → x ≤ (1 + 1e-4) * y → 0 < w → Near 1e-4 (x * w) (y * w) := by
    intro x y w hy h1 h2 hw
    apply near_of (by positivity)
    · rw [← mul_assoc]; gcongr
    · rw [← mul_assoc]; gcongr
  have := key (x := 4 * 6.6524e-25 * 7.5657e-15 / (9.10938e-28 * 2.99792e10) * Rates.kB)
    (y := 4 * Spec.Codata.sigma_T * Spec.Codata.aRad * Spec.Codata.k / (Spec.Codata.m_e * Spec.Codata.c))
    (by norm_num [Spec.Codata.sigma_T, Spec.Codata.aRad, Spec.Codata.k, Spec.Codata.m_e, Spec.Codata.c])
    (by norm_num [Spec.Codata.sigma_T, Spec.Codata.aRad, Spec.Codata.k, Spec.Codata.m_e, Spec.Codata.c, Rates.kB])
    (by norm_num [Spec.Codata.sigma_T, Spec.Codata.aRad, Spec.Codata.k, Spec.Codata.m_e, Spec.Codata.c, Rates.kB])
    (w := (2.7255 * (1 + z)) ^ 4 * (T - 2.7255 * (1 + z))) (by positivity)
  unfold Rates.inverseCompton Rates.tcmb
  dsimp only
  convert this using 1 <;> ring

/-- Witness: the microwave background cools gas at the mean temperature of the intergalactic medium at redshift 3. -/
example : (-1 : ℝ) < 3 ∧ (2.7255 : ℝ) * (1 + 3) < 1e4 := by norm_num

/-! ### Thresholds -/

/-- A factor that varies too slowly in cold gas to change a threshold. -/
def Slow (h : ℝ → ℝ) : Prop := (∀ᶠ T in 𝓝[>] 0, 0 < h T) ∧ Tendsto (fun T => T * Real.log (h T)) (𝓝[>] 0) (𝓝 0)

theorem Slow.mul {f g : ℝ → ℝ} (hf : Slow f) (hg : Slow g) : Slow (fun T => f T * g T) := by
  refine ⟨by filter_upwards [hf.1, hg.1] with T h1 h2 using mul_pos h1 h2, ?_⟩
  have := hf.2.add hg.2
  rw [add_zero] at this
  refine this.congr' ?_
  filter_upwards [hf.1, hg.1] with T h1 h2
  rw [Real.log_mul h1.ne' h2.ne']
  ring

theorem Slow.inv {f : ℝ → ℝ} (hf : Slow f) : Slow (fun T => (f T)⁻¹) := by
  refine ⟨by filter_upwards [hf.1] with T h1 using inv_pos.2 h1, ?_⟩
  have := hf.2.neg
  rw [neg_zero] at this
  refine this.congr fun T => ?_
  rw [Real.log_inv]
  ring

theorem Slow.div {f g : ℝ → ℝ} (hf : Slow f) (hg : Slow g) : Slow (fun T => f T / g T) := by
  simpa only [div_eq_mul_inv] using hf.mul hg.inv

theorem id_tendsto : Tendsto (fun T : ℝ => T) (𝓝[>] 0) (𝓝 0) := tendsto_id.mono_left nhdsWithin_le_nhds

/-- Factors with a positive limit. -/
theorem slow_of_limit {f : ℝ → ℝ} {a : ℝ} (ha : 0 < a) (h : Tendsto f (𝓝[>] 0) (𝓝 a)) : Slow f := by
  refine ⟨h.eventually (lt_mem_nhds ha), ?_⟩
  have := id_tendsto.mul (h.log ha.ne')
  rwa [zero_mul] at this

theorem slow_const {a : ℝ} (ha : 0 < a) : Slow (fun _ => a) := slow_of_limit ha tendsto_const_nhds

theorem Slow.congr {f g : ℝ → ℝ} (hf : Slow f) (h : ∀ T, 0 < T → f T = g T) : Slow g := by
  have : f =ᶠ[𝓝[>] 0] g := by filter_upwards [self_mem_nhdsWithin] with T hT using h T hT
  exact ⟨by filter_upwards [hf.1, this] with T h1 h2 using h2 ▸ h1,
    hf.2.congr' (this.mono fun T h => by rw [h])⟩

theorem slow_rpow (p : ℝ) : Slow (fun T => T ^ p) := by
  refine ⟨by filter_upwards [self_mem_nhdsWithin] with T hT using Real.rpow_pos_of_pos hT p, ?_⟩
  have h1 : Tendsto (fun T : ℝ => Real.log T * T ^ (1 : ℝ)) (𝓝[>] 0) (𝓝 0) := tendsto_log_mul_rpow_nhdsGT_zero zero_lt_one
  have := h1.const_mul p
  rw [mul_zero] at this
  refine this.congr' ?_
  filter_upwards [self_mem_nhdsWithin] with T hT
  rw [Real.log_rpow hT, Real.rpow_one]
  ring

theorem threshold_of {h : ℝ → ℝ} {E : ℝ} (hh : Slow h) : Threshold (fun T => h T * Real.exp (-E / T)) E := by
  unfold Threshold
  have h1 := hh.2.neg.add_const E
  rw [neg_zero, zero_add] at h1
  refine h1.congr' ?_
  filter_upwards [hh.1, self_mem_nhdsWithin] with T h1 hT
  have hT0 : T ≠ 0 := (Set.mem_Ioi.1 hT).ne'
  rw [Real.log_mul h1.ne' (Real.exp_pos _).ne', Real.log_exp]
  field_simp
  ring

theorem threshold_congr {f g : ℝ → ℝ} {E : ℝ} (hf : Threshold f E) (h : ∀ T, 0 < T → f T = g T) : Threshold g E := by
  refine Tendsto.congr' ?_ hf
  filter_upwards [self_mem_nhdsWithin] with T hT
  rw [h T hT]

theorem slow_t5 {c : ℝ} : Slow (Rates.t5 c) := by
  apply slow_of_limit one_pos
  have : ContinuousAt (Rates.t5 c) 0 := by
    unfold Rates.t5
    apply ContinuousAt.add continuousAt_const
    exact ContinuousAt.rpow (continuousAt_id.div_const c) continuousAt_const (Or.inr (by norm_num))
  have := this.tendsto
  rw [show Rates.t5 c 0 = 1 by unfold Rates.t5; norm_num] at this
  exact this.mono_left nhdsWithin_le_nhds

theorem cenGamma_threshold {a e : ℝ} (ha : 0 < a) : Threshold (Rates.cenGamma a e) e := by
  have h : Slow (fun T => a * T ^ (1 / 2 : ℝ) / (1 + √(T / 1e5))) := by
    refine ((slow_const ha).mul (slow_rpow _)).div (slow_of_limit one_pos ?_)
    have : ContinuousAt (fun T : ℝ => 1 + √(T / 1e5)) 0 := by fun_prop
    have := this.tendsto
    rw [show (1 : ℝ) + √(0 / 1e5) = 1 by simp] at this
    exact this.mono_left nhdsWithin_le_nhds
  refine threshold_congr (threshold_of h) fun T hT => ?_
  unfold Rates.cenGamma
  rw [Real.sqrt_eq_rpow T]
  ring

theorem voronov_threshold {dE PP AA XX KK : ℝ} (hE : 0 < dE) (hP : 0 ≤ PP) (hA : 0 < AA) :
    Threshold (Rates.voronovFit dE PP AA XX KK) (dE / 8.61734e-5) := by
  have hu : 0 < dE / 8.61734e-5 := by positivity
  set u := dE / 8.61734e-5 with hudef
  have hlin : Slow (fun T => XX * T + u) := by
    apply slow_of_limit hu
    have : ContinuousAt (fun T : ℝ => XX * T + u) 0 := by fun_prop
    have := this.tendsto
    rw [mul_zero, zero_add] at this
    exact this.mono_left nhdsWithin_le_nhds
  have hnum : Slow (fun T => 1 + PP * √(u / T)) := by
    rcases hP.eq_or_lt with rfl | hP
    · simpa using slow_const one_pos
    · have : Slow (fun T => T ^ (-1 / 2 : ℝ) * (√T + PP * √u)) := by
        refine (slow_rpow _).mul (slow_of_limit (a := PP * √u) (by positivity) ?_)
        have : ContinuousAt (fun T : ℝ => √T + PP * √u) 0 := by fun_prop
        have := this.tendsto
        rw [Real.sqrt_zero, zero_add] at this
        exact this.mono_left nhdsWithin_le_nhds
      refine this.congr fun T hT => ?_
      rw [Real.sqrt_div hu.le, show (-1 / 2 : ℝ) = -(1 / 2) by norm_num, Real.rpow_neg hT.le, ← Real.sqrt_eq_rpow]
      have : 0 < √T := Real.sqrt_pos.2 hT
      field_simp
  have h : Slow (fun T => AA * (1 + PP * √(u / T)) * T ^ (1 : ℝ) / (XX * T + u) * (u ^ KK * T ^ (-KK))) :=
    (((((slow_const hA).mul hnum).mul (slow_rpow 1))).div hlin).mul ((slow_const (by positivity)).mul (slow_rpow _))
  refine threshold_congr (threshold_of (E := u) h) fun T hT => ?_
  unfold Rates.voronovFit
  dsimp only
  have hUU : dE / (8.61734e-5 * T) = u / T := by rw [hudef, div_div]
  rw [hUU, Real.div_rpow hu.le hT.le, Real.rpow_neg hT.le, Real.rpow_one, neg_div]
  have : XX + u / T = (XX * T + u) / T := by field_simp
  rw [this]
  have : 0 < T ^ KK := Real.rpow_pos_of_pos hT KK
  by_cases hz : XX * T + u = 0
  · simp [hz]
  · field_simp

/-- C100: in every table, collisions ionise hydrogen, helium and ionised helium only if the electrons have the ionisation energy. -/
theorem ionisation_thresholds (name : String) :
    (∃ E, Threshold (Rates.recombOf name).GammaeH0 E ∧ Near 1e-3 (Spec.Codata.k * E) (Spec.Codata.ionH * Spec.Codata.eV)) ∧
    (∃ E, Threshold (Rates.recombOf name).GammaeHe0 E ∧ Near 1e-3 (Spec.Codata.k * E) (Spec.Codata.ionHe * Spec.Codata.eV)) ∧
    (∃ E, Threshold (Rates.recombOf name).GammaeHep E ∧ Near 1e-3 (Spec.Codata.k * E) (Spec.Codata.ionHeII * Spec.Codata.eV)) := by
  have hv : (∃ E, Threshold (Rates.voronovFit 13.6 0 0.291e-07 0.232 0.39) E ∧
        Near 1e-3 (Spec.Codata.k * E) (Spec.Codata.ionH * Spec.Codata.eV)) ∧
      (∃ E, Threshold (Rates.voronovFit 24.6 0 0.175e-07 0.180 0.35) E ∧
        Near 1e-3 (Spec.Codata.k * E) (Spec.Codata.ionHe * Spec.Codata.eV)) ∧
      (∃ E, Threshold (Rates.voronovFit 54.4 1 0.205e-08 0.265 0.25) E ∧
        Near 1e-3 (Spec.Codata.k * E) (Spec.Codata.ionHeII * Spec.Codata.eV)) := by
    refine ⟨⟨_, voronov_threshold (by norm_num) (by norm_num) (by norm_num), ?_⟩,
      ⟨_, voronov_threshold (by norm_num) (by norm_num) (by norm_num), ?_⟩,
      ⟨_, voronov_threshold (by norm_num) (by norm_num) (by norm_num), ?_⟩⟩ <;> apply near_of <;>
      norm_num [Spec.Codata.k, Spec.Codata.ionH, Spec.Codata.ionHe, Spec.Codata.ionHeII, Spec.Codata.eV]
  unfold Rates.recombOf
  split_ifs
  · exact hv
  · exact hv
  · refine ⟨⟨_, cenGamma_threshold (by norm_num), ?_⟩, ⟨_, cenGamma_threshold (by norm_num), ?_⟩,
      ⟨_, cenGamma_threshold (by norm_num), ?_⟩⟩ <;> apply near_of <;>
      norm_num [Spec.Codata.k, Spec.Codata.ionH, Spec.Codata.ionHe, Spec.Codata.ionHeII, Spec.Codata.eV]

/-- C100: collisional excitation of hydrogen and of ionised helium needs three quarters of the ionisation energy. -/
theorem excitation_thresholds (c : ℝ) :
    (∃ E, Threshold (Rates.exciteH0 c) E ∧ Near 1e-3 (Spec.Codata.k * E) (3 / 4 * Spec.Codata.ionH * Spec.Codata.eV)) ∧
    (∃ E, Threshold (Rates.exciteHeP c) E ∧ Near 1e-3 (Spec.Codata.k * E) (3 / 4 * Spec.Codata.ionHeII * Spec.Codata.eV)) := by
  refine ⟨⟨118348.0, ?_, ?_⟩, ⟨473638, ?_, ?_⟩⟩
  · refine threshold_congr (threshold_of ((slow_const (a := 7.5e-19) (by norm_num)).div (slow_t5 (c := c)))) fun T hT => ?_
    unfold Rates.exciteH0
    ring
  · apply near_of <;> norm_num [Spec.Codata.k, Spec.Codata.ionH, Spec.Codata.eV]
  · refine threshold_congr (threshold_of (((slow_const (a := 5.54e-17) (by norm_num)).mul (slow_rpow (-0.397))).div (slow_t5 (c := c)))) fun T hT => ?_
    unfold Rates.exciteHeP
    ring
  · apply near_of <;> norm_num [Spec.Codata.k, Spec.Codata.ionHeII, Spec.Codata.eV]

/-- C100 is false for neutral helium: the code lets electrons excite it only with the energy needed for ionised helium, nearly
twice what would take the electron off the atom. -/
theorem helium_excitation_threshold_wrong (c : ℝ) :
    ∃ E, Threshold (Rates.exciteHe0 c) E ∧ 1.6 * (Spec.Codata.ionHe * Spec.Codata.eV) < Spec.Codata.k * E := by
  refine ⟨473638, ?_, by norm_num [Spec.Codata.k, Spec.Codata.ionHe, Spec.Codata.eV]⟩
  refine threshold_congr (threshold_of (((slow_const (a := 9.1e-27) (by norm_num)).mul (slow_rpow (-0.1687))).div (slow_t5 (c := c)))) fun T hT => ?_
  unfold Rates.exciteHe0
  ring

/-- C100: each collisional ionisation costs the gas the ionisation energy: what the tables of cooling functions of all three
kinds add to the loss by excitation. (For `Nyx`, hydrogen has a fit for both together.) -/
theorem ionisation_losses (t5 : ℝ) (r : Rates.Recomb) :
    (∃ e, Near 1e-4 e (Spec.Codata.ionH * Spec.Codata.eV) ∧ ∀ T, (Rates.kwh t5 r).CollisionalH0 T = Rates.exciteH0 t5 T + e * r.GammaeH0 T) ∧
    (∃ e, Near 1e-4 e (Spec.Codata.ionHe * Spec.Codata.eV) ∧
      ∀ T, (Rates.kwh t5 r).CollisionalHe0 T = Rates.exciteHe0 t5 T + e * r.GammaeHe0 T) ∧
    (∃ e, Near 1e-4 e (Spec.Codata.ionHeII * Spec.Codata.eV) ∧
      ∀ T, (Rates.kwh t5 r).CollisionalHeP T = Rates.exciteHeP t5 T + e * r.GammaeHep T) := by
  refine ⟨⟨_, ?_, fun T => rfl⟩, ⟨_, ?_, fun T => rfl⟩, ⟨_, ?_, fun T => rfl⟩⟩ <;> apply near_of <;>
    norm_num [Spec.Codata.ionH, Spec.Codata.ionHe, Spec.Codata.ionHeII, Spec.Codata.eV, Rates.eVinergs]
