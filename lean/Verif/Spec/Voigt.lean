import Mathlib.Analysis.SpecialFunctions.ImproperIntegrals
import Mathlib.Analysis.SpecialFunctions.Gaussian.GaussianIntegral
import Mathlib.Analysis.Convolution
import Mathlib.Analysis.SpecialFunctions.Integrals.Basic
import Mathlib.MeasureTheory.Measure.Haar.NormedSpace

/-!
The Voigt function: the convolution of a Gaussian and a Lorentzian, which is the real part of the Faddeeva function.
-/

namespace Verif.Spec
open MeasureTheory Real

/-- The Faddeeva function `exp(-z²) erfc(-iz)` in the upper half plane, by its integral (DLMF 7.7.2). -/
noncomputable def faddeeva (z : ℂ) : ℂ := Complex.I / π * ∫ t : ℝ, Complex.exp (-(t : ℂ) ^ 2) / (z - t)

/-- A Lorentzian of half width `a`, with area `π`. -/
noncomputable def lorentz (a x : ℝ) : ℝ := a / (x ^ 2 + a ^ 2)

/-- The Voigt function `H(a,u)`. -/
noncomputable def voigtH (a u : ℝ) : ℝ := 1 / π * ∫ t : ℝ, exp (-t ^ 2) * lorentz a (u - t)

theorem gauss_integrable : Integrable fun t : ℝ => exp (-t ^ 2) := by
  simpa using integrable_exp_neg_mul_sq one_pos

theorem gauss_integral : ∫ t : ℝ, exp (-t ^ 2) = √π := by
  simpa using integral_gaussian 1

theorem lorentz_scale {a : ℝ} (ha : 0 < a) (x : ℝ) : lorentz a x = a⁻¹ * (1 + (x / a) ^ 2)⁻¹ := by
  unfold lorentz
  have : 0 < x ^ 2 + a ^ 2 := by positivity
  field_simp
  ring

theorem lorentz_pos {a : ℝ} (ha : 0 < a) (x : ℝ) : 0 < lorentz a x := by unfold lorentz; positivity

theorem lorentz_le {a : ℝ} (ha : 0 < a) (x : ℝ) : lorentz a x ≤ a⁻¹ := by
  rw [lorentz_scale ha]
  have h1 : (1 + (x / a) ^ 2)⁻¹ ≤ 1 := inv_le_one_of_one_le₀ (by nlinarith [sq_nonneg (x / a)])
  have h2 : 0 < a⁻¹ := inv_pos.2 ha
  nlinarith

theorem lorentz_continuous {a : ℝ} (ha : 0 < a) : Continuous (lorentz a) := by
  unfold lorentz
  refine continuous_const.div (by fun_prop) (fun x => ?_)
  positivity

theorem lorentz_even (a x : ℝ) : lorentz a (-x) = lorentz a x := by unfold lorentz; rw [neg_sq]

theorem lorentz_integrable {a : ℝ} (ha : 0 < a) : Integrable (lorentz a) := by
  have h := (integrable_inv_one_add_sq.comp_div ha.ne').const_mul a⁻¹
  exact h.congr (Filter.Eventually.of_forall fun x => (lorentz_scale ha x).symm)

theorem lorentz_integral {a : ℝ} (ha : 0 < a) : ∫ x, lorentz a x = π := by
  simp_rw [lorentz_scale ha]
  rw [integral_const_mul, Measure.integral_comp_div (fun x : ℝ => (1 + x ^ 2)⁻¹), integral_univ_inv_one_add_sq, abs_of_pos ha, smul_eq_mul]
  field_simp

theorem voigt_integrand {a : ℝ} (ha : 0 < a) (u : ℝ) : Integrable fun t : ℝ => exp (-t ^ 2) * lorentz a (u - t) := by
  refine gauss_integrable.mul_bdd (c := a⁻¹) ?_ ?_
  · exact ((lorentz_continuous ha).comp (by fun_prop : Continuous fun t : ℝ => u - t)).aestronglyMeasurable
  · exact Filter.Eventually.of_forall fun t => by
      rw [norm_eq_abs, abs_of_pos (lorentz_pos ha _)]; exact lorentz_le ha _

/-- The Voigt function is the real part of the Faddeeva function. -/
theorem faddeeva_re {a : ℝ} (ha : 0 < a) (u : ℝ) : (faddeeva (u + Complex.I * a)).re = voigtH a u := by
  have hne : ∀ t : ℝ, ((u : ℂ) + Complex.I * a - t) ≠ 0 := by
    intro t h
    have := congrArg Complex.im h
    simp at this
    exact ha.ne' this
  have hI : Integrable fun t : ℝ => Complex.I / π * (Complex.exp (-(t : ℂ) ^ 2) / ((u : ℂ) + Complex.I * a - t)) := by
    refine Integrable.const_mul ?_ _
    have h1 : Integrable fun t : ℝ => ((exp (-t ^ 2) : ℝ) : ℂ) := gauss_integrable.ofReal
    have h2 : Integrable fun t : ℝ => ((exp (-t ^ 2) : ℝ) : ℂ) * ((u : ℂ) + Complex.I * a - t)⁻¹ := by
      refine h1.mul_bdd (c := a⁻¹) ?_ ?_
      · refine Continuous.aestronglyMeasurable (Continuous.inv₀ (by fun_prop) hne)
      · refine Filter.Eventually.of_forall fun t => ?_
        rw [norm_inv]
        refine inv_anti₀ ha ?_
        refine le_trans ?_ (Complex.abs_im_le_norm _)
        simp [abs_of_pos ha]
    refine h2.congr (Filter.Eventually.of_forall fun t => ?_)
    simp only [Complex.ofReal_exp, div_eq_mul_inv]
    push_cast
    rfl
  unfold faddeeva voigtH
  rw [← integral_const_mul, ← integral_const_mul]
  have hre := integral_re (𝕜 := ℂ) hI
  simp only [RCLike.re_eq_complex_re] at hre
  rw [← hre]
  congr 1
  funext t
  have e1 : Complex.exp (-(t : ℂ) ^ 2) = ((exp (-t ^ 2) : ℝ) : ℂ) := by push_cast; rfl
  have e2 : (((u : ℂ) + Complex.I * a - t)⁻¹).im = -(lorentz a (u - t)) := by
    rw [Complex.inv_im, Complex.normSq_apply]
    simp only [Complex.sub_im, Complex.add_im, Complex.ofReal_im, Complex.mul_im, Complex.I_re, Complex.I_im, Complex.ofReal_re, Complex.sub_re,
      Complex.add_re, Complex.mul_re]
    unfold lorentz
    rw [← neg_div]
    congr 1 <;> ring
  rw [e1, div_eq_mul_inv, div_eq_mul_inv]
  have e3 : Complex.I * (π : ℂ)⁻¹ * (((exp (-t ^ 2) : ℝ) : ℂ) * ((u : ℂ) + Complex.I * a - t)⁻¹) =
      ((π⁻¹ * exp (-t ^ 2) : ℝ) : ℂ) * (Complex.I * ((u : ℂ) + Complex.I * a - t)⁻¹) := by push_cast; ring
  rw [e3, Complex.re_ofReal_mul, Complex.I_mul_re, e2]
  ring

/-- It is positive. -/
theorem voigtH_pos {a : ℝ} (ha : 0 < a) (u : ℝ) : 0 < voigtH a u := by
  unfold voigtH
  refine mul_pos (by positivity) ?_
  rw [integral_pos_iff_support_of_nonneg (fun t => by have := lorentz_pos ha (u - t); positivity) (voigt_integrand ha u)]
  have : Function.support (fun t : ℝ => exp (-t ^ 2) * lorentz a (u - t)) = Set.univ := by
    ext t
    simp [(lorentz_pos ha (u - t)).ne']
  rw [this]
  simp

/-- It is even. -/
theorem voigtH_even (a u : ℝ) : voigtH a (-u) = voigtH a u := by
  unfold voigtH
  congr 1
  rw [← integral_neg_eq_self]
  congr 1
  funext t
  rw [neg_sq, show -u - -t = -(u - t) by ring, lorentz_even]

theorem lorentz_lt {a x y : ℝ} (ha : 0 < a) (h : x ^ 2 < y ^ 2) : lorentz a y < lorentz a x := by
  unfold lorentz
  exact div_lt_div_of_pos_left ha (by positivity) (by linarith)

/-- It falls off from the centre. -/
theorem voigtH_lt {a u v : ℝ} (ha : 0 < a) (h : |u| < |v|) : voigtH a v < voigtH a u := by
  wlog hv : 0 ≤ v generalizing v with H
  · have := H (v := -v) (by rwa [abs_neg]) (by linarith)
    rwa [voigtH_even] at this
  have hu : u < v ∧ -u < v := by
    rw [abs_of_nonneg hv, abs_lt] at h
    exact ⟨h.2, by linarith [h.1]⟩
  obtain ⟨h1, h2⟩ := hu
  unfold voigtH
  refine mul_lt_mul_of_pos_left ?_ (by positivity)
  rw [← sub_pos, ← integral_sub (voigt_integrand ha u) (voigt_integrand ha v)]
  set F : ℝ → ℝ := fun t => exp (-t ^ 2) * lorentz a (u - t) - exp (-t ^ 2) * lorentz a (v - t) with hF
  have hFi : Integrable F := (voigt_integrand ha u).sub (voigt_integrand ha v)
  have hrefl : ∫ t, F (u + v - t) = ∫ t, F t := integral_sub_left_eq_self F volume (u + v)
  have hFr : Integrable fun t => F (u + v - t) := hFi.comp_sub_left (u + v)
  have hG : ∀ t, F t + F (u + v - t) = (exp (-t ^ 2) - exp (-(u + v - t) ^ 2)) * (lorentz a (u - t) - lorentz a (v - t)) := by
    intro t
    simp only [hF]
    rw [show u - (u + v - t) = -(v - t) by ring, show v - (u + v - t) = -(u - t) by ring, lorentz_even, lorentz_even]
    ring
  have hpos : ∀ t, t ≠ (u + v) / 2 → 0 < F t + F (u + v - t) := by
    intro t ht
    rw [hG]
    rcases lt_or_gt_of_ne ht with ht | ht
    · refine mul_pos ?_ ?_
      · rw [sub_pos, exp_lt_exp]
        nlinarith
      · rw [sub_pos]
        exact lorentz_lt ha (by nlinarith)
    · refine mul_pos_of_neg_of_neg ?_ ?_
      · rw [sub_neg, exp_lt_exp]
        nlinarith
      · rw [sub_neg]
        exact lorentz_lt ha (by nlinarith)
  have hnn : ∀ t, 0 ≤ F t + F (u + v - t) := by
    intro t
    by_cases ht : t = (u + v) / 2
    · rw [hG, ht, show u + v - (u + v) / 2 = (u + v) / 2 by ring, sub_self, zero_mul]
    · exact (hpos t ht).le
  have hsum : 0 < ∫ t, (F t + F (u + v - t)) := by
    rw [integral_pos_iff_support_of_nonneg hnn (hFi.add hFr)]
    have : (Set.univ : Set ℝ) \ {(u + v) / 2} ⊆ Function.support (fun t => F t + F (u + v - t)) := by
      intro t ht
      exact (hpos t (by simpa using ht)).ne'
    refine lt_of_lt_of_le ?_ (measure_mono this)
    rw [measure_diff_null (by simp)]
    simp
  rw [integral_add hFi hFr, hrefl] at hsum
  linarith

/-- Its integral is that of the Gaussian. -/
theorem voigtH_integral {a : ℝ} (ha : 0 < a) : ∫ u, voigtH a u = √π := by
  unfold voigtH
  rw [integral_const_mul]
  have h := integral_convolution (L := ContinuousLinearMap.mul ℝ ℝ) (μ := volume) (ν := volume) gauss_integrable (lorentz_integrable ha)
  simp only [convolution, ContinuousLinearMap.mul_apply'] at h
  rw [h, gauss_integral, lorentz_integral ha]
  field_simp

/-- It is at most the Gaussian of half the argument and a damping wing. -/
theorem voigtH_le {a u : ℝ} (ha : 0 < a) (hu : u ≠ 0) : voigtH a u ≤ exp (-(u / 2) ^ 2) + 4 * a / (√π * u ^ 2) := by
  have hb : ∀ t : ℝ, exp (-t ^ 2) * lorentz a (u - t) ≤ exp (-(u / 2) ^ 2) * lorentz a (u - t) + exp (-t ^ 2) * (4 * a / u ^ 2) := by
    intro t
    have hl := lorentz_pos ha (u - t)
    have he := exp_pos (-t ^ 2)
    have he' := exp_pos (-(u / 2) ^ 2)
    have hw : 0 < 4 * a / u ^ 2 := by positivity
    by_cases h : (u / 2) ^ 2 ≤ t ^ 2
    · have : exp (-t ^ 2) ≤ exp (-(u / 2) ^ 2) := exp_le_exp.2 (by linarith)
      nlinarith [mul_le_mul_of_nonneg_right this hl.le, mul_pos he hw]
    · push Not at h
      have h3 : (u / 2) ^ 2 ≤ (u - t) ^ 2 := by
        have h1 := sq_lt_sq.1 h
        rw [abs_div, abs_two] at h1
        rw [sq_le_sq, abs_div, abs_two]
        have := abs_sub_abs_le_abs_sub u t
        linarith
      have : lorentz a (u - t) ≤ 4 * a / u ^ 2 := by
        unfold lorentz
        rw [div_le_div_iff₀ (by positivity) (by positivity)]
        nlinarith
      nlinarith [mul_le_mul_of_nonneg_left this he.le, mul_pos he' hl]
  have hi : Integrable fun t : ℝ => lorentz a (u - t) := (lorentz_integrable ha).comp_sub_left u
  have hint := integral_mono (voigt_integrand ha u) ((hi.const_mul (exp (-(u / 2) ^ 2))).add (gauss_integrable.mul_const (4 * a / u ^ 2))) hb
  simp only [Pi.add_apply] at hint
  rw [integral_add (hi.const_mul _) (gauss_integrable.mul_const _), integral_const_mul, integral_mul_const, gauss_integral,
    integral_sub_left_eq_self (lorentz a) volume u, lorentz_integral ha] at hint
  unfold voigtH
  have hpi : 0 < π := pi_pos
  have hs : √π * √π = π := mul_self_sqrt hpi.le
  have hs0 : 0 < √π := sqrt_pos.2 hpi
  calc 1 / π * ∫ t : ℝ, exp (-t ^ 2) * lorentz a (u - t) ≤ 1 / π * (exp (-(u / 2) ^ 2) * π + √π * (4 * a / u ^ 2)) :=
        mul_le_mul_of_nonneg_left hint (by positivity)
    _ = _ := by
      have hu2 : u ^ 2 ≠ 0 := by positivity
      have e : π⁻¹ * √π = (√π)⁻¹ := by rw [← hs]; field_simp; rw [sqrt_sq hs0.le]
      have e1 : 1 / π * (exp (-(u / 2) ^ 2) * π + √π * (4 * a / u ^ 2)) = exp (-(u / 2) ^ 2) * (π⁻¹ * π) + (π⁻¹ * √π) * (4 * a / u ^ 2) := by
        ring
      rw [e1, e, inv_mul_cancel₀ hpi.ne', mul_one]
      congr 1
      field_simp

/-- Its maximum is at least half of the Gaussian at `r`, for damping up to `r`. -/
theorem voigtH_ge {a r : ℝ} (ha : 0 < a) (har : a ≤ r) : exp (-r ^ 2) / 2 ≤ voigtH a 0 := by
  have hr : 0 < r := lt_of_lt_of_le ha har
  have hset : ∫ t in Set.Ioc (-r) r, exp (-r ^ 2) * lorentz a (0 - t) ≤ ∫ t : ℝ, exp (-t ^ 2) * lorentz a (0 - t) := by
    refine le_trans ?_ (setIntegral_le_integral (s := Set.Ioc (-r) r) (voigt_integrand ha 0)
      (Filter.Eventually.of_forall fun t => by have := lorentz_pos ha (0 - t); positivity))
    refine setIntegral_mono_on ?_ (voigt_integrand ha 0).integrableOn measurableSet_Ioc ?_
    · exact (((lorentz_integrable ha).comp_sub_left 0).const_mul _).integrableOn
    · intro t ht
      refine mul_le_mul_of_nonneg_right ?_ (lorentz_pos ha _).le
      refine exp_le_exp.2 ?_
      have h1 := ht.1
      have h2 := ht.2
      nlinarith
  have hval : ∫ t in Set.Ioc (-r) r, exp (-r ^ 2) * lorentz a (0 - t) = exp (-r ^ 2) * (2 * arctan (r / a)) := by
    rw [integral_const_mul, ← intervalIntegral.integral_of_le (by linarith)]
    have : ∀ t, lorentz a (0 - t) = a / (a ^ 2 + t ^ 2) := by intro t; unfold lorentz; congr 1; ring
    simp_rw [this]
    rw [integral_div_sq_add_sq, neg_div, arctan_neg]
    ring
  have harc : π / 4 ≤ arctan (r / a) := by
    rw [← arctan_one]
    exact arctan_mono ((one_le_div ha).2 har)
  rw [hval] at hset
  unfold voigtH
  have hpi := pi_pos
  have he := exp_pos (-r ^ 2)
  rw [div_mul_eq_mul_div, one_mul, le_div_iff₀ hpi]
  nlinarith [mul_le_mul_of_nonneg_left harc he.le]

end Verif.Spec
