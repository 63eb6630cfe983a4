import Verif.Spec.Voigt
import Mathlib.Analysis.SpecialFunctions.Gaussian.FourierTransform
import Mathlib.MeasureTheory.Integral.Prod
import Mathlib.Analysis.Calculus.Deriv.MeanValue

/-!
The Voigt function at the centre of the line is the scaled complementary error function, and what follows for a function
that almost solves its differential equation.
-/

namespace Verif.Erfcx
open MeasureTheory Real Set Verif.Spec

/-- The Lorentzian as a Laplace transform. -/
theorem laplace_cos {y : ℝ} (hy : 0 < y) (t : ℝ) : ∫ s in Ioi (0 : ℝ), exp (-y * s) * cos (t * s) = lorentz y t := by
  have ha : ((-y : ℂ) + t * Complex.I).re < 0 := by simpa using hy
  have h := integral_exp_mul_complex_Ioi ha 0
  have h2 := congrArg Complex.re h
  have e : ∀ s : ℝ, (Complex.exp (((-y : ℂ) + t * Complex.I) * s)).re = exp (-y * s) * cos (t * s) := by
    intro s
    rw [Complex.exp_re]
    simp
  have hi := integrableOn_exp_mul_complex_Ioi ha 0
  have h3 := integral_re (𝕜 := ℂ) hi
  simp only [RCLike.re_to_complex] at h3
  rw [← h3] at h2
  simp only [e] at h2
  rw [h2]
  simp only [Complex.ofReal_zero, mul_zero, Complex.exp_zero]
  unfold lorentz
  rw [Complex.div_re]
  simp [Complex.normSq_apply]
  field_simp
  ring

/-- The Fourier transform of the Gaussian. -/
theorem gauss_cos (s : ℝ) : ∫ t : ℝ, exp (-t ^ 2) * cos (t * s) = √π * exp (-s ^ 2 / 4) := by
  have h := fourierIntegral_gaussian (b := 1) (by simp) (s : ℂ)
  have e : ∀ t : ℝ, Complex.exp (Complex.I * s * t) * Complex.exp (-1 * (t : ℂ) ^ 2) =
      ((exp (-t ^ 2) * cos (t * s) : ℝ) : ℂ) + ((exp (-t ^ 2) * sin (t * s) : ℝ) : ℂ) * Complex.I := by
    intro t
    have : Complex.I * s * t = ((t * s : ℝ) : ℂ) * Complex.I := by push_cast; ring
    rw [this, Complex.exp_mul_I]
    push_cast
    ring_nf
  simp only [e] at h
  have hc : Integrable fun t : ℝ => exp (-t ^ 2) * cos (t * s) :=
    gauss_integrable.mul_bdd (c := 1) (by fun_prop) (.of_forall fun t => by simpa using abs_cos_le_one _)
  have hs : Integrable fun t : ℝ => exp (-t ^ 2) * sin (t * s) :=
    gauss_integrable.mul_bdd (c := 1) (by fun_prop) (.of_forall fun t => by simpa using abs_sin_le_one _)
  rw [integral_add hc.ofReal (hs.ofReal.mul_const _), integral_mul_const, integral_complex_ofReal, integral_complex_ofReal] at h
  have h3 : ((π : ℂ) / 1) ^ (1 / 2 : ℂ) * Complex.exp (-(s : ℂ) ^ 2 / (4 * 1)) = ((√π * exp (-s ^ 2 / 4) : ℝ) : ℂ) := by
    rw [div_one, sqrt_eq_rpow]
    push_cast
    rw [Complex.ofReal_cpow pi_pos.le]
    push_cast
    ring_nf
  rw [h3] at h
  have h2 := congrArg Complex.re h
  rwa [Complex.add_re, Complex.ofReal_re, Complex.ofReal_re, Complex.re_ofReal_mul, Complex.I_re, mul_zero, add_zero] at h2

theorem voigtH_laplace {y : ℝ} (hy : 0 < y) : voigtH y 0 = 1 / √π * ∫ s in Ioi (0 : ℝ), exp (-y * s) * exp (-s ^ 2 / 4) := by
  unfold voigtH
  have h1 : ∀ t : ℝ, exp (-t ^ 2) * lorentz y (0 - t) = ∫ s in Ioi (0 : ℝ), exp (-t ^ 2) * (exp (-y * s) * cos (t * s)) := by
    intro t
    rw [integral_const_mul, laplace_cos hy, zero_sub, lorentz_even]
  simp only [h1]
  rw [integral_integral_swap]
  · have h2 : ∀ s : ℝ, ∫ t : ℝ, exp (-t ^ 2) * (exp (-y * s) * cos (t * s)) = √π * (exp (-y * s) * exp (-s ^ 2 / 4)) := by
      intro s
      have : ∀ t : ℝ, exp (-t ^ 2) * (exp (-y * s) * cos (t * s)) = exp (-y * s) * (exp (-t ^ 2) * cos (t * s)) := fun t => by ring
      simp only [this]
      rw [integral_const_mul, gauss_cos]
      ring
    simp only [h2]
    rw [integral_const_mul]
    have hs : 0 < √π := sqrt_pos.2 pi_pos
    have : π = √π * √π := (mul_self_sqrt pi_pos.le).symm
    generalize (∫ s in Ioi (0 : ℝ), exp (-y * s) * exp (-s ^ 2 / 4)) = J
    rw [← mul_assoc]
    congr 1
    rw [div_mul_eq_mul_div, one_mul, div_eq_div_iff pi_pos.ne' hs.ne']
    linarith
  · have hp : Integrable (fun z : ℝ × ℝ => exp (-z.1 ^ 2) * exp (-y * z.2)) (volume.prod (volume.restrict (Ioi 0))) :=
      gauss_integrable.mul_prod (integrableOn_exp_mul_Ioi (neg_lt_zero.2 hy) 0)
    have := hp.mul_bdd (c := 1) (g := fun z : ℝ × ℝ => cos (z.1 * z.2)) (by fun_prop) (.of_forall fun t => by simpa using abs_cos_le_one _)
    refine this.congr (.of_forall fun z => ?_)
    simp only [Function.uncurry]
    ring

/-- What is left of the Gaussian integral. -/
noncomputable def tail (y : ℝ) : ℝ := √π / 2 - ∫ v in (0 : ℝ)..y, exp (-v ^ 2)

theorem tail_deriv (y : ℝ) : HasDerivAt tail (-exp (-y ^ 2)) y := by
  unfold tail
  have hc : Continuous fun v : ℝ => exp (-v ^ 2) := by fun_prop
  exact (hc.integral_hasStrictDerivAt 0 y).hasDerivAt.const_sub _

theorem tail_Ioi (y : ℝ) : tail y = ∫ v in Ioi y, exp (-v ^ 2) := by
  unfold tail
  have h := intervalIntegral.integral_interval_add_Ioi (μ := volume) (f := fun v : ℝ => exp (-v ^ 2)) (a := 0) (b := y) gauss_integrable.integrableOn gauss_integrable.integrableOn
  have h2 : ∫ v in Ioi (0 : ℝ), exp (-v ^ 2) = √π / 2 := by simpa using integral_gaussian_Ioi 1
  rw [h2] at h
  linarith

/-- The Voigt function at the centre is `exp(y²) erfc(y)`. -/
theorem voigtH_zero {y : ℝ} (hy : 0 < y) : voigtH y 0 = 2 / √π * exp (y ^ 2) * tail y := by
  rw [voigtH_laplace hy, tail_Ioi]
  have h1 : ∀ s : ℝ, exp (-y * s) * exp (-s ^ 2 / 4) = exp (y ^ 2) * exp (-(y + 2⁻¹ * s) ^ 2) := by
    intro s
    rw [← exp_add, ← exp_add]
    congr 1
    ring
  simp only [h1]
  rw [integral_const_mul]
  have h2 := integral_comp_mul_left_Ioi (fun v : ℝ => exp (-(y + v) ^ 2)) 0 (b := 2⁻¹) (by norm_num)
  have h3 : ∫ v in Ioi (0 : ℝ), exp (-(y + v) ^ 2) = ∫ v in Ioi y, exp (-v ^ 2) := by
    have := (measurePreserving_add_left volume y).setIntegral_preimage_emb (measurableEmbedding_addLeft y) (fun v : ℝ => exp (-v ^ 2)) (Ioi y)
    rw [← this]
    congr 2
    ext v
    simp
  rw [h2, mul_zero, h3]
  simp only [inv_inv, smul_eq_mul]
  ring

/-- A function that almost solves the equation of `erfcx` on an interval is near it, relative to its size, if it is near
it at the right end. -/
theorem gronwall {f f' : ℝ → ℝ} {x b R : ℝ} (hx : 0 < x) (hxb : x ≤ b) (hf : ∀ s ∈ Icc x b, HasDerivAt f (f' s) s)
    (hR : ∀ s ∈ Icc x b, |f' s - 2 * s * f s + 2 / √π| ≤ R) :
    |f x - voigtH x 0| ≤ exp (x ^ 2 - b ^ 2) * |f b - voigtH b 0| + R * (√π / 2) * (voigtH x 0 - exp (x ^ 2 - b ^ 2) * voigtH b 0) := by
  have hs : 0 < √π := sqrt_pos.2 pi_pos
  have hD : ∀ k : ℝ, ∀ s ∈ Icc x b, HasDerivAt (fun s => exp (-s ^ 2) * f s - (2 / √π + k) * tail s)
      (exp (-s ^ 2) * (f' s - 2 * s * f s + 2 / √π + k)) s := by
    intro k s hs
    have h1 : HasDerivAt (fun s : ℝ => exp (-s ^ 2)) (exp (-s ^ 2) * (-(2 * s))) s := by
      have := ((hasDerivAt_pow 2 s).neg).exp
      simpa using this
    refine ((h1.mul (hf s hs)).sub ((tail_deriv s).const_mul (2 / √π + k))).congr_deriv ?_
    ring
  have hcont : ∀ k : ℝ, ContinuousOn (fun s => exp (-s ^ 2) * f s - (2 / √π + k) * tail s) (Icc x b) :=
    fun k s hs => (hD k s hs).continuousAt.continuousWithinAt
  have hup : exp (-x ^ 2) * f x - (2 / √π + R) * tail x ≤ exp (-b ^ 2) * f b - (2 / √π + R) * tail b := by
    refine monotoneOn_of_deriv_nonneg (convex_Icc x b) (hcont R) ?_ ?_ (left_mem_Icc.2 hxb) (right_mem_Icc.2 hxb) hxb
    · intro s hs
      rw [interior_Icc] at hs
      exact (hD R s (Ioo_subset_Icc_self hs)).differentiableAt.differentiableWithinAt
    · intro s hs
      rw [interior_Icc] at hs
      rw [(hD R s (Ioo_subset_Icc_self hs)).deriv]
      have := abs_le.1 (hR s (Ioo_subset_Icc_self hs))
      have := exp_pos (-s ^ 2)
      exact mul_nonneg this.le (by linarith)
  have hdn : exp (-b ^ 2) * f b - (2 / √π + -R) * tail b ≤ exp (-x ^ 2) * f x - (2 / √π + -R) * tail x := by
    refine antitoneOn_of_deriv_nonpos (convex_Icc x b) (hcont (-R)) ?_ ?_ (left_mem_Icc.2 hxb) (right_mem_Icc.2 hxb) hxb
    · intro s hs
      rw [interior_Icc] at hs
      exact (hD (-R) s (Ioo_subset_Icc_self hs)).differentiableAt.differentiableWithinAt
    · intro s hs
      rw [interior_Icc] at hs
      rw [(hD (-R) s (Ioo_subset_Icc_self hs)).deriv]
      have := abs_le.1 (hR s (Ioo_subset_Icc_self hs))
      have := exp_pos (-s ^ 2)
      exact mul_nonpos_of_nonneg_of_nonpos this.le (by linarith)
  have hb : 0 < b := hx.trans_le hxb
  have ht : ∀ s : ℝ, 0 < s → tail s = √π / 2 * (exp (-s ^ 2) * voigtH s 0) := by
    intro s h
    rw [voigtH_zero h]
    have : exp (-s ^ 2) * exp (s ^ 2) = 1 := by rw [← exp_add]; simp
    field_simp
    linear_combination (-tail s) * this
  rw [ht x hx, ht b hb] at hup hdn
  have e1 : exp (x ^ 2 - b ^ 2) = exp (x ^ 2) * exp (-b ^ 2) := by rw [← exp_add]; ring_nf
  have e2 : exp (x ^ 2) * exp (-x ^ 2) = 1 := by rw [← exp_add]; simp
  have hex := exp_pos (x ^ 2)
  have hp : (2 / √π) * (√π / 2) = 1 := by field_simp
  have hup2 := mul_le_mul_of_nonneg_left hup hex.le
  have hdn2 := mul_le_mul_of_nonneg_left hdn hex.le
  have A1 : exp (x ^ 2) * (exp (-x ^ 2) * f x - (2 / √π + R) * (√π / 2 * (exp (-x ^ 2) * voigtH x 0))) =
      f x - voigtH x 0 - R * (√π / 2) * voigtH x 0 := by
    linear_combination (f x - voigtH x 0 - R * (√π / 2) * voigtH x 0) * e2 - exp (x ^ 2) * exp (-x ^ 2) * voigtH x 0 * hp
  have A2 : exp (x ^ 2) * (exp (-x ^ 2) * f x - (2 / √π + -R) * (√π / 2 * (exp (-x ^ 2) * voigtH x 0))) =
      f x - voigtH x 0 + R * (√π / 2) * voigtH x 0 := by
    linear_combination (f x - voigtH x 0 + R * (√π / 2) * voigtH x 0) * e2 - exp (x ^ 2) * exp (-x ^ 2) * voigtH x 0 * hp
  have A3 : exp (x ^ 2) * (exp (-b ^ 2) * f b - (2 / √π + R) * (√π / 2 * (exp (-b ^ 2) * voigtH b 0))) =
      exp (x ^ 2 - b ^ 2) * (f b - voigtH b 0) - R * (√π / 2) * (exp (x ^ 2 - b ^ 2) * voigtH b 0) := by
    rw [e1]
    linear_combination - exp (x ^ 2) * exp (-b ^ 2) * voigtH b 0 * hp
  have A4 : exp (x ^ 2) * (exp (-b ^ 2) * f b - (2 / √π + -R) * (√π / 2 * (exp (-b ^ 2) * voigtH b 0))) =
      exp (x ^ 2 - b ^ 2) * (f b - voigtH b 0) + R * (√π / 2) * (exp (x ^ 2 - b ^ 2) * voigtH b 0) := by
    rw [e1]
    linear_combination - exp (x ^ 2) * exp (-b ^ 2) * voigtH b 0 * hp
  rw [A1, A3] at hup2
  rw [A2, A4] at hdn2
  have hab : |exp (x ^ 2 - b ^ 2) * (f b - voigtH b 0)| = exp (x ^ 2 - b ^ 2) * |f b - voigtH b 0| := by
    rw [abs_mul, abs_of_pos (exp_pos _)]
  have := abs_le.1 hab.le
  rw [abs_le]
  constructor <;> linarith

end Verif.Erfcx
