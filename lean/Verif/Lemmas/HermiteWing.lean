import Verif.Lemmas.Hermite

/-!
The real part of the error of the continued fraction: near the real axis it is proportional to the imaginary part of the
argument, as the Voigt function is.
-/

namespace Verif.Hermite
open MeasureTheory Real Verif.Spec

/-- Far beyond the zeros each polynomial is at least two thirds of the argument times the one before. -/
theorem hB_ratio23 {r : ℝ} (hr : 0 < r) : ∀ n : ℕ, 27 * (n : ℝ) ≤ 8 * r ^ 2 → 0 < hB r n ∧ 2 / 3 * r * hB r n ≤ hB r (n + 1)
  | 0, _ => by
    simp only [hB]
    exact ⟨one_pos, by linarith⟩
  | n + 1, h => by
    push_cast at h
    obtain ⟨h1, h2⟩ := hB_ratio23 hr n (by linarith)
    have h3 : 0 < hB r (n + 1) := lt_of_lt_of_le (by positivity) h2
    refine ⟨h3, ?_⟩
    rw [hB_succ]
    have h4 : hB r n ≤ 3 / (2 * r) * hB r (n + 1) := by
      rw [div_mul_eq_mul_div, le_div_iff₀ (by positivity)]
      linarith
    have h5 : ((n : ℝ) + 1) / 2 * hB r n ≤ 2 * r ^ 2 / 9 * (3 / (2 * r) * hB r (n + 1)) := by
      refine mul_le_mul (by nlinarith) h4 h1.le (by positivity)
    have e : 2 * r ^ 2 / 9 * (3 / (2 * r) * hB r (n + 1)) = r / 3 * hB r (n + 1) := by
      field_simp
      norm_num
    rw [e] at h5
    linarith

theorem hB_norm23 {z : ℂ} (hr : 0 < ‖z‖) (n : ℕ) (h : 27 * (n : ℝ) ≤ 8 * ‖z‖ ^ 2) :
    0 < ‖hB z n‖ ∧ 2 / 3 * ‖z‖ * ‖hB z n‖ ≤ ‖hB z (n + 1)‖ := by
  obtain ⟨p, q⟩ := hB_ratio23 hr n h
  have hn : (0 : ℝ) ≤ n := Nat.cast_nonneg n
  obtain ⟨p', q'⟩ := hB_norm hr n (by linarith)
  have h0 : 0 < ‖hB z n‖ := p.trans_le p'
  refine ⟨h0, ?_⟩
  have h1 : 2 / 3 * ‖z‖ * hB ‖z‖ n * ‖hB z n‖ ≤ ‖hB z (n + 1)‖ * hB ‖z‖ n :=
    (mul_le_mul_of_nonneg_right q h0.le).trans q'
  have h2 : 2 / 3 * ‖z‖ * ‖hB z n‖ * hB ‖z‖ n ≤ ‖hB z (n + 1)‖ * hB ‖z‖ n := by linarith
  exact le_of_mul_le_mul_right h2 p

/-- The imaginary part of the ratio of successive polynomials. -/
theorem hB_cross {z : ℂ} (hz : 0 < z.im) (hr : 0 < ‖z‖) : ∀ n : ℕ, 27 * (n : ℝ) ≤ 8 * ‖z‖ ^ 2 →
    |(hB z (n + 1) * starRingEnd ℂ (hB z n)).im| ≤ 3 / 2 * z.im * ‖hB z n‖ ^ 2
  | 0, _ => by
    simp only [hB, map_one, mul_one, norm_one, one_pow]
    rw [abs_of_pos hz]
    linarith
  | n + 1, h => by
    push_cast at h
    have ih := hB_cross hz hr n (by linarith)
    obtain ⟨p, q⟩ := hB_norm23 hr n (by linarith)
    have e : (hB z (n + 1 + 1) * starRingEnd ℂ (hB z (n + 1))).im =
        z.im * ‖hB z (n + 1)‖ ^ 2 + ((n : ℝ) + 1) / 2 * (hB z (n + 1) * starRingEnd ℂ (hB z n)).im := by
      rw [hB_succ]
      have e1 : ((n : ℂ) + 1) / 2 = (((n : ℝ) + 1) / 2 : ℝ) := by push_cast; rfl
      rw [e1, Complex.sq_norm, Complex.normSq_apply]
      simp only [Complex.mul_im, Complex.sub_im, Complex.sub_re, Complex.mul_re, Complex.conj_re, Complex.conj_im, Complex.ofReal_re, Complex.ofReal_im]
      ring
    rw [e]
    refine (abs_add_le _ _).trans ?_
    rw [abs_mul, abs_mul, abs_of_pos hz, abs_of_nonneg (sq_nonneg ‖hB z (n + 1)‖), abs_of_nonneg (by positivity : (0 : ℝ) ≤ ((n : ℝ) + 1) / 2)]
    have h1 : (2 / 3 * ‖z‖ * ‖hB z n‖) ^ 2 ≤ ‖hB z (n + 1)‖ ^ 2 := by gcongr
    have h2 : ((n : ℝ) + 1) / 2 * |(hB z (n + 1) * starRingEnd ℂ (hB z n)).im| ≤ ((n : ℝ) + 1) / 2 * (3 / 2 * z.im * ‖hB z n‖ ^ 2) := by gcongr
    have h3 : ((n : ℝ) + 1) / 2 * (3 / 2 * z.im * ‖hB z n‖ ^ 2) ≤ z.im / 2 * (2 / 3 * ‖z‖ * ‖hB z n‖) ^ 2 := by
      have : z.im * ‖hB z n‖ ^ 2 * (27 * ((n : ℝ) + 1)) ≤ z.im * ‖hB z n‖ ^ 2 * (8 * ‖z‖ ^ 2) := by gcongr
      nlinarith
    have h4 : z.im / 2 * (2 / 3 * ‖z‖ * ‖hB z n‖) ^ 2 ≤ z.im / 2 * ‖hB z (n + 1)‖ ^ 2 := by gcongr
    linarith

/-- The imaginary part of a polynomial. -/
theorem hB_im {z : ℂ} (hz : 0 < z.im) (hr : 0 < ‖z‖) : ∀ n : ℕ, 27 * ((n : ℝ) - 1) ≤ 8 * ‖z‖ ^ 2 →
    |(hB z n).im| ≤ 9 / 4 * n / ‖z‖ * z.im * ‖hB z n‖
  | 0, _ => by simp [hB]
  | n + 1, h => by
    push_cast at h
    have h' : 27 * (n : ℝ) ≤ 8 * ‖z‖ ^ 2 := by linarith
    have ih := hB_im hz hr n (by linarith)
    obtain ⟨p, q⟩ := hB_norm23 hr n h'
    have hc := hB_cross hz hr n h'
    set C := hB z (n + 1) * starRingEnd ℂ (hB z n) with hC
    have e : (hB z (n + 1)).im * ‖hB z n‖ ^ 2 = C.im * (hB z n).re + C.re * (hB z n).im := by
      rw [hC, Complex.sq_norm, Complex.normSq_apply]
      simp only [Complex.mul_im, Complex.mul_re, Complex.conj_re, Complex.conj_im]
      ring
    have hCn : |C.re| ≤ ‖hB z (n + 1)‖ * ‖hB z n‖ := by
      refine (Complex.abs_re_le_norm C).trans (le_of_eq ?_)
      rw [hC, norm_mul, RCLike.norm_conj]
    have h1 : |(hB z (n + 1)).im| * ‖hB z n‖ ^ 2 ≤ 3 / 2 * z.im * ‖hB z n‖ ^ 2 * ‖hB z n‖ +
        ‖hB z (n + 1)‖ * ‖hB z n‖ * (9 / 4 * n / ‖z‖ * z.im * ‖hB z n‖) := by
      rw [← abs_of_nonneg (sq_nonneg ‖hB z n‖), ← abs_mul, e]
      refine (abs_add_le _ _).trans ?_
      rw [abs_mul, abs_mul, abs_of_nonneg (sq_nonneg ‖hB z n‖)]
      exact add_le_add (mul_le_mul hc (Complex.abs_re_le_norm _) (abs_nonneg _) (by positivity))
        (mul_le_mul hCn ih (abs_nonneg _) (by positivity))
    have h2 : |(hB z (n + 1)).im| * ‖hB z n‖ ^ 2 ≤ (3 / 2 * z.im * ‖hB z n‖ + 9 / 4 * n / ‖z‖ * z.im * ‖hB z (n + 1)‖) * ‖hB z n‖ ^ 2 := by
      linarith
    have h3 := le_of_mul_le_mul_right h2 (by positivity)
    have h4 : 3 / 2 * z.im * ‖hB z n‖ ≤ 9 / 4 / ‖z‖ * z.im * ‖hB z (n + 1)‖ := by
      have : 9 / 4 / ‖z‖ * z.im * (2 / 3 * ‖z‖ * ‖hB z n‖) ≤ 9 / 4 / ‖z‖ * z.im * ‖hB z (n + 1)‖ := by gcongr
      refine le_trans (le_of_eq ?_) this
      field_simp
      ring
    refine h3.trans ?_
    push_cast
    have e5 : 9 / 4 * ((n : ℝ) + 1) / ‖z‖ * z.im * ‖hB z (n + 1)‖ = 9 / 4 / ‖z‖ * z.im * ‖hB z (n + 1)‖ + 9 / 4 * n / ‖z‖ * z.im * ‖hB z (n + 1)‖ := by
      ring
    linarith

/-- How fast the ratio of successive polynomials grows. -/
theorem hB_ratio_grow {u s : ℝ} (hu : 0 < u) (hus : u ≤ s) : ∀ n : ℕ, 27 * (n : ℝ) ≤ 8 * u ^ 2 →
    hB s (n + 1) * hB u n - hB u (n + 1) * hB s n ≤ 3 / 2 * (s - u) * (hB s n * hB u n)
  | 0, _ => by
    simp only [hB]
    linarith
  | n + 1, h => by
    push_cast at h
    have hs : 0 < s := hu.trans_le hus
    have hsq : u ^ 2 ≤ s ^ 2 := by gcongr
    have ih := hB_ratio_grow hu hus n (by linarith)
    obtain ⟨p, q⟩ := hB_ratio23 hu n (by linarith)
    obtain ⟨p', q'⟩ := hB_ratio23 hs n (by linarith)
    rw [hB_succ s, hB_succ u]
    have h1 : (2 / 3 * s * hB s n) * (2 / 3 * u * hB u n) ≤ hB s (n + 1) * hB u (n + 1) :=
      mul_le_mul q' q (by positivity) (by have := lt_of_lt_of_le (by positivity) q'; exact this.le)
    have h2 := mul_le_mul_of_nonneg_left ih (by positivity : (0 : ℝ) ≤ ((n : ℝ) + 1) / 2)
    have hd : 0 ≤ s - u := by linarith
    have h3 : ((n : ℝ) + 1) / 2 * (3 / 2 * (s - u) * (hB s n * hB u n)) ≤ (s - u) / 2 * ((2 / 3 * s * hB s n) * (2 / 3 * u * hB u n)) := by
      have h4 : 27 * ((n : ℝ) + 1) ≤ 8 * (s * u) := by nlinarith
      have : (s - u) * (hB s n * hB u n) * (27 * ((n : ℝ) + 1)) ≤ (s - u) * (hB s n * hB u n) * (8 * (s * u)) := by gcongr
      nlinarith
    have h5 : (s - u) / 2 * ((2 / 3 * s * hB s n) * (2 / 3 * u * hB u n)) ≤ (s - u) / 2 * (hB s (n + 1) * hB u (n + 1)) := by gcongr
    nlinarith

/-- How fast a polynomial grows. -/
theorem hB_exp_grow {u s : ℝ} (hu : 0 < u) (hus : u ≤ s) : ∀ n : ℕ, 27 * ((n : ℝ) - 1) ≤ 8 * u ^ 2 →
    hB s n ≤ hB u n * exp (9 / 4 * n * (s - u) / u)
  | 0, _ => by simp [hB]
  | n + 1, h => by
    push_cast at h
    have h' : 27 * (n : ℝ) ≤ 8 * u ^ 2 := by linarith
    have hs : 0 < s := hu.trans_le hus
    have hsq : u ^ 2 ≤ s ^ 2 := by gcongr
    have ih := hB_exp_grow hu hus n (by linarith)
    have hg := hB_ratio_grow hu hus n h'
    obtain ⟨p, q⟩ := hB_ratio23 hu n h'
    obtain ⟨p', q'⟩ := hB_ratio23 hs n (by linarith)
    have hd : 0 ≤ s - u := by linarith
    have hB1 : 0 < hB u (n + 1) := lt_of_lt_of_le (by positivity) q
    have h1 : hB s (n + 1) * hB u n ≤ hB s n * (hB u (n + 1) + 3 / 2 * (s - u) * hB u n) := by linarith
    have h2 : 3 / 2 * (s - u) * hB u n ≤ 9 / 4 * (s - u) / u * hB u (n + 1) := by
      have : 9 / 4 * (s - u) / u * (2 / 3 * u * hB u n) ≤ 9 / 4 * (s - u) / u * hB u (n + 1) := by gcongr
      refine le_trans (le_of_eq ?_) this
      field_simp
      ring
    have h3 : hB u (n + 1) + 3 / 2 * (s - u) * hB u n ≤ hB u (n + 1) * exp (9 / 4 * (s - u) / u) := by
      have := add_one_le_exp (9 / 4 * (s - u) / u)
      nlinarith
    have h4 : hB s (n + 1) * hB u n ≤ (hB u n * exp (9 / 4 * n * (s - u) / u)) * (hB u (n + 1) * exp (9 / 4 * (s - u) / u)) :=
      h1.trans (mul_le_mul ih h3 (by positivity) (by positivity))
    have e : (hB u n * exp (9 / 4 * n * (s - u) / u)) * (hB u (n + 1) * exp (9 / 4 * (s - u) / u)) =
        hB u (n + 1) * exp (9 / 4 * ((n + 1 : ℕ) : ℝ) * (s - u) / u) * hB u n := by
      have : 9 / 4 * ((n + 1 : ℕ) : ℝ) * (s - u) / u = 9 / 4 * n * (s - u) / u + 9 / 4 * (s - u) / u := by
        push_cast
        ring
      rw [this, exp_add]
      ring
    rw [e] at h4
    exact le_of_mul_le_mul_right h4 p

/-- The weight of the remainder near the real part of the argument. -/
theorem weight_near {u δ : ℝ} (hδ : 0 < δ) (hδu : δ < u) {n : ℕ} (hn : 1 ≤ n) (h27 : 27 * ((n : ℝ) - 1) ≤ 8 * (u - δ) ^ 2) {t : ℝ} (ht : |u - t| ≤ δ) :
    hB t n * hB t n * exp (-t ^ 2) ≤ hB u n ^ 2 * exp (9 / 2 * n * δ / u - (u - δ) ^ 2) := by
  obtain ⟨m, rfl⟩ : ∃ m, n = m + 1 := ⟨n - 1, by omega⟩
  have hu : 0 < u := hδ.trans hδu
  obtain ⟨h1, h2⟩ := abs_le.1 ht
  have hl : 0 < u - δ := by linarith
  have hlu : (u - δ) ^ 2 ≤ u ^ 2 := by gcongr; linarith
  have ht0 : 0 < t := by linarith
  have hm : 27 * (m : ℝ) ≤ 8 * (u - δ) ^ 2 := by push_cast at h27; linarith
  have hm0 : (0 : ℝ) ≤ m := Nat.cast_nonneg m
  have htl : (u - δ) ^ 2 ≤ t ^ 2 := by gcongr; linarith
  obtain ⟨p, q⟩ := hB_ratio23 ht0 m (by linarith)
  have hBt : 0 < hB t (m + 1) := lt_of_lt_of_le (by positivity) q
  obtain ⟨p', q'⟩ := hB_ratio23 hu m (by linarith)
  have hBu : 0 < hB u (m + 1) := lt_of_lt_of_le (by positivity) q'
  have hle : hB t (m + 1) ≤ hB u (m + 1) * exp (9 / 4 * ((m + 1 : ℕ) : ℝ) * δ / u) := by
    rcases le_total u t with hut | hut
    · refine (hB_exp_grow hu hut (m + 1) (by push_cast; linarith)).trans ?_
      gcongr
      linarith
    · have hg := hB_grow ht0 hut m (by linarith)
      have h3 : hB t (m + 1) ≤ hB u (m + 1) := by
        have : hB t (m + 1) * u ≤ hB u (m + 1) * u := hg.trans (by gcongr)
        exact le_of_mul_le_mul_right this hu
      refine h3.trans (le_mul_of_one_le_right hBu.le (one_le_exp (by positivity)))
  have hee : exp (-t ^ 2) ≤ exp (-(u - δ) ^ 2) := exp_le_exp.2 (by linarith)
  have hsq : hB t (m + 1) * hB t (m + 1) ≤ (hB u (m + 1) * exp (9 / 4 * ((m + 1 : ℕ) : ℝ) * δ / u)) * (hB u (m + 1) * exp (9 / 4 * ((m + 1 : ℕ) : ℝ) * δ / u)) :=
    mul_le_mul hle hle hBt.le (by positivity)
  refine (mul_le_mul hsq hee (exp_pos _).le (by positivity)).trans (le_of_eq ?_)
  have e : 9 / 2 * ((m + 1 : ℕ) : ℝ) * δ / u - (u - δ) ^ 2 = 9 / 4 * ((m + 1 : ℕ) : ℝ) * δ / u + 9 / 4 * ((m + 1 : ℕ) : ℝ) * δ / u + -(u - δ) ^ 2 := by
    ring
  rw [e, exp_add, exp_add]
  ring

theorem inv_parts (z : ℂ) (t : ℝ) : ((z - t)⁻¹).re = (z.re - t) / ((z.re - t) ^ 2 + z.im ^ 2) ∧ ((z - t)⁻¹).im = -lorentz z.im (z.re - t) := by
  constructor
  · rw [Complex.inv_re, Complex.normSq_apply]
    simp only [Complex.sub_re, Complex.ofReal_re, Complex.sub_im, Complex.ofReal_im, sub_zero]
    ring
  · rw [Complex.inv_im, Complex.normSq_apply]
    unfold lorentz
    simp only [Complex.sub_re, Complex.ofReal_re, Complex.sub_im, Complex.ofReal_im, sub_zero]
    ring

/-- The imaginary part of what is left. -/
theorem rem_im {z : ℂ} (hz : 0 < z.im) (n : ℕ) {δ M : ℝ} (hδ : 0 < δ) (hM0 : 0 ≤ M)
    (hM : ∀ t : ℝ, |z.re - t| ≤ δ → hB t n * hB t n * exp (-t ^ 2) ≤ M) :
    |(∫ t : ℝ, ((hB t n * hB t n : ℝ) : ℂ) * (exp (-t ^ 2) : ℝ) * (z - t)⁻¹).im| ≤ z.im / δ ^ 2 * (√π * (n.factorial / 2 ^ n)) + M * π := by
  have hI := div_integrable hz (GI_BB n n)
  have h := integral_im (𝕜 := ℂ) hI
  simp only [RCLike.im_to_complex] at h
  rw [← h, ← M_self n]
  have hL := lorentz_integrable hz
  have hL2 : Integrable fun t => lorentz z.im (z.re - t) := hL.comp_sub_left z.re
  have hL3 : ∫ t, lorentz z.im (z.re - t) = π := by
    rw [integral_sub_left_eq_self (fun t => lorentz z.im t) volume z.re, lorentz_integral hz]
  have hg : Integrable fun t : ℝ => z.im / δ ^ 2 * (hB t n * hB t n * exp (-t ^ 2)) + M * lorentz z.im (z.re - t) :=
    ((GI_integrable (GI_BB n n)).const_mul _).add (hL2.const_mul _)
  have hgi : ∫ t : ℝ, (z.im / δ ^ 2 * (hB t n * hB t n * exp (-t ^ 2)) + M * lorentz z.im (z.re - t)) = z.im / δ ^ 2 * E (fun t => hB t n * hB t n) + M * π := by
    rw [integral_add ((GI_integrable (GI_BB n n)).const_mul _) (hL2.const_mul _), integral_const_mul, integral_const_mul, hL3]
    rfl
  rw [← hgi, ← norm_eq_abs]
  refine norm_integral_le_of_norm_le hg (Filter.Eventually.of_forall fun t => ?_)
  have e : (((hB t n * hB t n : ℝ) : ℂ) * (exp (-t ^ 2) : ℝ) * (z - t)⁻¹).im = -(hB t n * hB t n * exp (-t ^ 2) * lorentz z.im (z.re - t)) := by
    rw [← Complex.ofReal_mul, Complex.im_ofReal_mul, (inv_parts z t).2]
    ring
  have hW : 0 ≤ hB t n * hB t n * exp (-t ^ 2) := mul_nonneg (mul_self_nonneg _) (exp_pos _).le
  have hl := lorentz_pos hz (z.re - t)
  rw [e, norm_eq_abs, abs_neg, abs_of_nonneg (mul_nonneg hW hl.le)]
  rcases le_or_gt |z.re - t| δ with hc | hc
  · have h1 := mul_le_mul_of_nonneg_right (hM t hc) hl.le
    have h2 : 0 ≤ z.im / δ ^ 2 * (hB t n * hB t n * exp (-t ^ 2)) := mul_nonneg (by positivity) hW
    linarith
  · have h1 : lorentz z.im (z.re - t) ≤ z.im / δ ^ 2 := by
      unfold lorentz
      have : δ ^ 2 ≤ (z.re - t) ^ 2 := by
        rw [← sq_abs (z.re - t)]
        gcongr
      exact div_le_div_of_nonneg_left hz.le (by positivity) (by nlinarith)
    have h2 := mul_le_mul_of_nonneg_left h1 hW
    have h3 : 0 ≤ M * lorentz z.im (z.re - t) := by positivity
    linarith

/-- The real part of what is left. -/
theorem rem_re {z : ℂ} (hz : 0 < z.im) (n : ℕ) {δ M : ℝ} (hδ : 0 < δ) (hM0 : 0 ≤ M)
    (hM : ∀ t : ℝ, |z.re - t| ≤ δ → hB t n * hB t n * exp (-t ^ 2) ≤ M) :
    |(∫ t : ℝ, ((hB t n * hB t n : ℝ) : ℂ) * (exp (-t ^ 2) : ℝ) * (z - t)⁻¹).re| ≤ 1 / δ * (√π * (n.factorial / 2 ^ n)) + M * δ / z.im := by
  have hI := div_integrable hz (GI_BB n n)
  have h := integral_re (𝕜 := ℂ) hI
  simp only [RCLike.re_to_complex] at h
  rw [← h, ← M_self n]
  set c := M / (2 * z.im) with hc
  have hc0 : 0 ≤ c := by positivity
  set S := Set.Icc (z.re - δ) (z.re + δ) with hS
  have hL2 : Integrable (S.indicator fun _ : ℝ => c) := by
    rw [integrable_indicator_iff measurableSet_Icc]
    exact integrableOn_const (by simp [hS])
  have hL3 : ∫ t, S.indicator (fun _ : ℝ => c) t = M * δ / z.im := by
    rw [integral_indicator measurableSet_Icc, setIntegral_const]
    simp only [Measure.real, volume_Icc, smul_eq_mul]
    rw [ENNReal.toReal_ofReal (by linarith), hc]
    field_simp
    ring
  have hg : Integrable fun t : ℝ => 1 / δ * (hB t n * hB t n * exp (-t ^ 2)) + S.indicator (fun _ : ℝ => c) t :=
    ((GI_integrable (GI_BB n n)).const_mul _).add hL2
  have hgi : ∫ t : ℝ, (1 / δ * (hB t n * hB t n * exp (-t ^ 2)) + S.indicator (fun _ : ℝ => c) t) = 1 / δ * E (fun t => hB t n * hB t n) + M * δ / z.im := by
    rw [integral_add ((GI_integrable (GI_BB n n)).const_mul _) hL2, integral_const_mul, hL3]
    rfl
  rw [← hgi, ← norm_eq_abs]
  refine norm_integral_le_of_norm_le hg (Filter.Eventually.of_forall fun t => ?_)
  have e : (((hB t n * hB t n : ℝ) : ℂ) * (exp (-t ^ 2) : ℝ) * (z - t)⁻¹).re = hB t n * hB t n * exp (-t ^ 2) * ((z.re - t) / ((z.re - t) ^ 2 + z.im ^ 2)) := by
    rw [← Complex.ofReal_mul, Complex.re_ofReal_mul, (inv_parts z t).1]
  have hW : 0 ≤ hB t n * hB t n * exp (-t ^ 2) := mul_nonneg (mul_self_nonneg _) (exp_pos _).le
  rw [e, norm_eq_abs, abs_mul, abs_of_nonneg hW, abs_div, abs_of_pos (by positivity : 0 < (z.re - t) ^ 2 + z.im ^ 2)]
  have hd : (z.re - t) ^ 2 = |z.re - t| ^ 2 := (sq_abs _).symm
  rw [hd]
  set d := |z.re - t| with hdd
  have hd0 : 0 ≤ d := abs_nonneg _
  rcases le_or_gt d δ with hcd | hcd
  · have hmem : t ∈ S := by
      have := abs_le.1 hcd
      exact ⟨by linarith [this.2], by linarith [this.1]⟩
    rw [Set.indicator_of_mem hmem]
    have h1 : d / (d ^ 2 + z.im ^ 2) ≤ 1 / (2 * z.im) := by
      rw [div_le_div_iff₀ (by positivity) (by positivity)]
      nlinarith [sq_nonneg (d - z.im)]
    have h2 := mul_le_mul (hM t hcd) h1 (by positivity) hM0
    have h3 : M * (1 / (2 * z.im)) = c := by rw [hc]; ring
    have h4 : 0 ≤ 1 / δ * (hB t n * hB t n * exp (-t ^ 2)) := mul_nonneg (by positivity) hW
    linarith
  · have h1 : d / (d ^ 2 + z.im ^ 2) ≤ 1 / δ := by
      rw [div_le_div_iff₀ (by positivity) (by positivity)]
      nlinarith
    have h2 := mul_le_mul_of_nonneg_left h1 hW
    have h3 : 0 ≤ S.indicator (fun _ : ℝ => c) t := Set.indicator_nonneg (fun _ _ => hc0) t
    linarith

/-- The error of the continued fraction, relative to the Voigt function, when the argument is near the real axis. -/
theorem cf_rel_wing {z : ℂ} (hz : 0 < z.im) {n : ℕ} (hn : 1 ≤ n) {δ K : ℝ} (hδ : 0 < δ) (hδu : δ < z.re)
    (h27 : 27 * ((n : ℝ) - 1) ≤ 8 * (z.re - δ) ^ 2) (hK : (n.factorial : ℝ) / 2 ^ n * (‖z‖ ^ 2 + 1 / 2) ≤ K * hB ‖z‖ n ^ 2) :
    hB z n ≠ 0 ∧ |(Complex.I / (√π : ℝ) * (hA z n / hB z n)).re - voigtH z.im z.re| ≤
      (K * (1 / δ ^ 2 + 9 / 2 * n / (‖z‖ * δ)) +
        (‖z‖ ^ 2 + 1 / 2) * exp (9 / 2 * n * δ / z.re - (z.re - δ) ^ 2) * (π + 9 / 2 * n * δ / ‖z‖) / (√π * z.im)) * voigtH z.im z.re := by
  obtain ⟨m, rfl⟩ : ∃ m, n = m + 1 := ⟨n - 1, by omega⟩
  have hu : 0 < z.re := hδ.trans hδu
  have hl : 0 < z.re - δ := by linarith
  have hur : z.re ≤ ‖z‖ := (le_abs_self _).trans (Complex.abs_re_le_norm z)
  have hr : 0 < ‖z‖ := hu.trans_le hur
  have hlu : (z.re - δ) ^ 2 ≤ z.re ^ 2 := by gcongr; linarith
  have hlr : z.re ^ 2 ≤ ‖z‖ ^ 2 := by gcongr
  have hm : 27 * (m : ℝ) ≤ 8 * (z.re - δ) ^ 2 := by push_cast at h27; linarith
  have hm0 : (0 : ℝ) ≤ m := Nat.cast_nonneg m
  obtain ⟨p0, p1⟩ := hB_norm23 hr m (by linarith)
  have pz : 0 < ‖hB z (m + 1)‖ := lt_of_lt_of_le (by positivity) p1
  have hne : hB z (m + 1) ≠ 0 := norm_pos_iff.1 pz
  refine ⟨hne, ?_⟩
  obtain ⟨a0, a1⟩ := hB_ratio23 hr m (by linarith)
  have pr : 0 < hB ‖z‖ (m + 1) := lt_of_lt_of_le (by positivity) a1
  obtain ⟨b0, b1⟩ := hB_ratio23 hu m (by linarith)
  have pu : 0 < hB z.re (m + 1) := lt_of_lt_of_le (by positivity) b1
  -- the polynomial at the modulus is the smallest
  obtain ⟨q0, q1⟩ := hB_norm hr m (by linarith)
  have hle : hB ‖z‖ (m + 1) ≤ ‖hB z (m + 1)‖ := by
    have : hB ‖z‖ (m + 1) * hB ‖z‖ m ≤ ‖hB z (m + 1)‖ * hB ‖z‖ m := le_trans (mul_le_mul_of_nonneg_left q0 pr.le) q1
    exact le_of_mul_le_mul_right this a0
  have hle2 : hB z.re (m + 1) ≤ hB ‖z‖ (m + 1) := by
    have hg := hB_grow hu hur m (by linarith)
    have : hB z.re (m + 1) * ‖z‖ ≤ hB ‖z‖ (m + 1) * ‖z‖ := hg.trans (by gcongr)
    exact le_of_mul_le_mul_right this hr
  set b := ‖hB z (m + 1)‖ with hb
  set M := b ^ 2 * exp (9 / 2 * ((m + 1 : ℕ) : ℝ) * δ / z.re - (z.re - δ) ^ 2) with hM
  have hM0 : 0 ≤ M := by positivity
  have hMb : ∀ t : ℝ, |z.re - t| ≤ δ → hB t (m + 1) * hB t (m + 1) * exp (-t ^ 2) ≤ M := by
    intro t ht
    refine (weight_near hδ hδu hn h27 ht).trans ?_
    rw [hM]
    gcongr
    exact hle2.trans hle
  have hIm := rem_im hz (m + 1) hδ hM0 hMb
  have hRe := rem_re hz (m + 1) hδ hM0 hMb
  -- the error
  have h := remainder hz (m + 1)
  have hJ : faddeeva z = Complex.I / π * ∫ t : ℝ, ((exp (-t ^ 2) : ℝ) : ℂ) * (z - t)⁻¹ := by
    unfold faddeeva
    congr 2
    funext t
    rw [div_eq_mul_inv]
    push_cast
    rfl
  set J := ∫ t : ℝ, ((exp (-t ^ 2) : ℝ) : ℂ) * (z - t)⁻¹
  set R := ∫ t : ℝ, ((hB t (m + 1) * hB t (m + 1) : ℝ) : ℂ) * (exp (-t ^ 2) : ℝ) * (z - t)⁻¹
  have hpi : ((√π : ℝ) : ℂ) * (√π : ℝ) = π := by rw [← Complex.ofReal_mul, mul_self_sqrt pi_pos.le]
  have hs0 : 0 < √π := sqrt_pos.2 pi_pos
  have hs : ((√π : ℝ) : ℂ) ≠ 0 := by
    rw [Complex.ofReal_ne_zero]
    exact hs0.ne'
  have hJ2 : J = (√π : ℝ) * (hA z (m + 1) / hB z (m + 1)) + R / hB z (m + 1) ^ 2 := by
    field_simp
    linear_combination h
  have e : faddeeva z - Complex.I / (√π : ℝ) * (hA z (m + 1) / hB z (m + 1)) = ((1 / π : ℝ) : ℂ) * (Complex.I * (R * (hB z (m + 1) ^ 2)⁻¹)) := by
    rw [hJ, hJ2]
    push_cast
    rw [← hpi]
    field_simp
    ring
  have hre : (faddeeva z).re = voigtH z.im z.re := by
    rw [← faddeeva_re hz]
    congr 2
    apply Complex.ext <;> simp
  have e2 := congrArg Complex.re e
  rw [Complex.sub_re, hre, Complex.re_ofReal_mul, Complex.I_mul_re, Complex.mul_im] at e2
  have hq1 : |((hB z (m + 1) ^ 2)⁻¹).re| ≤ 1 / b ^ 2 := by
    refine (Complex.abs_re_le_norm _).trans (le_of_eq ?_)
    rw [norm_inv, norm_pow, one_div]
  have him := hB_im hz hr (m + 1) (by push_cast; linarith)
  rw [← hb] at him
  have hq2 : |((hB z (m + 1) ^ 2)⁻¹).im| ≤ 2 * (9 / 4 * ((m + 1 : ℕ) : ℝ) / ‖z‖ * z.im) / b ^ 2 := by
    rw [Complex.inv_im, abs_div, abs_neg, Complex.normSq_eq_norm_sq, norm_pow, ← hb, abs_of_pos (by positivity : 0 < (b ^ 2) ^ 2)]
    have e3 : (hB z (m + 1) ^ 2).im = 2 * ((hB z (m + 1)).re * (hB z (m + 1)).im) := by
      rw [sq, Complex.mul_im]
      ring
    rw [e3, abs_mul, abs_mul, abs_two, div_le_div_iff₀ (by positivity) (by positivity)]
    have h1 : |(hB z (m + 1)).re| * |(hB z (m + 1)).im| ≤ b * (9 / 4 * ((m + 1 : ℕ) : ℝ) / ‖z‖ * z.im * b) :=
      mul_le_mul (Complex.abs_re_le_norm _) him (abs_nonneg _) (by positivity)
    have h2 := mul_le_mul_of_nonneg_right h1 (by positivity : 0 ≤ 2 * b ^ 2)
    nlinarith
  set T := √π * (((m + 1).factorial : ℝ) / 2 ^ (m + 1)) with hT
  have hT0 : 0 < T := by positivity
  set κ := 9 / 2 * ((m + 1 : ℕ) : ℝ) / ‖z‖ with hκ
  have hκ0 : 0 ≤ κ := by positivity
  have hq2' : |((hB z (m + 1) ^ 2)⁻¹).im| ≤ κ * z.im / b ^ 2 := by
    refine hq2.trans (le_of_eq ?_)
    rw [hκ]
    ring
  have hbound : |R.re * ((hB z (m + 1) ^ 2)⁻¹).im + R.im * ((hB z (m + 1) ^ 2)⁻¹).re| ≤
      (1 / δ * T + M * δ / z.im) * (κ * z.im / b ^ 2) + (z.im / δ ^ 2 * T + M * π) * (1 / b ^ 2) := by
    refine (abs_add_le _ _).trans ?_
    rw [abs_mul, abs_mul]
    exact add_le_add (mul_le_mul hRe hq2' (abs_nonneg _) (by positivity)) (mul_le_mul hIm hq1 (abs_nonneg _) (by positivity))
  have hfin : |(Complex.I / (√π : ℝ) * (hA z (m + 1) / hB z (m + 1))).re - voigtH z.im z.re| ≤
      1 / π * ((1 / δ * T + M * δ / z.im) * (κ * z.im / b ^ 2) + (z.im / δ ^ 2 * T + M * π) * (1 / b ^ 2)) := by
    rw [abs_sub_comm, e2, abs_mul, abs_neg, abs_of_pos (by positivity : 0 < 1 / π)]
    gcongr
  refine hfin.trans ?_
  have hge := voigtH_ge_lorentz hz z.re
  have hnsq : z.re ^ 2 + z.im ^ 2 = ‖z‖ ^ 2 := by
    rw [Complex.sq_norm, Complex.normSq_apply]
    ring
  rw [hnsq] at hge
  set X := exp (9 / 2 * ((m + 1 : ℕ) : ℝ) * δ / z.re - (z.re - δ) ^ 2) with hX
  have hX0 : 0 < X := exp_pos _
  have hp2 : √π * √π = π := mul_self_sqrt pi_pos.le
  have hKT : T * (‖z‖ ^ 2 + 1 / 2) ≤ √π * (K * b ^ 2) := by
    have hK0 : 0 ≤ K := by
      by_contra hn
      rw [not_le] at hn
      have : K * hB ‖z‖ (m + 1) ^ 2 < 0 := mul_neg_of_neg_of_pos hn (by positivity)
      have : (0 : ℝ) < ((m + 1).factorial : ℝ) / 2 ^ (m + 1) * (‖z‖ ^ 2 + 1 / 2) := by positivity
      linarith
    have h1 : K * hB ‖z‖ (m + 1) ^ 2 ≤ K * b ^ 2 := by gcongr
    rw [hT, mul_assoc]
    exact mul_le_mul_of_nonneg_left (hK.trans h1) hs0.le
  have hL : 1 / π * ((1 / δ * T + M * δ / z.im) * (κ * z.im / b ^ 2) + (z.im / δ ^ 2 * T + M * π) * (1 / b ^ 2)) =
      (T * (‖z‖ ^ 2 + 1 / 2) / (√π * b ^ 2) * (1 / δ ^ 2 + κ / δ) + (‖z‖ ^ 2 + 1 / 2) * X * (π + κ * δ) / (√π * z.im)) *
        (z.im / (√π * (‖z‖ ^ 2 + 1 / 2))) := by
    have e5 : π = √π ^ 2 := by rw [sq, hp2]
    have hmX : M = b ^ 2 * X := rfl
    rw [hmX]
    generalize √π = s at *
    rw [e5]
    field_simp
    ring
  rw [hL]
  have h2 : T * (‖z‖ ^ 2 + 1 / 2) / (√π * b ^ 2) ≤ K := by
    rw [div_le_iff₀ (by positivity)]
    linarith
  have h3 : K * (1 / δ ^ 2 + κ / δ) = K * (1 / δ ^ 2 + 9 / 2 * ((m + 1 : ℕ) : ℝ) / (‖z‖ * δ)) := by
    rw [hκ]
    field_simp
  have h4 : κ * δ = 9 / 2 * ((m + 1 : ℕ) : ℝ) * δ / ‖z‖ := by
    rw [hκ]
    ring
  rw [← h3, ← h4]
  have hK0 : 0 ≤ K := le_trans (by positivity) h2
  gcongr

end Verif.Hermite
