import Verif.Lemmas.VoigtTheta

/-!
The finite series for the Voigt function, with its error.
-/

namespace Verif.VoigtSeries
open MeasureTheory Real Verif.Spec

/-- The terms of the series: the one at the centre of the grid, and the others. -/
noncomputable def kappa0 (h y x : ℝ) : ℝ := h / π * ((1 - cos (2 * x * y)) / y)

/-- See `kappa0`: the terms beside the centre, at the distance `h * (n + 1)`. -/
noncomputable def kappa (h y x : ℝ) (n : ℕ) : ℝ :=
  2 * h / π * (exp (-(h * (n + 1)) ^ 2) * (y * (cosh (2 * (h * (n + 1)) * x) - cos (2 * x * y)) / ((h * (n + 1)) ^ 2 + y ^ 2)))

theorem kappa0_nonneg {h y : ℝ} (hh : 0 < h) (hy : 0 < y) (x : ℝ) : 0 ≤ kappa0 h y x := by
  unfold kappa0
  have := cos_le_one (2 * x * y)
  have : 0 ≤ 1 - cos (2 * x * y) := by linarith
  have := pi_pos
  positivity

theorem kappa_nonneg {h y : ℝ} (hh : 0 < h) (hy : 0 < y) (x : ℝ) (n : ℕ) : 0 ≤ kappa h y x n := by
  unfold kappa
  have h1 := cos_le_one (2 * x * y)
  have h2 := one_le_cosh (2 * (h * (n + 1)) * x)
  have : 0 ≤ cosh (2 * (h * (n + 1)) * x) - cos (2 * x * y) := by linarith
  have := pi_pos
  positivity

theorem kappa_sum {h y : ℝ} (hy : 0 < y) (x : ℝ) (N : ℕ) :
    kappa0 h y x + ∑ n ∈ Finset.range N, kappa h y x n =
      2 / √π * ∫ v in (0 : ℝ)..x, h / √π * (1 + ∑ n ∈ Finset.range N, gterm h v n) * sin (2 * y * (x - v)) := by
  have hp0 : √π ≠ 0 := (sqrt_pos.2 pi_pos).ne'
  have hpp : √π * √π = π := mul_self_sqrt pi_pos.le
  have e : ∀ v : ℝ, h / √π * (1 + ∑ n ∈ Finset.range N, gterm h v n) * sin (2 * y * (x - v)) =
      h / √π * (cosh (2 * 0 * v) * sin (2 * y * (x - v))) +
        ∑ n ∈ Finset.range N, (2 * h / √π * exp (-(h * (n + 1)) ^ 2)) * (cosh (2 * (h * (n + 1)) * v) * sin (2 * y * (x - v))) := by
    intro v
    rw [mul_add, add_mul, Finset.mul_sum, Finset.sum_mul]
    simp only [mul_zero, zero_mul, cosh_zero, one_mul, mul_one]
    congr 1
    · refine Finset.sum_congr rfl fun n _ => ?_
      unfold gterm
      ring
  simp_rw [e]
  rw [intervalIntegral.integral_add (Continuous.intervalIntegrable (by fun_prop) _ _) (Continuous.intervalIntegrable (by fun_prop) _ _),
    intervalIntegral.integral_const_mul, intervalIntegral.integral_finsetSum (fun n _ => Continuous.intervalIntegrable (by fun_prop) _ _)]
  simp_rw [intervalIntegral.integral_const_mul, kernel hy]
  rw [mul_add, Finset.mul_sum]
  have f1 : ∀ t : ℝ, 2 / √π * (h / √π * t) = 2 * h / π * t := by
    intro t
    have hq : 2 / √π * (h / √π) = 2 * h / π := by
      rw [div_mul_div_comm, hpp]
    rw [← mul_assoc, hq]
  congr 1
  · rw [f1]
    unfold kappa0
    simp only [mul_zero, zero_mul, cosh_zero]
    field_simp
    ring
  · refine Finset.sum_congr rfl fun n _ => ?_
    unfold kappa
    rw [show ∀ c d : ℝ, 2 / √π * (2 * h / √π * c * d) = 2 / √π * (h / √π * (2 * (c * d))) by intros; ring, f1]
    have : (h * ((n : ℝ) + 1)) ^ 2 + y ^ 2 ≠ 0 := by positivity
    field_simp

/-- The integral which measures the errors. -/
noncomputable def meas (x : ℝ) : ℝ := ∫ v in (0 : ℝ)..x, exp (v ^ 2) * (x - v)

theorem meas_nonneg {x : ℝ} (hx : 0 ≤ x) : 0 ≤ meas x := by
  unfold meas
  refine intervalIntegral.integral_nonneg hx fun v hv => ?_
  have := hv.2
  have : 0 ≤ x - v := by linarith
  positivity

theorem meas_le_sq {x : ℝ} (hx : 0 ≤ x) : exp (-x ^ 2) * meas x ≤ x ^ 2 / 2 := by
  have h1 : meas x ≤ ∫ v in (0 : ℝ)..x, exp (x ^ 2) * (x - v) := by
    refine intervalIntegral.integral_mono_on hx (Continuous.intervalIntegrable (by fun_prop) _ _) (Continuous.intervalIntegrable (by fun_prop) _ _) fun v hv => ?_
    have h2 := hv.2
    have h3 := hv.1
    have : 0 ≤ x - v := by linarith
    gcongr
  have h2 : ∫ v in (0 : ℝ)..x, exp (x ^ 2) * (x - v) = exp (x ^ 2) * (x ^ 2 / 2) := by
    rw [intervalIntegral.integral_const_mul]
    congr 1
    rw [intervalIntegral.integral_sub (by simp) (by simp)]
    simp
    ring
  rw [h2] at h1
  calc exp (-x ^ 2) * meas x ≤ exp (-x ^ 2) * (exp (x ^ 2) * (x ^ 2 / 2)) := by gcongr
    _ = _ := by rw [← mul_assoc, ← exp_add, neg_add_cancel, exp_zero, one_mul]

theorem meas_le_inv {x : ℝ} (hx : 0 < x) : exp (-x ^ 2) * meas x ≤ 1 / x ^ 2 := by
  unfold meas
  rw [← intervalIntegral.integral_const_mul]
  have h1 : ∫ v in (0 : ℝ)..x, exp (-x ^ 2) * (exp (v ^ 2) * (x - v)) ≤ ∫ v in (0 : ℝ)..x, exp (-(x * (x - v))) * (x - v) := by
    refine intervalIntegral.integral_mono_on hx.le (Continuous.intervalIntegrable (by fun_prop) _ _) (Continuous.intervalIntegrable (by fun_prop) _ _) fun v hv => ?_
    have h2 := hv.2
    have h3 := hv.1
    have h4 : 0 ≤ x - v := by linarith
    rw [← mul_assoc, ← exp_add]
    refine mul_le_mul_of_nonneg_right (exp_le_exp.2 ?_) h4
    nlinarith
  refine h1.trans ?_
  have hd : ∀ v ∈ Set.uIcc 0 x, HasDerivAt (fun v => exp (-(x * (x - v))) * ((x - v) / x + 1 / x ^ 2)) (exp (-(x * (x - v))) * (x - v)) v := by
    intro v _
    have a1 : HasDerivAt (fun v => x - v) (-1) v := by simpa using (hasDerivAt_id v).const_sub x
    have := ((a1.const_mul x).neg.exp).mul ((a1.div_const x).add_const (1 / x ^ 2))
    refine HasDerivAt.congr_deriv this ?_
    simp only [Pi.neg_apply]
    field_simp
    ring
  rw [intervalIntegral.integral_eq_sub_of_hasDerivAt hd (Continuous.intervalIntegrable (by fun_prop) _ _)]
  simp only [sub_self, mul_zero, neg_zero, exp_zero, zero_div, zero_add, one_mul, sub_zero]
  have : 0 ≤ exp (-(x * x)) * (x / x + 1 / x ^ 2) := by positivity
  linarith

theorem meas_voigt_of {x y K : ℝ} (hx : 0 ≤ x) (hy : 0 < y) (hy7 : y ≤ 7) (hK : 4 * (exp (-x ^ 2) * meas x) * (x ^ 2 + 49.5) ≤ K) :
    exp (-x ^ 2) * (4 * y / √π * meas x) ≤ K * voigtH y x := by
  have h0 := Hermite.voigtH_ge_lorentz hy x
  have hs : 0 < √π := sqrt_pos.2 pi_pos
  have hm : 0 ≤ exp (-x ^ 2) * meas x := mul_nonneg (exp_pos _).le (meas_nonneg hx)
  have hK0 : 0 ≤ K := le_trans (by positivity) hK
  refine le_trans ?_ (mul_le_mul_of_nonneg_left h0 hK0)
  have hD : 0 < x ^ 2 + y ^ 2 + 1 / 2 := by positivity
  have hle : x ^ 2 + y ^ 2 + 1 / 2 ≤ x ^ 2 + 49.5 := by norm_num; nlinarith
  rw [show exp (-x ^ 2) * (4 * y / √π * meas x) = 4 * (exp (-x ^ 2) * meas x) * (y / √π) by ring,
    show K * (y / (√π * (x ^ 2 + y ^ 2 + 1 / 2))) = K / (x ^ 2 + y ^ 2 + 1 / 2) * (y / √π) by field_simp]
  refine mul_le_mul_of_nonneg_right ?_ (by positivity)
  rw [le_div_iff₀ hD]
  exact (mul_le_mul_of_nonneg_left hle (by positivity)).trans hK

/-- The errors against the Voigt function. -/
theorem meas_voigt {x y : ℝ} (hx : 0 < x) (hy : 0 < y) (hy7 : y ≤ 7) : exp (-x ^ 2) * (4 * y / √π * meas x) ≤ 145 * voigtH y x := by
  refine meas_voigt_of hx.le hy hy7 ?_
  have h1 := meas_le_sq hx.le
  have h2 := meas_le_inv hx
  generalize exp (-x ^ 2) * meas x = m at *
  have h3 : m * x ^ 2 ≤ 1 := by
    rwa [le_div_iff₀ (by positivity)] at h2
  have h4 : m ≤ 0.71 := by
    rcases le_total (x ^ 2) 1.42 with h | h
    · norm_num at h ⊢
      linarith
    · norm_num at h ⊢
      by_contra hc
      rw [not_le] at hc
      nlinarith
  norm_num at h4 ⊢
  nlinarith

/-- The errors near the centre. -/
theorem meas_voigt_small {x y : ℝ} (hx : 0 ≤ x) (hx2 : x ^ 2 ≤ 1 / 2) (hy : 0 < y) (hy7 : y ≤ 7) :
    exp (-x ^ 2) * (4 * y / √π * meas x) ≤ 100 * x ^ 2 * voigtH y x := by
  refine meas_voigt_of hx hy hy7 ?_
  have h1 := meas_le_sq hx
  generalize exp (-x ^ 2) * meas x = m at *
  norm_num
  nlinarith [sq_nonneg x]

/-- The finite series. -/
theorem series_err {h y x r : ℝ} {N : ℕ} (hy : 0 < y) (hx : 0 ≤ x)
    (ht : ∀ v, 0 ≤ v → v ≤ x → |h / √π * (1 + ∑ n ∈ Finset.range N, gterm h v n) - exp (v ^ 2)| ≤ r * exp (v ^ 2)) :
    |cos (2 * x * y) * voigtH y 0 + (kappa0 h y x + ∑ n ∈ Finset.range N, kappa h y x n) - exp (x ^ 2) * voigtH y x| ≤ r * (4 * y / √π * meas x) := by
  have hs : 0 < √π := sqrt_pos.2 pi_pos
  rw [voigtH_repr hy, kappa_sum hy, add_sub_add_left_eq_sub, ← mul_sub, ← intervalIntegral.integral_sub
    (Continuous.intervalIntegrable (by unfold gterm; fun_prop) _ _) (Continuous.intervalIntegrable (by fun_prop) _ _), abs_mul, abs_of_pos (by positivity)]
  have h1 : |∫ v in (0 : ℝ)..x, (h / √π * (1 + ∑ n ∈ Finset.range N, gterm h v n) * sin (2 * y * (x - v)) - exp (v ^ 2) * sin (2 * y * (x - v)))| ≤
      ∫ v in (0 : ℝ)..x, r * (2 * y) * (exp (v ^ 2) * (x - v)) := by
    refine (intervalIntegral.abs_integral_le_integral_abs hx).trans ?_
    refine intervalIntegral.integral_mono_on hx (Continuous.intervalIntegrable (by unfold gterm; fun_prop) _ _) (Continuous.intervalIntegrable (by fun_prop) _ _) fun v hv => ?_
    rw [← sub_mul, abs_mul]
    have hv1 := hv.1
    have hv2 := hv.2
    have hxv : 0 ≤ 2 * y * (x - v) := by
      have : 0 ≤ x - v := by linarith
      positivity
    have h2 : |sin (2 * y * (x - v))| ≤ 2 * y * (x - v) := by
      have := abs_sin_le_abs (x := 2 * y * (x - v))
      rwa [abs_of_nonneg hxv] at this
    have h3 := ht v hv1 hv2
    calc _ ≤ r * exp (v ^ 2) * (2 * y * (x - v)) := mul_le_mul h3 h2 (abs_nonneg _) ((abs_nonneg _).trans h3)
      _ = _ := by ring
  rw [intervalIntegral.integral_const_mul] at h1
  calc 2 / √π * _ ≤ 2 / √π * (r * (2 * y) * ∫ v in (0 : ℝ)..x, exp (v ^ 2) * (x - v)) := by gcongr
    _ = _ := by unfold meas; ring

theorem kappa_le {h y x r : ℝ} {N : ℕ} (hy : 0 < y) (hx : 0 ≤ x)
    (ht : ∀ v, 0 ≤ v → v ≤ x → |h / √π * (1 + ∑ n ∈ Finset.range N, gterm h v n) - exp (v ^ 2)| ≤ r * exp (v ^ 2)) :
    kappa0 h y x + ∑ n ∈ Finset.range N, kappa h y x n ≤ (1 + r) * (4 * y / √π * meas x) := by
  have h1 := series_err hy hx ht
  have hs : 0 < √π := sqrt_pos.2 pi_pos
  have h2 : exp (x ^ 2) * voigtH y x - cos (2 * x * y) * voigtH y 0 ≤ 4 * y / √π * meas x := by
    rw [voigtH_repr hy, add_sub_cancel_left]
    have : ∫ v in (0 : ℝ)..x, exp (v ^ 2) * sin (2 * y * (x - v)) ≤ ∫ v in (0 : ℝ)..x, 2 * y * (exp (v ^ 2) * (x - v)) := by
      refine intervalIntegral.integral_mono_on hx (Continuous.intervalIntegrable (by fun_prop) _ _) (Continuous.intervalIntegrable (by fun_prop) _ _) fun v hv => ?_
      have : 0 ≤ x - v := by linarith [hv.2]
      have h3 := sin_le (x := 2 * y * (x - v)) (by positivity)
      calc _ ≤ exp (v ^ 2) * (2 * y * (x - v)) := by gcongr
        _ = _ := by ring
    rw [intervalIntegral.integral_const_mul] at this
    calc 2 / √π * _ ≤ 2 / √π * (2 * y * ∫ v in (0 : ℝ)..x, exp (v ^ 2) * (x - v)) := by gcongr
      _ = _ := by unfold meas; ring
  have h3 := (abs_le.1 h1).2
  linarith

/-- The value at the centre, against the one elsewhere. -/
theorem centre_le {y : ℝ} (hy : 0 < y) (x : ℝ) : exp (-x ^ 2) * voigtH y 0 ≤ voigtH y x := by
  obtain ⟨e, hi⟩ := voigtH_cosh hy x
  obtain ⟨e0, hi0⟩ := voigtH_cosh hy 0
  simp only [mul_zero, cosh_zero, mul_one, zero_pow two_ne_zero, exp_zero, one_mul] at e0 hi0
  have h1 : voigtH y 0 ≤ exp (x ^ 2) * voigtH y x := by
    rw [e, e0]
    refine mul_le_mul_of_nonneg_left (integral_mono hi0 hi fun s => ?_) (by have := pi_pos; positivity)
    simp only
    refine mul_le_mul_of_nonneg_right ?_ (lorentz_pos hy s).le
    have := one_le_cosh (2 * s * x)
    have := exp_pos (-s ^ 2)
    nlinarith
  calc exp (-x ^ 2) * voigtH y 0 ≤ exp (-x ^ 2) * (exp (x ^ 2) * voigtH y x) := by gcongr
    _ = _ := by rw [← mul_assoc, ← exp_add, neg_add_cancel, exp_zero, one_mul]

end Verif.VoigtSeries
