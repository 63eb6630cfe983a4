import Verif.Props.FaddeevaLoop
import Verif.Props.LineProfile

/-!
Property C99: the line profile near its centre is the Voigt function, to a small relative error.
-/

namespace Verif.Props
open Verif.Model.Faddeeva Verif.Spec Verif.VoigtSeries Real

/-- `a` is within the fraction `d` of the nonnegative `b`. -/
def RelNear (d a b : ℝ) : Prop := |a - b| ≤ d * b

theorem RelNear.mul {d e a b a' b' : ℝ} (h : RelNear d a b) (h' : RelNear e a' b') (hb : 0 ≤ b) (hb' : 0 ≤ b') (hd : 0 ≤ d) :
    RelNear (d + e + d * e) (a * a') (b * b') := by
  unfold RelNear at *
  have e1 : a * a' - b * b' = (a - b) * (a' - b') + (a - b) * b' + b * (a' - b') := by ring
  rw [e1]
  calc |(a - b) * (a' - b') + (a - b) * b' + b * (a' - b')| ≤ |(a - b) * (a' - b')| + |(a - b) * b'| + |b * (a' - b')| := abs_add_three _ _ _
    _ ≤ (d * b) * (e * b') + (d * b) * b' + b * (e * b') := by
      rw [abs_mul, abs_mul, abs_mul, abs_of_nonneg hb, abs_of_nonneg hb']
      gcongr
    _ = _ := by ring

theorem RelNear.mono {d e a b : ℝ} (h : RelNear d a b) (hb : 0 ≤ b) (hde : d ≤ e) : RelNear e a b :=
  le_trans h (mul_le_mul_of_nonneg_right hde hb)

theorem RelNear.inv {d a b : ℝ} (h : RelNear d a b) (hb : 0 < b) (hd : d ≤ 1 / 2) : RelNear (2 * d) a⁻¹ b⁻¹ := by
  unfold RelNear at *
  have hd0 : 0 ≤ d := by
    by_contra hn
    have : d * b < 0 := mul_neg_of_neg_of_pos (not_le.1 hn) hb
    linarith [abs_nonneg (a - b)]
  have ha : b / 2 ≤ a := by
    have := (abs_le.1 h).1
    nlinarith
  have ha0 : 0 < a := by linarith
  rw [inv_sub_inv ha0.ne' hb.ne', abs_div, abs_of_pos (a := a * b) (by positivity), abs_sub_comm, div_le_iff₀ (by positivity)]
  calc |a - b| ≤ d * b := h
    _ = 2 * d * b⁻¹ * (b / 2 * b) := by field_simp
    _ ≤ _ := by gcongr

theorem RelNear.refl (a : ℝ) : RelNear 0 a a := by
  unfold RelNear
  simp

/-- The terms of the series in the code against the exact ones. -/
theorem term_near {y x : ℝ} (hy : 0 < y) {i : ℕ} (hi : i < 51) :
    RelNear 2e-16 (cC * y * (tabAt i / (cA2 * ((i : ℝ) + 1) ^ 2 + y ^ 2)) * (cosh (2 * (cA * (i + 1)) * x) - cos (2 * x * y))) (kappa cA y x i) := by
  have hA := cA_pos
  have hA2 := cA2_pos
  have hpi := pi_pos
  have h0 : 0 ≤ cosh (2 * (cA * (i + 1)) * x) - cos (2 * x * y) := by
    have h1 := cos_le_one (2 * x * y)
    have h2 := one_le_cosh (2 * (cA * (i + 1)) * x)
    linarith
  have d1 : RelNear 1e-18 cC (2 * cA / π) := cC_near
  have d2 : RelNear 1e-16 (tabAt i) (exp (-(cA * (i + 1)) ^ 2)) := tabAt_near hi
  have d3 : RelNear 1e-20 (cA2 * ((i : ℝ) + 1) ^ 2 + y ^ 2) ((cA * (i + 1)) ^ 2 + y ^ 2) := by
    unfold RelNear
    have e : cA2 * ((i : ℝ) + 1) ^ 2 + y ^ 2 - ((cA * (i + 1)) ^ 2 + y ^ 2) = (cA2 - cA ^ 2) * ((i : ℝ) + 1) ^ 2 := by ring
    rw [e, abs_mul, abs_of_nonneg (sq_nonneg ((i : ℝ) + 1))]
    have hAv : (0.1 : ℝ) ≤ cA ^ 2 := by
      unfold cA
      norm_num
    have h1 : 1e-21 * ((i : ℝ) + 1) ^ 2 ≤ 1e-20 * (cA * ((i : ℝ) + 1)) ^ 2 := by
      rw [mul_pow]
      have : 0.1 * ((i : ℝ) + 1) ^ 2 ≤ cA ^ 2 * ((i : ℝ) + 1) ^ 2 := by gcongr
      norm_num at this ⊢
      linarith
    calc |cA2 - cA ^ 2| * ((i : ℝ) + 1) ^ 2 ≤ 1e-21 * ((i : ℝ) + 1) ^ 2 := by gcongr; exact cA2_near
      _ ≤ _ := h1
      _ ≤ _ := by
        gcongr
        have := sq_nonneg y
        linarith
  have d3' := d3.inv (by positivity) (by norm_num)
  have m1 := (((d1.mul d2 (by positivity) (exp_pos _).le (by norm_num)).mul d3' (by positivity) (by positivity) (by norm_num)).mul
    (RelNear.refl (y * (cosh (2 * (cA * (i + 1)) * x) - cos (2 * x * y)))) (by positivity) (by positivity) (by norm_num))
  have m2 := m1.mono (e := 2e-16) (by positivity) (by norm_num)
  convert m2 using 1
  · ring
  · unfold kappa
    ring

theorem centre_near {y x : ℝ} (hy : 0 < y) (hx : 0 < x) : RelNear 2e-16 (cC * x * sin (x * y) * sinc (x * y) (sin (x * y))) (kappa0 cA y x) := by
  have hA := cA_pos
  have hpi := pi_pos
  have ht : 0 < x * y := by positivity
  have hk : kappa0 cA y x = 2 * cA / π * (x * (sin (x * y) * (sin (x * y) / (x * y)))) := by
    unfold kappa0
    have : cos (2 * x * y) = 1 - 2 * sin (x * y) ^ 2 := by
      rw [mul_assoc, cos_two_mul, cos_sq']
      ring
    rw [this]
    field_simp
    ring
  have d1 : RelNear 1e-18 cC (2 * cA / π) := cC_near
  have d2 : RelNear 3e-18 (sin (x * y) * sinc (x * y) (sin (x * y))) (sin (x * y) * (sin (x * y) / (x * y))) := by
    unfold Model.Faddeeva.sinc
    split
    · rename_i h
      rw [abs_of_pos ht] at h
      have h1 : x * y < 1e-4 := h
      generalize x * y = t at ht h1 ⊢
      have hsb := sin_bound (x := t) (by rw [abs_of_pos ht]; norm_num at h1; linarith)
      rw [abs_of_pos ht] at hsb
      have hs : t / 2 ≤ sin t := by
        have := (abs_le.1 hsb).1
        norm_num at h1
        have t2 : t ^ 2 ≤ 1e-8 := by
          norm_num
          nlinarith
        norm_num at t2
        nlinarith [pow_pos ht 3, pow_pos ht 5, mul_pos ht ht, mul_nonneg ht.le (sub_nonneg.2 t2), mul_nonneg (pow_pos ht 3).le (sub_nonneg.2 t2)]
      have hs0 : 0 < sin t := by linarith
      have d3 : RelNear 3e-18 (1 - 0.1666666666666666666667 * t * t) (sin t / t) := by
        unfold RelNear
        have e : 1 - 0.1666666666666666666667 * t * t - sin t / t = -(sin t - (t - 0.1666666666666666666667 * t ^ 3)) / t := by
          field_simp
          ring
        rw [e, abs_div, abs_neg, abs_of_pos ht, mul_div_assoc', div_le_div_iff_of_pos_right ht]
        have h2 : |sin t - (t - 0.1666666666666666666667 * t ^ 3)| ≤ t ^ 5 / 100 + 1e-22 * t ^ 3 := by
          have e2 : sin t - (t - 0.1666666666666666666667 * t ^ 3) = (sin t - (t - t ^ 3 / 6)) + (0.1666666666666666666667 - 1 / 6) * t ^ 3 := by ring
          rw [e2]
          refine (abs_add_le _ _).trans (add_le_add hsb ?_)
          rw [abs_mul, abs_of_pos (pow_pos ht 3)]
          gcongr
          rw [abs_le]
          norm_num
        refine h2.trans ?_
        have t4 : t ^ 4 ≤ 1e-16 := by
          calc t ^ 4 ≤ (1e-4 : ℝ) ^ 4 := by gcongr
            _ = 1e-16 := by norm_num
        have t2 : t ^ 2 ≤ 1 := by
          calc t ^ 2 ≤ (1e-4 : ℝ) ^ 2 := by gcongr
            _ ≤ 1 := by norm_num
        have t5 : t ^ 5 ≤ 1e-16 * t := by
          calc t ^ 5 = t ^ 4 * t := by ring
            _ ≤ _ := by gcongr
        have t3 : t ^ 3 ≤ 1 * t := by
          calc t ^ 3 = t ^ 2 * t := by ring
            _ ≤ _ := by gcongr
        norm_num at t5 t3 hs ⊢
        linarith
      have := (RelNear.refl (sin t)).mul d3 hs0.le (by positivity) le_rfl
      refine this.mono (by positivity) (by norm_num)
    · refine (RelNear.refl _).mono ?_ (by norm_num)
      rw [← mul_div_assoc]
      exact div_nonneg (mul_self_nonneg _) ht.le
  have hnn : 0 ≤ sin (x * y) * (sin (x * y) / (x * y)) := by
    rw [← mul_div_assoc]
    exact div_nonneg (mul_self_nonneg _) ht.le
  have m1 := d1.mul ((RelNear.refl x).mul d2 hx.le hnn le_rfl) (by positivity) (by positivity) (by norm_num)
  rw [hk]
  have m2 := m1.mono (e := 2e-16) (by positivity) (by norm_num)
  convert m2 using 1
  ring

/-- The real part of what the code adds to the sums. -/
theorem head_re (F : RealFns) {u y : ℝ} (hy : 0 < y) (ex : ℝ) (s : Sums) :
    (head F u y ex s).re = (ex * F.erfcx y - cC * y * s.sum1) * cos (2 * |u| * y) + (cC * |u| * ex) * sin (|u| * y) * sinc (|u| * y) (sin (|u| * y)) := by
  unfold head
  simp only
  rw [if_pos (by linarith : y > -6)]
  split
  · rfl
  · simp only
    rcases abs_choice u with h | h
    · rw [h]
    · rw [h, show 2 * -u * y = -(2 * u * y) by ring, cos_neg, neg_mul u y, sin_neg]
      unfold Model.Faddeeva.sinc
      rw [abs_neg]
      split
      · ring
      · rw [neg_div_neg_eq]
        ring

theorem sums_main {x y : ℝ} (hx : 5e-4 ≤ x) : ∃ s, sums x y = .ok (exp (-x * x), s) ∧
    loopMain y (exp (-x * x)) (exp (2 * cA * x)) (1 / exp (2 * cA * x)) expa2n2 1 1 1 zeroSums = .ok s := by
  have hx0 : 0 ≤ x := le_trans (by norm_num) hx
  obtain ⟨r, hr⟩ := sums_ok (y := y) hx0
  unfold sums at hr ⊢
  rw [if_neg (not_lt.2 hx)] at hr ⊢
  simp only at hr ⊢
  cases h : loopMain y (exp (-x * x)) (exp (2 * cA * x)) (1 / exp (2 * cA * x)) expa2n2 1 1 1 zeroSums with
  | error e => rw [h] at hr; simp [Except.map] at hr
  | ok s => exact ⟨s, rfl, rfl⟩

/-- The number of terms which count. -/
theorem turns_main {x y : ℝ} {k : ℕ} (hk : k < 52) (hy : 0 < y) (hx : x < 10)
    (hs : lcoef y (exp (-x * x)) expa2n2 1 k * (1 * exp (2 * cA * x) ^ (k + 1)) * (cA * ((1 + k : ℕ) : ℝ)) < relerr *
      ∑ i ∈ Finset.range (k + 1), lcoef y (exp (-x * x)) expa2n2 1 i * (1 * exp (2 * cA * x) ^ (i + 1)) * (cA * ((1 + i : ℕ) : ℝ))) :
    ∃ N ≤ 51, (∀ g : ℕ → ℝ, ∑ i ∈ Finset.range (k + 1), lcoef y (exp (-x * x)) expa2n2 1 i * g i =
      ∑ i ∈ Finset.range N, lcoef y (exp (-x * x)) expa2n2 1 i * g i) ∧ 5 ≤ cA * (N : ℝ) - x ∧ 28 ≤ (cA * (N : ℝ) - x) ^ 2 := by
  by_cases h : k < 51
  · exact ⟨k + 1, by omega, fun g => rfl, stop_main h hy hs⟩
  · have hk51 : k = 51 := by omega
    refine ⟨51, le_rfl, fun g => ?_, ?_⟩
    · rw [hk51, Finset.sum_range_succ, lcoef_table, tabAt_last]
      simp
    · have : (26 : ℝ) ≤ cA * ((51 : ℕ) : ℝ) := by
        unfold cA
        norm_num
      exact ⟨by linarith, by nlinarith⟩

theorem exp28_le : exp (-28) ≤ 7e-13 := by
  have h : exp (-1) ≤ 0.36788 := by
    rw [exp_neg, inv_le_comm₀ (exp_pos _) (by norm_num)]
    have := exp_one_gt_d9
    norm_num at this ⊢
    linarith
  have e : exp (-28) = exp (-1) ^ 28 := by
    rw [← exp_nat_mul]
    norm_num
  rw [e]
  calc exp (-1) ^ 28 ≤ (0.36788 : ℝ) ^ 28 := by gcongr
    _ ≤ 7e-13 := by norm_num

/-- The series, with the error of the number of terms `r` and the size `K` of all terms against the Voigt function. -/
theorem core_err {x y E d r K : ℝ} {N : ℕ} (hy : 0 < y) (hx : 0 < x) (hN : N ≤ 51) (hd : 5 ≤ cA * (N : ℝ) - x)
    (hr : 6e-16 + 0.0045 * exp (-(cA * (N : ℝ) - x) ^ 2) ≤ r) (hr1 : r ≤ 1) (s3 : exp (-x ^ 2) * (4 * y / √π * meas x) ≤ K * voigtH y x)
    (hE : |E - voigtH y 0| ≤ d * voigtH y 0) :
    |exp (-x ^ 2) * (E * cos (2 * x * y) + (cC * x * sin (x * y) * sinc (x * y) (sin (x * y)) +
      ∑ i ∈ Finset.range N, cC * y * (tabAt i / (cA2 * ((i : ℝ) + 1) ^ 2 + y ^ 2)) * (cosh (2 * (cA * (i + 1)) * x) - cos (2 * x * y)))) - voigtH y x| ≤
    (d + (4e-16 + r) * K) * voigtH y x := by
  have hA := cA_pos
  have ht : ∀ v, 0 ≤ v → v ≤ x → |cA / √π * (1 + ∑ n ∈ Finset.range N, gterm cA v n) - exp (v ^ 2)| ≤ r * exp (v ^ 2) := by
    intro v h0 h1
    have h2 := gsum_trunc (h := cA) (v := v) (x := x) (N := N) (by unfold cA; norm_num) (by unfold cA; norm_num) (by rw [abs_of_nonneg h0]; exact h1) hd
    exact h2.trans (mul_le_mul_of_nonneg_right hr (exp_pos _).le)
  have hr0 : 0 ≤ r := le_trans (by positivity) hr
  have s1 := series_err hy hx.le ht
  have s2 := kappa_le hy hx.le ht
  have s4 := centre_le hy x
  have hex := exp_pos (-x ^ 2)
  have hH := voigtH_pos hy x
  have hH0 := voigtH_pos hy 0
  set M := 4 * y / √π * meas x with hM
  have k0 := kappa0_nonneg hA hy x
  have a0 := centre_near hy hx
  have a1 : ∀ i ∈ Finset.range N, |cC * y * (tabAt i / (cA2 * ((i : ℝ) + 1) ^ 2 + y ^ 2)) * (cosh (2 * (cA * (i + 1)) * x) - cos (2 * x * y)) -
      kappa cA y x i| ≤ 2e-16 * kappa cA y x i := by
    intro i hi
    exact term_near hy (lt_of_lt_of_le (Finset.mem_range.1 hi) hN)
  have a2 : |∑ i ∈ Finset.range N, cC * y * (tabAt i / (cA2 * ((i : ℝ) + 1) ^ 2 + y ^ 2)) * (cosh (2 * (cA * (i + 1)) * x) - cos (2 * x * y)) -
      ∑ i ∈ Finset.range N, kappa cA y x i| ≤ 2e-16 * ∑ i ∈ Finset.range N, kappa cA y x i := by
    rw [← Finset.sum_sub_distrib, Finset.mul_sum]
    exact (Finset.abs_sum_le_sum_abs _ _).trans (Finset.sum_le_sum a1)
  unfold RelNear at a0
  generalize ∑ i ∈ Finset.range N, cC * y * (tabAt i / (cA2 * ((i : ℝ) + 1) ^ 2 + y ^ 2)) * (cosh (2 * (cA * (i + 1)) * x) - cos (2 * x * y)) = T at *
  generalize ∑ i ∈ Finset.range N, kappa cA y x i = S at *
  generalize cC * x * sin (x * y) * sinc (x * y) (sin (x * y)) = T0 at *
  generalize kappa0 cA y x = S0 at *
  have e1 : exp (-x ^ 2) * (E * cos (2 * x * y) + (T0 + T)) - voigtH y x = exp (-x ^ 2) * ((E - voigtH y 0) * cos (2 * x * y)) +
      (exp (-x ^ 2) * ((T0 - S0) + (T - S)) + exp (-x ^ 2) * (cos (2 * x * y) * voigtH y 0 + (S0 + S) - exp (x ^ 2) * voigtH y x)) := by
    have : exp (-x ^ 2) * (exp (x ^ 2) * voigtH y x) = voigtH y x := by
      rw [← mul_assoc, ← exp_add, neg_add_cancel, exp_zero, one_mul]
    linear_combination this
  rw [e1]
  have b1 : |exp (-x ^ 2) * ((E - voigtH y 0) * cos (2 * x * y))| ≤ d * voigtH y x := by
    rw [abs_mul, abs_mul, abs_of_pos hex]
    have hd0 : 0 ≤ d := by
      by_contra hn
      have : d * voigtH y 0 < 0 := mul_neg_of_neg_of_pos (not_le.1 hn) hH0
      linarith [abs_nonneg (E - voigtH y 0)]
    calc exp (-x ^ 2) * (|E - voigtH y 0| * |cos (2 * x * y)|) ≤ exp (-x ^ 2) * ((d * voigtH y 0) * 1) := by
          gcongr
          exact abs_cos_le_one _
      _ = d * (exp (-x ^ 2) * voigtH y 0) := by ring
      _ ≤ _ := by gcongr
  have hKH : 0 ≤ K * voigtH y x := le_trans (mul_nonneg hex.le (by rw [hM]; have := meas_nonneg hx.le; positivity)) s3
  have b2 : |exp (-x ^ 2) * ((T0 - S0) + (T - S))| ≤ 4e-16 * (K * voigtH y x) := by
    rw [abs_mul, abs_of_pos hex]
    have h1 : |(T0 - S0) + (T - S)| ≤ 2e-16 * ((1 + r) * M) := by
      refine (abs_add_le _ _).trans ?_
      have : 2e-16 * (S0 + S) ≤ 2e-16 * ((1 + r) * M) := by gcongr
      linarith
    calc exp (-x ^ 2) * |(T0 - S0) + (T - S)| ≤ exp (-x ^ 2) * (2e-16 * ((1 + r) * M)) := by gcongr
      _ = 2e-16 * (1 + r) * (exp (-x ^ 2) * M) := by ring
      _ ≤ 2e-16 * (1 + r) * (K * voigtH y x) := by gcongr
      _ ≤ 2e-16 * (1 + 1) * (K * voigtH y x) := by gcongr
      _ = _ := by ring
  have b3 : |exp (-x ^ 2) * (cos (2 * x * y) * voigtH y 0 + (S0 + S) - exp (x ^ 2) * voigtH y x)| ≤ r * (K * voigtH y x) := by
    rw [abs_mul, abs_of_pos hex]
    calc _ ≤ exp (-x ^ 2) * (r * M) := by gcongr
      _ = r * (exp (-x ^ 2) * M) := by ring
      _ ≤ _ := by gcongr
  refine (abs_add_le _ _).trans ?_
  refine le_trans (add_le_add b1 ((abs_add_le _ _).trans (add_le_add b2 b3))) (le_of_eq ?_)
  ring

/-- What the code computes in the core of the line. -/
theorem core_value (F : RealFns) (fuel : ℕ) {u y : ℝ} (hx : 5e-4 ≤ |u|) (h10 : |u| < 10) (hy : 0 < y) (h : ¬InWing u y) :
    ∃ N : ℕ, N ≤ 51 ∧ 5 ≤ cA * (N : ℝ) - |u| ∧ 28 ≤ (cA * (N : ℝ) - |u|) ^ 2 ∧ profile F fuel u y = .ok (some (exp (-|u| ^ 2) * (F.erfcx y * cos (2 * |u| * y) +
      (cC * |u| * sin (|u| * y) * sinc (|u| * y) (sin (|u| * y)) +
      ∑ i ∈ Finset.range N, cC * y * (tabAt i / (cA2 * ((i : ℝ) + 1) ^ 2 + y ^ 2)) * (cosh (2 * (cA * (i + 1)) * |u|) - cos (2 * |u| * y)))))) := by
  obtain ⟨s, hs, hl⟩ := sums_main (y := y) hx
  obtain ⟨k, hk, h1, h2, h3, h5, h6⟩ := loopMain_sums _ _ _ _ _ _ hl
  rw [h5] at h6
  simp only [zeroSums, zero_add] at h1 h2 h3 h6
  obtain ⟨N, hN, hg, hd, hd2⟩ := turns_main hk hy h10 h6
  refine ⟨N, hN, hd, hd2, ?_⟩
  have h' : ¬useCF |u| |y| := by
    rw [abs_of_pos hy]
    exact h
  have hu : u ≠ 0 := by
    intro e
    rw [e, abs_zero] at hx
    norm_num at hx
  unfold profile w
  simp only [hu, hy.ne', if_false, if_neg h', if_pos h10, hs, Except.map, Option.map]
  congr 2
  unfold finish
  rw [Complex.add_re, head_re F hy]
  simp only
  have g1 : s.sum1 = ∑ i ∈ Finset.range N, lcoef y (exp (-|u| * |u|)) expa2n2 1 i := by
    have := hg fun _ => 1
    simp only [mul_one] at this
    rw [h1, this]
  have g2 : s.sum2 + s.sum3 = ∑ i ∈ Finset.range N, lcoef y (exp (-|u| * |u|)) expa2n2 1 i * (2 * cosh (2 * (cA * (i + 1)) * |u|)) := by
    rw [h2, h3, hg, hg, ← Finset.sum_add_distrib]
    refine Finset.sum_congr rfl fun i _ => ?_
    rw [cosh_eq, one_div, ← exp_neg, ← exp_nat_mul, ← exp_nat_mul]
    push_cast
    rw [show ((i : ℝ) + 1) * -(2 * cA * |u|) = -(2 * (cA * (i + 1)) * |u|) by ring, show ((i : ℝ) + 1) * (2 * cA * |u|) = 2 * (cA * (i + 1)) * |u| by ring]
    ring
  rw [g1, g2, show -|u| * |u| = -|u| ^ 2 by ring]
  rw [mul_add (exp _), mul_add (exp _), Finset.mul_sum, Finset.mul_sum, Finset.mul_sum]
  have e2 : ∀ a b c d : ℝ, (a - ∑ i ∈ Finset.range N, b * lcoef y (exp (-|u| ^ 2)) expa2n2 1 i) * c + d +
      ∑ i ∈ Finset.range N, 0.5 * b * (lcoef y (exp (-|u| ^ 2)) expa2n2 1 i * (2 * cosh (2 * (cA * (i + 1)) * |u|))) =
      a * c + (d + ∑ i ∈ Finset.range N, b * lcoef y (exp (-|u| ^ 2)) expa2n2 1 i * (cosh (2 * (cA * (i + 1)) * |u|) - c)) := by
    intro a b c d
    rw [sub_mul, Finset.sum_mul]
    have : ∑ i ∈ Finset.range N, b * lcoef y (exp (-|u| ^ 2)) expa2n2 1 i * (cosh (2 * (cA * (i + 1)) * |u|) - c) =
        ∑ i ∈ Finset.range N, 0.5 * b * (lcoef y (exp (-|u| ^ 2)) expa2n2 1 i * (2 * cosh (2 * (cA * (i + 1)) * |u|))) -
        ∑ i ∈ Finset.range N, b * lcoef y (exp (-|u| ^ 2)) expa2n2 1 i * c := by
      rw [← Finset.sum_sub_distrib]
      refine Finset.sum_congr rfl fun i _ => ?_
      ring
    rw [this]
    ring
  rw [show (0.5 : ℝ) * cC * y = 0.5 * (cC * y) by ring, e2]
  congr 1
  · ring
  · congr 1
    · ring
    · refine Finset.sum_congr rfl fun i _ => ?_
      rw [lcoef_table]
      ring

/-- The core of the line: the profile is the Voigt function, as well as the value at the centre is. -/
theorem profile_core (F : RealFns) (fuel : ℕ) {u a d : ℝ} (hx : 5e-4 ≤ |u|) (h10 : |u| < 10) (ha : 0 < a) (h : ¬InWing u a)
    (hE : |F.erfcx a - voigtH a 0| ≤ d * voigtH a 0) :
    ∃ r, profile F fuel u a = .ok (some r) ∧ |r - voigtH a u| ≤ (d + 1e-12) * voigtH a u := by
  obtain ⟨N, hN, hd, hd2, hv⟩ := core_value F fuel hx h10 ha h
  refine ⟨_, hv, ?_⟩
  have h7 : a ≤ 7 := by
    by_contra hn
    exact h (Or.inl (not_le.1 hn))
  have hu : voigtH a u = voigtH a |u| := by
    rcases abs_choice u with e | e <;> rw [e]
    rw [voigtH_even]
  rw [hu]
  have hx0 : 0 < |u| := lt_of_lt_of_le (by norm_num) hx
  have h3 : exp (-(cA * (N : ℝ) - |u|) ^ 2) ≤ 7e-13 := (exp_le_exp.2 (by linarith)).trans exp28_le
  have := core_err (r := 4e-15) ha hx0 hN hd (by norm_num at h3 ⊢; linarith) (by norm_num) (meas_voigt hx0 ha h7) hE
  refine this.trans (mul_le_mul_of_nonneg_right ?_ (voigtH_pos ha _).le)
  norm_num

end Verif.Props
