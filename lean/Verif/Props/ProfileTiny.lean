import Verif.Props.ProfileCore
import Mathlib.Analysis.SpecialFunctions.Trigonometric.Series

/-!
Property C99: the line profile next to its centre, where the code replaces exponentials by Taylor polynomials.
-/

namespace Verif.Props
open Verif.Model.Faddeeva Verif.Spec Verif.VoigtSeries Real

/-- The exponentials of the tiny branch. -/
noncomputable def tinyEx (x : ℝ) : ℝ := 1 - x * x * (1 - 0.5 * (x * x))
/-- See `tinyEx`. -/
noncomputable def tinyUp (x : ℝ) : ℝ :=
  1 + 1.036642960860171859744 * x * (1 + 1.036642960860171859744 * x * (0.5 + 0.166666666666666666667 * (1.036642960860171859744 * x)))
/-- See `tinyEx`. -/
noncomputable def tinyDown (x : ℝ) : ℝ :=
  1 - 1.036642960860171859744 * x * (1 - 1.036642960860171859744 * x * (0.5 - 0.166666666666666666667 * (1.036642960860171859744 * x)))

theorem sums_tiny {x y : ℝ} (h0 : 0 ≤ x) (hx : x < 5e-4) : ∃ s, sums x y = .ok (tinyEx x, s) ∧
    loopTiny x y (tinyEx x) (tinyUp x) (tinyDown x) expa2n2 1 1 1 zeroSums = .ok s := by
  obtain ⟨r, hr⟩ := sums_ok (y := y) h0
  unfold sums at hr ⊢
  rw [if_pos hx] at hr ⊢
  simp only at hr ⊢
  change (loopTiny x y (tinyEx x) (tinyUp x) (tinyDown x) expa2n2 1 1 1 zeroSums).map _ = _ at hr
  change ∃ s, (loopTiny x y (tinyEx x) (tinyUp x) (tinyDown x) expa2n2 1 1 1 zeroSums).map (fun s => (tinyEx x, s)) = _ ∧ _
  cases h : loopTiny x y (tinyEx x) (tinyUp x) (tinyDown x) expa2n2 1 1 1 zeroSums with
  | error e => rw [h] at hr; simp [Except.map] at hr
  | ok s => exact ⟨s, rfl, rfl⟩

theorem tinyEx_near {x : ℝ} (h0 : 0 ≤ x) (hx : x < 5e-4) : RelNear 1e-15 (tinyEx x) (exp (-x ^ 2)) := by
  have hx2 : x ^ 2 ≤ 2.5e-7 := by
    calc x ^ 2 ≤ (5e-4 : ℝ) ^ 2 := by gcongr
      _ = 2.5e-7 := by norm_num
  have h := Real.exp_bound (x := -x ^ 2) (by rw [abs_neg, abs_of_nonneg (sq_nonneg x)]; exact hx2.trans (by norm_num)) (n := 3) (by norm_num)
  simp only [Finset.sum_range_succ, Finset.sum_range_zero, Nat.factorial] at h
  rw [abs_neg, abs_of_nonneg (sq_nonneg x)] at h
  have h1 : exp (-x ^ 2) ≥ 0.5 := by
    have := add_one_le_exp (-x ^ 2)
    norm_num at hx2 ⊢
    linarith
  unfold RelNear tinyEx
  have e : 1 - x * x * (1 - 0.5 * (x * x)) - exp (-x ^ 2) = -(exp (-x ^ 2) - (0 + (-x ^ 2) ^ 0 / ((1 : ℕ) : ℝ) + (-x ^ 2) ^ 1 / ((((0 + 1) * 1 : ℕ)) : ℝ) + (-x ^ 2) ^ 2 / (((1 + 1) * ((0 + 1) * 1) : ℕ) : ℝ))) := by
    norm_num
    ring
  rw [e, abs_neg]
  refine h.trans ?_
  have h3 : (x ^ 2) ^ 3 ≤ (2.5e-7 : ℝ) ^ 3 := by gcongr
  norm_num at h3 h1 ⊢
  linarith

theorem taylor3 {z : ℝ} (hz : |z| ≤ 5.2e-4) : |1 + z * (1 + z * (0.5 + 0.166666666666666666667 * z)) - exp z| ≤ 4e-15 := by
  have h := Real.exp_bound (x := z) (hz.trans (by norm_num)) (n := 4) (by norm_num)
  simp only [Finset.sum_range_succ, Finset.sum_range_zero, Nat.factorial] at h
  have e : 1 + z * (1 + z * (0.5 + 0.166666666666666666667 * z)) - exp z = -(exp z - (0 + z ^ 0 / ((1 : ℕ) : ℝ) + z ^ 1 / ((((0 + 1) * 1 : ℕ)) : ℝ) +
      z ^ 2 / (((1 + 1) * ((0 + 1) * 1) : ℕ) : ℝ) + z ^ 3 / (((2 + 1) * ((1 + 1) * ((0 + 1) * 1)) : ℕ) : ℝ))) + (0.166666666666666666667 - 1 / 6) * z ^ 3 := by
    norm_num
    ring
  rw [e]
  refine (abs_add_le _ _).trans ?_
  rw [abs_neg]
  have h4 : |z| ^ 4 ≤ (5.2e-4 : ℝ) ^ 4 := by gcongr
  have h3 : |(0.166666666666666666667 - 1 / 6) * z ^ 3| ≤ 1e-20 := by
    rw [abs_mul, abs_pow]
    have : |z| ^ 3 ≤ (5.2e-4 : ℝ) ^ 3 := by gcongr
    have h5 : |(0.166666666666666666667 - 1 / 6 : ℝ)| ≤ 1e-20 := by
      rw [abs_le]
      norm_num
    calc _ ≤ 1e-20 * (5.2e-4 : ℝ) ^ 3 := by gcongr
      _ ≤ _ := by norm_num
  norm_num at h4 h3 h ⊢
  linarith

theorem RelNear.pow {d a b : ℝ} (h : RelNear d a b) (hb : 0 ≤ b) (hd : 0 ≤ d) : ∀ n : ℕ, RelNear ((1 + d) ^ n - 1) (a ^ n) (b ^ n)
  | 0 => by simpa using RelNear.refl 1
  | n + 1 => by
    have ih := RelNear.pow h hb hd n
    have h1 : 1 ≤ (1 + d) ^ n := one_le_pow₀ (by linarith)
    have := ih.mul h (by positivity) hb (by linarith)
    rw [pow_succ, pow_succ, pow_succ]
    convert this using 1
    ring

/-- The powers of the Taylor polynomials. -/
theorem tiny_cosh {x : ℝ} (h0 : 0 ≤ x) (hx : x < 5e-4) {n : ℕ} (hn : n ≤ 51) :
    |(tinyUp x ^ n + tinyDown x ^ n) / 2 - cosh (2 * (cA * n) * x)| ≤ n * 8.4e-15 := by
  have hz1 : |1.036642960860171859744 * x| ≤ 5.2e-4 := by
    rw [abs_of_nonneg (by positivity)]
    norm_num at hx ⊢
    linarith
  have hz2 : |-(1.036642960860171859744 * x)| ≤ 5.2e-4 := by rwa [abs_neg]
  have t1 := taylor3 hz1
  have t2 := taylor3 hz2
  have e1 : 2 * cA * x = 1.036642960860171859744 * x := by
    unfold cA
    norm_num
  have u1 : RelNear 4.1e-15 (tinyUp x) (exp (2 * cA * x)) := by
    unfold RelNear tinyUp
    rw [e1]
    refine t1.trans ?_
    have : 1 ≤ exp (1.036642960860171859744 * x) := one_le_exp (by positivity)
    generalize exp (1.036642960860171859744 * x) = g at this ⊢
    norm_num at this ⊢
    linarith
  have u2 : RelNear 4.1e-15 (tinyDown x) (exp (-(2 * cA * x))) := by
    unfold RelNear tinyDown
    rw [e1]
    have e : 1 - 1.036642960860171859744 * x * (1 - 1.036642960860171859744 * x * (0.5 - 0.166666666666666666667 * (1.036642960860171859744 * x))) =
      1 + -(1.036642960860171859744 * x) * (1 + -(1.036642960860171859744 * x) * (0.5 + 0.166666666666666666667 * -(1.036642960860171859744 * x))) := by ring
    rw [e]
    refine t2.trans ?_
    have h3 := add_one_le_exp (-(1.036642960860171859744 * x))
    norm_num at h3 hx ⊢
    linarith
  have hp : (1 + 4.1e-15 : ℝ) ^ n - 1 ≤ n * 8.2e-15 := by
    have hn' : (n : ℝ) ≤ 51 := by exact_mod_cast hn
    have h1 : (1 + 4.1e-15 : ℝ) ^ n ≤ exp (n * 4.1e-15) := by
      rw [exp_nat_mul]
      gcongr
      have := add_one_le_exp (4.1e-15 : ℝ)
      linarith
    have hnn : (0 : ℝ) ≤ n * 4.1e-15 := by positivity
    have h2 := abs_exp_sub_one_le (x := (n : ℝ) * 4.1e-15) (by rw [abs_of_nonneg hnn]; norm_num; linarith)
    rw [abs_of_nonneg hnn] at h2
    have := (abs_le.1 h2).2
    norm_num at this h1 ⊢
    linarith
  have p1 := (u1.pow (exp_pos _).le (by norm_num) n).mono (by positivity) hp
  have p2 := (u2.pow (exp_pos _).le (by norm_num) n).mono (by positivity) hp
  have c1 : cosh (2 * (cA * n) * x) = (exp (2 * cA * x) ^ n + exp (-(2 * cA * x)) ^ n) / 2 := by
    rw [cosh_eq, ← exp_nat_mul, ← exp_nat_mul]
    ring_nf
  unfold RelNear at p1 p2
  have c2 : cosh (2 * (cA * n) * x) ≤ 1.02 := by
    have hn' : (n : ℝ) ≤ 51 := by exact_mod_cast hn
    have hA := cA_pos
    have h1 : 2 * (cA * n) * x ≤ 0.1 := by
      have : 2 * (cA * n) * x ≤ 2 * (cA * 51) * 5e-4 := by gcongr
      refine this.trans ?_
      unfold cA
      norm_num
    have h3 : cosh (2 * (cA * n) * x) ≤ cosh 0.1 := by
      rw [cosh_le_cosh, abs_of_nonneg (by positivity), abs_of_nonneg (by norm_num)]
      exact h1
    refine h3.trans ?_
    have := cosh_le_exp_half_sq 0.1
    refine this.trans ?_
    have h4 := abs_exp_sub_one_le (x := (0.1 : ℝ) ^ 2 / 2) (by rw [abs_of_nonneg (by positivity)]; norm_num)
    rw [abs_of_nonneg (a := (0.1 : ℝ) ^ 2 / 2) (by positivity)] at h4
    have := (abs_le.1 h4).2
    norm_num at this ⊢
    linarith
  have c3 : (tinyUp x ^ n + tinyDown x ^ n) / 2 - cosh (2 * (cA * n) * x) = ((tinyUp x ^ n - exp (2 * cA * x) ^ n) + (tinyDown x ^ n - exp (-(2 * cA * x)) ^ n)) / 2 := by
    rw [c1]
    ring
  rw [c3, abs_div, abs_of_pos (by norm_num : (0 : ℝ) < 2), div_le_iff₀ (by norm_num)]
  refine (abs_add_le _ _).trans ((add_le_add p1 p2).trans ?_)
  rw [← mul_add, show exp (2 * cA * x) ^ n + exp (-(2 * cA * x)) ^ n = 2 * cosh (2 * (cA * n) * x) by rw [c1]; ring]
  have hn0 : (0 : ℝ) ≤ n := Nat.cast_nonneg n
  calc (n : ℝ) * 8.2e-15 * (2 * cosh (2 * (cA * n) * x)) ≤ n * 8.2e-15 * (2 * 1.02) := by gcongr
    _ ≤ _ := by norm_num; linarith

/-- What the code computes next to the centre. -/
theorem tiny_value (F : RealFns) (fuel : ℕ) {u y : ℝ} (hu : u ≠ 0) (hx : |u| < 5e-4) (hy : 0 < y) (h : ¬InWing u y) :
    ∃ N : ℕ, N ≤ 51 ∧ 10 ≤ N ∧ profile F fuel u y = .ok (some (tinyEx |u| * (F.erfcx y * cos (2 * |u| * y) +
      (cC * |u| * sin (|u| * y) * sinc (|u| * y) (sin (|u| * y)) +
      ∑ i ∈ Finset.range N, cC * y * (tabAt i / (cA2 * ((i : ℝ) + 1) ^ 2 + y ^ 2)) * ((tinyUp |u| ^ (i + 1) + tinyDown |u| ^ (i + 1)) / 2 - cos (2 * |u| * y)))))) := by
  obtain ⟨s, hs, hl⟩ := sums_tiny (y := y) (abs_nonneg u) hx
  obtain ⟨k, hk, h1, h2, h3, h6⟩ := loopTiny_sums _ _ _ _ _ _ hl
  rw [h3] at h6
  simp only [zeroSums, zero_add] at h1 h2 h3 h6
  have hpos : 0 < tinyEx |u| := by
    have h4 := tinyEx_near (abs_nonneg u) hx
    have h5 := exp_pos (-|u| ^ 2)
    unfold RelNear at h4
    have := (abs_le.1 h4).1
    generalize exp (-|u| ^ 2) = g at this h5
    norm_num at this
    linarith
  have hup : 1 ≤ tinyUp |u| := by
    unfold tinyUp
    have : 0 ≤ 1.036642960860171859744 * |u| * (1 + 1.036642960860171859744 * |u| * (0.5 + 0.166666666666666666667 * (1.036642960860171859744 * |u|))) := by positivity
    linarith
  obtain ⟨N, hN, hN10, hg⟩ : ∃ N ≤ 51, 10 ≤ N ∧ (∀ g : ℕ → ℝ, ∑ i ∈ Finset.range (k + 1), lcoef y (tinyEx |u|) expa2n2 1 i * g i =
      ∑ i ∈ Finset.range N, lcoef y (tinyEx |u|) expa2n2 1 i * g i) := by
    by_cases h : k < 51
    · exact ⟨k + 1, by omega, stop_tiny h hy hpos hup h6, fun g => rfl⟩
    · have hk51 : k = 51 := by
        rw [table_length] at hk
        omega
      refine ⟨51, le_rfl, by norm_num, fun g => ?_⟩
      rw [hk51, Finset.sum_range_succ, lcoef_table, tabAt_last]
      simp
  refine ⟨N, hN, hN10, ?_⟩
  have h' : ¬useCF |u| |y| := by
    rw [abs_of_pos hy]
    exact h
  have h10 : |u| < 10 := lt_trans hx (by norm_num)
  unfold profile w
  simp only [hu, hy.ne', if_false, if_neg h', if_pos h10, hs, Except.map, Option.map]
  congr 2
  unfold finish
  rw [Complex.add_re, head_re F hy]
  simp only
  have g1 : s.sum1 = ∑ i ∈ Finset.range N, lcoef y (tinyEx |u|) expa2n2 1 i := by
    have := hg fun _ => 1
    simp only [mul_one] at this
    rw [h1, this]
  have g2 : s.sum2 + s.sum3 = ∑ i ∈ Finset.range N, lcoef y (tinyEx |u|) expa2n2 1 i * (tinyUp |u| ^ (i + 1) + tinyDown |u| ^ (i + 1)) := by
    rw [h2, h3, hg, hg, ← Finset.sum_add_distrib]
    refine Finset.sum_congr rfl fun i _ => ?_
    ring
  rw [g1, g2]
  rw [mul_add (tinyEx |u|), mul_add (tinyEx |u|), Finset.mul_sum, Finset.mul_sum, Finset.mul_sum]
  have e2 : ∀ a b c d : ℝ, (a - ∑ i ∈ Finset.range N, b * lcoef y (tinyEx |u|) expa2n2 1 i) * c + d +
      ∑ i ∈ Finset.range N, 0.5 * b * (lcoef y (tinyEx |u|) expa2n2 1 i * (tinyUp |u| ^ (i + 1) + tinyDown |u| ^ (i + 1))) =
      a * c + (d + ∑ i ∈ Finset.range N, b * lcoef y (tinyEx |u|) expa2n2 1 i * ((tinyUp |u| ^ (i + 1) + tinyDown |u| ^ (i + 1)) / 2 - c)) := by
    intro a b c d
    rw [sub_mul, Finset.sum_mul]
    have : ∑ i ∈ Finset.range N, b * lcoef y (tinyEx |u|) expa2n2 1 i * ((tinyUp |u| ^ (i + 1) + tinyDown |u| ^ (i + 1)) / 2 - c) =
        ∑ i ∈ Finset.range N, 0.5 * b * (lcoef y (tinyEx |u|) expa2n2 1 i * (tinyUp |u| ^ (i + 1) + tinyDown |u| ^ (i + 1))) -
        ∑ i ∈ Finset.range N, b * lcoef y (tinyEx |u|) expa2n2 1 i * c := by
      rw [← Finset.sum_sub_distrib]
      refine Finset.sum_congr rfl fun i _ => ?_
      ring
    rw [this]
    ring
  rw [show (0.5 : ℝ) * cC * y = 0.5 * (cC * y) by ring, e2]
  congr 1
  · ring
  · congr 1
    · ring
    · refine Finset.sum_congr rfl fun i _ => ?_
      rw [lcoef_table]
      ring

theorem exp26_le : exp (-26) ≤ 6e-12 := by
  have h : exp (-1) ≤ 0.36788 := by
    rw [exp_neg, inv_le_comm₀ (exp_pos _) (by norm_num)]
    have := exp_one_gt_d9
    norm_num at this ⊢
    linarith
  have e : exp (-26) = exp (-1) ^ 26 := by
    rw [← exp_nat_mul]
    norm_num
  rw [e]
  calc exp (-1) ^ 26 ≤ (0.36788 : ℝ) ^ 26 := by gcongr
    _ ≤ 6e-12 := by norm_num

/-- Next to the centre. -/
theorem profile_tiny (F : RealFns) (fuel : ℕ) {u a d : ℝ} (hu : u ≠ 0) (hx : |u| < 5e-4) (ha : 0 < a) (h : ¬InWing u a) (hd1 : d ≤ 1)
    (hE : |F.erfcx a - voigtH a 0| ≤ d * voigtH a 0) :
    ∃ r, profile F fuel u a = .ok (some r) ∧ |r - voigtH a u| ≤ (d + 1e-12) * voigtH a u := by
  obtain ⟨N, hN, hN10, hv⟩ := tiny_value F fuel hu hx ha h
  refine ⟨_, hv, ?_⟩
  have h7 : a ≤ 7 := by
    by_contra hn
    exact h (Or.inl (not_le.1 hn))
  have huv : voigtH a u = voigtH a |u| := by
    rcases abs_choice u with e | e <;> rw [e]
    rw [voigtH_even]
  rw [huv]
  have hx0 : 0 < |u| := abs_pos.2 hu
  generalize |u| = x at *
  have hA := cA_pos
  have hH := voigtH_pos ha x
  have hN' : (10 : ℝ) ≤ N := by exact_mod_cast hN10
  have hd5 : 5.1 ≤ cA * (N : ℝ) - x := by
    have : cA * 10 ≤ cA * N := by gcongr
    have h2 : 5.18 ≤ cA * 10 := by
      unfold cA
      norm_num
    norm_num at h2 hx ⊢
    linarith
  have h3 : exp (-(cA * (N : ℝ) - x) ^ 2) ≤ 6e-12 := by
    refine (exp_le_exp.2 ?_).trans exp26_le
    have : (5.1 : ℝ) ^ 2 ≤ (cA * (N : ℝ) - x) ^ 2 := by gcongr
    norm_num at this ⊢
    linarith
  have hx2 : x ^ 2 ≤ 2.5e-7 := by
    calc x ^ 2 ≤ (5e-4 : ℝ) ^ 2 := by gcongr
      _ = 2.5e-7 := by norm_num
  have c1 := core_err (r := 3e-14) ha hx0 hN (by norm_num at hd5; linarith) (by norm_num at h3 ⊢; linarith) (by norm_num)
    (meas_voigt_small hx0.le (by norm_num at hx2; linarith) ha h7) hE
  -- the terms with the polynomials in place of the exponentials
  set S := ∑ i ∈ Finset.range N, cC * a * (tabAt i / (cA2 * ((i : ℝ) + 1) ^ 2 + a ^ 2)) * (cosh (2 * (cA * (i + 1)) * x) - cos (2 * x * a)) with hS
  set S' := ∑ i ∈ Finset.range N, cC * a * (tabAt i / (cA2 * ((i : ℝ) + 1) ^ 2 + a ^ 2)) * ((tinyUp x ^ (i + 1) + tinyDown x ^ (i + 1)) / 2 - cos (2 * x * a)) with hS'
  have hdiff : |S' - S| ≤ 51 * (1.2e-14 * voigtH a x) := by
    rw [hS, hS', ← Finset.sum_sub_distrib]
    refine (Finset.abs_sum_le_sum_abs _ _).trans ?_
    have : ∀ i ∈ Finset.range N, |cC * a * (tabAt i / (cA2 * ((i : ℝ) + 1) ^ 2 + a ^ 2)) * ((tinyUp x ^ (i + 1) + tinyDown x ^ (i + 1)) / 2 - cos (2 * x * a)) -
        cC * a * (tabAt i / (cA2 * ((i : ℝ) + 1) ^ 2 + a ^ 2)) * (cosh (2 * (cA * (i + 1)) * x) - cos (2 * x * a))| ≤ 1.2e-14 * voigtH a x := by
      intro i hi
      have hi51 : i < 51 := lt_of_lt_of_le (Finset.mem_range.1 hi) hN
      have hc := tiny_cosh hx0.le hx (n := i + 1) (by omega)
      push_cast at hc
      have ht := tabAt_near hi51
      have hA2 := cA2_pos
      have hC : cC ≤ 0.33 := by
        unfold cC
        norm_num
      have hC0 : 0 < cC := by
        unfold cC
        norm_num
      rw [← mul_sub, sub_sub_sub_cancel_right, abs_mul, abs_mul, abs_of_pos (by positivity : 0 < cC * a), abs_div,
        abs_of_pos (by positivity : 0 < cA2 * ((i : ℝ) + 1) ^ 2 + a ^ 2)]
      have hi0 : (0 : ℝ) ≤ i := Nat.cast_nonneg i
      have hg : ((i : ℝ) + 1) * |tabAt i| ≤ 1.01 := by
        have h1 : |tabAt i| ≤ 1.001 * exp (-(cA * (i + 1)) ^ 2) := by
          have hp := exp_pos (-(cA * ((i : ℝ) + 1)) ^ 2)
          rw [abs_le] at ht ⊢
          norm_num at ht ⊢
          constructor <;> linarith [ht.1, ht.2]
        have h2 : ((i : ℝ) + 1) * exp (-(cA * (i + 1)) ^ 2) ≤ 1 := by
          rw [exp_neg, mul_inv_le_iff₀ (exp_pos _), one_mul]
          have h3 := add_one_le_exp ((cA * ((i : ℝ) + 1)) ^ 2)
          refine le_trans ?_ h3
          have h4 : (0.268 : ℝ) ≤ cA ^ 2 := by
            unfold cA
            norm_num
          rw [mul_pow]
          have h5 : 0.268 * ((i : ℝ) + 1) ^ 2 ≤ cA ^ 2 * ((i : ℝ) + 1) ^ 2 := by gcongr
          norm_num at h5
          nlinarith [sq_nonneg (0.536 * ((i : ℝ) + 1) - 1)]
        calc ((i : ℝ) + 1) * |tabAt i| ≤ ((i : ℝ) + 1) * (1.001 * exp (-(cA * (i + 1)) ^ 2)) := by gcongr
          _ = 1.001 * (((i : ℝ) + 1) * exp (-(cA * (i + 1)) ^ 2)) := by ring
          _ ≤ 1.001 * 1 := by gcongr
          _ ≤ _ := by norm_num
      have hD : 0.53 * (x ^ 2 + a ^ 2 + 1 / 2) ≤ cA2 * ((i : ℝ) + 1) ^ 2 + a ^ 2 := by
        have h1 : (0.268 : ℝ) * 1 ≤ cA2 * ((i : ℝ) + 1) ^ 2 := by
          gcongr
          · unfold cA2
            norm_num
          · nlinarith
        norm_num at h1 hx2 ⊢
        nlinarith [sq_nonneg a]
      have hs : √π ≤ 1.78 := by
        rw [sqrt_le_left (by norm_num)]
        have := pi_lt_d2
        norm_num at this ⊢
        linarith
      have hlo := Hermite.voigtH_ge_lorentz ha x
      have hD0 : 0 < x ^ 2 + a ^ 2 + 1 / 2 := by positivity
      calc cC * a * (|tabAt i| / (cA2 * ((i : ℝ) + 1) ^ 2 + a ^ 2)) * |(tinyUp x ^ (i + 1) + tinyDown x ^ (i + 1)) / 2 - cosh (2 * (cA * (i + 1)) * x)|
          ≤ 0.33 * a * (|tabAt i| / (0.53 * (x ^ 2 + a ^ 2 + 1 / 2))) * (((i : ℝ) + 1) * 8.4e-15) := by gcongr
        _ = 0.33 * 8.4e-15 / 0.53 * (((i : ℝ) + 1) * |tabAt i|) * √π * (a / (√π * (x ^ 2 + a ^ 2 + 1 / 2))) := by
          have : 0 < √π := sqrt_pos.2 pi_pos
          field_simp
        _ ≤ 0.33 * 8.4e-15 / 0.53 * 1.01 * 1.78 * voigtH a x := by gcongr
        _ ≤ _ := by
          gcongr
          norm_num
    refine (Finset.sum_le_sum this).trans ?_
    rw [Finset.sum_const, Finset.card_range, nsmul_eq_mul]
    have : (N : ℝ) ≤ 51 := by exact_mod_cast hN
    gcongr
  have hex := tinyEx_near hx0.le hx
  unfold RelNear at hex
  have he1 : exp (-x ^ 2) ≤ 1 := exp_le_one_iff.2 (by nlinarith)
  have he0 := exp_pos (-x ^ 2)
  generalize F.erfcx a * cos (2 * x * a) = P at *
  generalize cC * x * sin (x * a) * sinc (x * a) (sin (x * a)) = Q at *
  have hd0 : 0 ≤ d := by
    by_contra hn
    have : d * voigtH a 0 < 0 := mul_neg_of_neg_of_pos (not_le.1 hn) (voigtH_pos ha 0)
    linarith [abs_nonneg (F.erfcx a - voigtH a 0)]
  have c2 : |exp (-x ^ 2) * (P + (Q + S')) - voigtH a x| ≤ (d + 8e-13) * voigtH a x := by
    have e : exp (-x ^ 2) * (P + (Q + S')) - voigtH a x = (exp (-x ^ 2) * (P + (Q + S)) - voigtH a x) + exp (-x ^ 2) * (S' - S) := by ring
    rw [e]
    refine (abs_add_le _ _).trans ?_
    have h4 : |exp (-x ^ 2) * (S' - S)| ≤ 1 * (51 * (1.2e-14 * voigtH a x)) := by
      rw [abs_mul, abs_of_pos he0]
      gcongr
    have h5 : (d + (4e-16 + 3e-14) * (100 * x ^ 2)) * voigtH a x ≤ (d + 1e-13) * voigtH a x := by
      gcongr
      norm_num at hx2 ⊢
      linarith
    have h6 := c1.trans h5
    norm_num at h4 h6 ⊢
    linarith
  set V := P + (Q + S') with hV
  have e : tinyEx x * V - voigtH a x = (tinyEx x - exp (-x ^ 2)) * V + (exp (-x ^ 2) * V - voigtH a x) := by ring
  rw [e]
  refine (abs_add_le _ _).trans ?_
  have h8 : |(tinyEx x - exp (-x ^ 2)) * V| ≤ 1e-15 * (3 * voigtH a x) := by
    rw [abs_mul]
    have h9 : exp (-x ^ 2) * |V| ≤ 3 * voigtH a x := by
      have h10 : |exp (-x ^ 2) * V| ≤ |exp (-x ^ 2) * V - voigtH a x| + |voigtH a x| := by
        have := abs_add_le (exp (-x ^ 2) * V - voigtH a x) (voigtH a x)
        simpa using this
      rw [abs_mul, abs_of_pos he0, abs_of_pos hH] at h10
      have h11 : (d + 8e-13) * voigtH a x ≤ 2 * voigtH a x := by
        gcongr
        norm_num
        linarith
      linarith
    calc |tinyEx x - exp (-x ^ 2)| * |V| ≤ (1e-15 * exp (-x ^ 2)) * |V| := by gcongr
      _ = 1e-15 * (exp (-x ^ 2) * |V|) := by ring
      _ ≤ _ := by gcongr
  norm_num at h8 c2 ⊢
  linarith

end Verif.Props
