import Verif.Props.LineProfile
import Verif.Lemmas.HermiteWing

/-!
The line profile in the damping wings for small damping parameters.
-/

namespace Verif.Props
open Verif.Model.Faddeeva Verif.Spec Verif.Hermite Real

theorem exp_neg_le {x : ℝ} (n : ℕ) (h : (n : ℝ) ≤ x) : exp (-x) ≤ 0.36788 ^ n := by
  have h1 : exp (-1) ≤ 0.36788 := by
    rw [exp_neg, inv_le_comm₀ (exp_pos _) (by norm_num)]
    have := exp_one_gt_d9
    norm_num at this ⊢
    linarith
  have e : exp (-(n : ℝ)) = exp (-1) ^ n := by
    rw [← exp_nat_mul]
    ring_nf
  calc exp (-x) ≤ exp (-(n : ℝ)) := exp_le_exp.2 (by linarith)
    _ = exp (-1) ^ n := e
    _ ≤ 0.36788 ^ n := by gcongr

/-- The Gaussian near the argument is nothing against the damping wing. -/
theorem wing_gauss {u a : ℝ} (hu : 8 ≤ u) (ha : 1e-10 < a ∨ 28 < u ∧ 1e-100 ≤ a) {n : ℕ} (hn : n ≤ 19) :
    (u ^ 2 + 3 / 2) * exp (9 / 2 * n * (1 / 4) / u - (u - 1 / 4) ^ 2) ≤ 1e-12 * a := by
  set w := u ^ 2 - 64 with hw
  have hw0 : 0 ≤ w := by rw [hw]; nlinarith
  have hn' : (n : ℝ) ≤ 19 := by exact_mod_cast hn
  have h1 : 9 / 2 * (n : ℝ) * (1 / 4) / u ≤ 2.7 := by
    rw [div_le_iff₀ (by linarith)]
    norm_num
    linarith
  have h2 : 60 + 15 / 16 * w ≤ (u - 1 / 4) ^ 2 := by
    rw [hw]
    nlinarith
  have h3 : u ^ 2 + 3 / 2 ≤ 65.5 * exp (w / 65.5) := by
    have := add_one_le_exp (w / 65.5)
    have e : u ^ 2 + 3 / 2 = 65.5 * (w / 65.5 + 1) := by
      rw [hw]
      norm_num
      ring
    rw [e]
    gcongr
  have h4 : (u ^ 2 + 3 / 2) * exp (9 / 2 * n * (1 / 4) / u - (u - 1 / 4) ^ 2) ≤ 65.5 * exp (-(57 + 9 / 10 * w)) := by
    calc (u ^ 2 + 3 / 2) * exp (9 / 2 * n * (1 / 4) / u - (u - 1 / 4) ^ 2) ≤ 65.5 * exp (w / 65.5) * exp (2.7 - (60 + 15 / 16 * w)) := by
          gcongr
      _ = 65.5 * exp (w / 65.5 + (2.7 - (60 + 15 / 16 * w))) := by rw [mul_assoc, ← exp_add]
      _ ≤ _ := by
        gcongr
        norm_num
        linarith
  refine h4.trans ?_
  rcases ha with ha | ⟨h28, ha⟩
  · have h5 := exp_neg_le 57 (x := 57 + 9 / 10 * w) (by norm_num; linarith)
    calc 65.5 * exp (-(57 + 9 / 10 * w)) ≤ 65.5 * 0.36788 ^ 57 := by gcongr
      _ ≤ 1e-12 * 1e-10 := by norm_num
      _ ≤ _ := by gcongr
  · have hw2 : 720 ≤ w := by rw [hw]; nlinarith
    have h5 := exp_neg_le 400 (x := 57 + 9 / 10 * w) (by norm_num; linarith)
    have h6 : (0.36788 : ℝ) ^ 400 ≤ 1e-170 := by
      have : (0.36788 : ℝ) ^ 400 = ((0.36788 : ℝ) ^ 100) ^ 4 := by rw [← pow_mul]
      rw [this]
      have h7 : (0.36788 : ℝ) ^ 100 ≤ 1e-43 := by norm_num
      calc ((0.36788 : ℝ) ^ 100) ^ 4 ≤ (1e-43 : ℝ) ^ 4 := by gcongr
        _ ≤ 1e-170 := by norm_num
    calc 65.5 * exp (-(57 + 9 / 10 * w)) ≤ 65.5 * 1e-170 := by
          gcongr
          exact h5.trans h6
      _ ≤ 1e-12 * 1e-100 := by norm_num
      _ ≤ _ := by gcongr

/-- The value of the fraction of the code. -/
theorem cfn_of_rel {u a ε : ℝ} (ha : 0 < a) {n : ℕ} (hn : cfTerms |u| a = n) (h3 : 3 ≤ n) (hne : hB (⟨u, a⟩ : ℂ) n ≠ 0)
    (hrel : |(Complex.I / (√π : ℝ) * (hA (⟨u, a⟩ : ℂ) n / hB (⟨u, a⟩ : ℂ) n)).re - voigtH a u| ≤ ε * voigtH a u) :
    |(cfn |u| u a).re - voigtH a u| ≤ (ε + 1e-19 * (1 + ε)) * voigtH a u := by
  set z : ℂ := ⟨u, a⟩ with hzd
  have hz : 0 < z.im := ha
  have e := cfn_eq hz (x := |u|) hn (by omega) hne
  have e1 : cfn |u| u a = cfn |u| z.re z.im := rfl
  have hs0 : ((√π : ℝ) : ℂ) ≠ 0 := by
    rw [Complex.ofReal_ne_zero]
    exact (sqrt_pos.2 pi_pos).ne'
  have e2 : ((ispi : ℝ) : ℂ) * (Complex.I * (hA z n / hB z n)) = ((ispi * √π : ℝ) : ℂ) * (Complex.I / (√π : ℝ) * (hA z n / hB z n)) := by
    push_cast
    field_simp
  rw [e1, e, e2, Complex.re_ofReal_mul]
  exact scale_err (voigtH_pos ha u) hrel

/-- The continued fraction for a small damping parameter. -/
theorem cfn_err_small {u a : ℝ} (hu : 8 ≤ u) (ha1 : a ≤ 1) (ha : 1e-10 < a ∨ 28 < u ∧ 1e-100 ≤ a) (h : useCF |u| a) :
    |(cfn |u| u a).re - voigtH a u| ≤ 5e-10 * voigtH a u := by
  have ha0 : 0 < a := by
    rcases ha with ha | ⟨-, ha⟩
    · exact lt_trans (by norm_num) ha
    · exact lt_of_lt_of_le (by norm_num) ha
  obtain ⟨n, hn, h3, h19, hs⟩ := cfTerms_range (abs_nonneg u) ha0 h
  set z : ℂ := ⟨u, a⟩ with hzd
  have hz : 0 < z.im := ha0
  have hnsq : ‖z‖ ^ 2 = |u| ^ 2 + a ^ 2 := by
    rw [Complex.sq_norm, Complex.normSq_apply, sq_abs]
    simp only [hzd]
    ring
  have h6 : 6 ≤ ‖z‖ := by
    have := cf_radius (abs_nonneg u) ha0 h
    rw [← hnsq] at this
    exact abs_le_of_sq_le_sq' this (norm_nonneg z) |>.2
  obtain ⟨k1, k2⟩ := wing_err h3 h19 hnsq (norm_nonneg z) (abs_nonneg u) ha0 h6 hs
  have hmax : max 1 (a ^ 2) = 1 := max_eq_left (by nlinarith)
  rw [hmax, mul_one] at k2
  have hn' : (n : ℝ) ≤ 18 := by
    have h1 := Int.floor_le ((3.9 + 11.398 / (0.08254 * |u| + 0.1421 * a + 0.2023) : ℝ))
    have e : (⌊(3.9 + 11.398 / (0.08254 * |u| + 0.1421 * a + 0.2023) : ℝ)⌋ : ℝ) = n := by
      have : cfTerms |u| a = (n : ℤ) := hn
      unfold cfTerms at this
      rw [this]
      simp
    rw [e] at h1
    have h2 : 11.398 / (0.08254 * |u| + 0.1421 * a + 0.2023) ≤ 14 := by
      have := le_abs_self u
      rw [div_le_iff₀ (by positivity)]
      norm_num
      linarith
    have h3 : (3.9 : ℝ) + 14 ≤ 18 := by norm_num
    linarith
  have hn0 : (0 : ℝ) ≤ n := Nat.cast_nonneg n
  obtain ⟨hne, hrel⟩ := cf_rel_wing hz (δ := 1 / 4) (by omega : 1 ≤ n) (by norm_num) (show (1 / 4 : ℝ) < u by linarith)
    (by simp only [hzd]; nlinarith) k2
  have hg := wing_gauss hu ha h19
  have hur : u ≤ ‖z‖ := (le_abs_self u).trans (Complex.abs_re_le_norm z)
  have hH := voigtH_pos ha0 u
  have hs1 : 1 ≤ √π := one_le_sqrt.2 (by linarith [pi_gt_three])
  refine (cfn_of_rel (ε := 4e-10) ha0 hn h3 hne (hrel.trans (mul_le_mul_of_nonneg_right ?_ hH.le))).trans (mul_le_mul_of_nonneg_right (by norm_num) hH.le)
  have t1 : 9 / 2 * (n : ℝ) / (‖z‖ * (1 / 4)) ≤ 42.75 := by
    rw [div_le_iff₀ (by positivity)]
    norm_num
    nlinarith
  have t2 : 9 / 2 * (n : ℝ) * (1 / 4) / ‖z‖ ≤ 2.7 := by
    rw [div_le_iff₀ (by positivity)]
    norm_num
    nlinarith
  have t3 : 4e-12 * (1 / (1 / 4) ^ 2 + 9 / 2 * (n : ℝ) / (‖z‖ * (1 / 4))) ≤ 2.4e-10 := by
    norm_num at t1 ⊢
    linarith
  have t4 : (‖z‖ ^ 2 + 1 / 2) * exp (9 / 2 * n * (1 / 4) / z.re - (z.re - 1 / 4) ^ 2) * (π + 9 / 2 * n * (1 / 4) / ‖z‖) / (√π * z.im) ≤ 1e-10 := by
    have e1 : z.re = u := rfl
    have e2 : z.im = a := rfl
    rw [e1, e2, div_le_iff₀ (by positivity), hnsq, sq_abs]
    have t5 : (u ^ 2 + a ^ 2 + 1 / 2) * exp (9 / 2 * n * (1 / 4) / u - (u - 1 / 4) ^ 2) ≤ 1e-12 * a := by
      refine le_trans (mul_le_mul_of_nonneg_right ?_ (exp_pos _).le) hg
      nlinarith
    have t6 : π + 9 / 2 * (n : ℝ) * (1 / 4) / ‖z‖ ≤ 7 := by
      have := pi_lt_d2
      norm_num at this t2 ⊢
      linarith
    calc (u ^ 2 + a ^ 2 + 1 / 2) * exp (9 / 2 * n * (1 / 4) / u - (u - 1 / 4) ^ 2) * (π + 9 / 2 * n * (1 / 4) / ‖z‖) ≤ 1e-12 * a * 7 :=
          mul_le_mul t5 t6 (by have := pi_pos; positivity) (by positivity)
      _ ≤ 1e-10 * (1 * a) := by norm_num; linarith
      _ ≤ 1e-10 * (√π * a) := by gcongr
  norm_num at t3 t4 ⊢
  linarith

/-- Two terms of the fraction. -/
theorem cf2_value {u a : ℝ} (ha : 0 < a) (hu : u ≠ 0) :
    (cf2 u a).re = ispi * √π * (Complex.I / (√π : ℝ) * (hA (⟨u, a⟩ : ℂ) 2 / hB (⟨u, a⟩ : ℂ) 2)).re := by
  set z : ℂ := ⟨u, a⟩ with hz
  set dr := u * u - a * a - 0.5 with hdr
  set di := 2 * u * a with hdi
  have hD : 0 < dr * dr + di * di := by
    have h1 := mul_self_nonneg dr
    have h2 : 0 < di * di := mul_self_pos.2 (by rw [hdi]; simp [hu, ha.ne'])
    linarith
  have hBz : hB z 2 = ⟨dr, di⟩ := by
    simp only [hB, hz]
    apply Complex.ext
    · simp [hdr]
      norm_num
    · simp [hdi]
      ring
  have hAz : hA z 2 = z := by simp [hA]
  rw [hAz, hBz]
  have hs : 0 < √π := sqrt_pos.2 pi_pos
  have e : Complex.I / (√π : ℝ) * (z / ⟨dr, di⟩) = ((1 / √π : ℝ) : ℂ) * (Complex.I * (z / ⟨dr, di⟩)) := by
    push_cast
    ring
  rw [e, Complex.re_ofReal_mul, Complex.I_mul_re, Complex.div_im]
  have hn : Complex.normSq (⟨dr, di⟩ : ℂ) = dr * dr + di * di := rfl
  rw [hn]
  unfold cf2
  simp only [← hdr, ← hdi, hz]
  field_simp
  ring

theorem far_gauss {u a : ℝ} (hu : 2000 ≤ u) (ha : 1e-100 ≤ a) : (2 * u ^ 2 + 1 / 2) * exp (9 / 4 - (3 / 4 * u) ^ 2) ≤ 1e-20 * a := by
  have hX : 4000000 ≤ u ^ 2 := by nlinarith
  have h1 : 2 * u ^ 2 + 1 / 2 ≤ 48 * exp (u ^ 2 / 16) := by
    have := add_one_le_exp (u ^ 2 / 16)
    linarith
  have h2 := exp_neg_le 400 (x := u ^ 2 / 2 - 9 / 4) (by norm_num; linarith)
  have h6 : (0.36788 : ℝ) ^ 400 ≤ 1e-170 := by
    have : (0.36788 : ℝ) ^ 400 = ((0.36788 : ℝ) ^ 100) ^ 4 := by rw [← pow_mul]
    rw [this]
    have h7 : (0.36788 : ℝ) ^ 100 ≤ 1e-43 := by norm_num
    calc ((0.36788 : ℝ) ^ 100) ^ 4 ≤ (1e-43 : ℝ) ^ 4 := by gcongr
      _ ≤ 1e-170 := by norm_num
  calc (2 * u ^ 2 + 1 / 2) * exp (9 / 4 - (3 / 4 * u) ^ 2) ≤ 48 * exp (u ^ 2 / 16) * exp (9 / 4 - (3 / 4 * u) ^ 2) := by gcongr
    _ = 48 * exp (-(u ^ 2 / 2 - 9 / 4)) := by
      rw [mul_assoc, ← exp_add]
      congr 2
      ring
    _ ≤ 48 * 1e-170 := by
      gcongr
      exact h2.trans h6
    _ ≤ 1e-20 * 1e-100 := by norm_num
    _ ≤ _ := by gcongr

/-- The two terms used beyond 4000 widths. -/
theorem cf2_accurate {u a : ℝ} (hu : 0 < u) (ha : 1e-100 ≤ a) (h : 4000 < u + a) : |(cf2 u a).re - voigtH a u| ≤ 1e-12 * voigtH a u := by
  have ha0 : 0 < a := lt_of_lt_of_le (by norm_num) ha
  have hH := voigtH_pos ha0 u
  rw [cf2_value ha0 hu.ne']
  set z : ℂ := ⟨u, a⟩ with hzd
  have hz : 0 < z.im := ha0
  have hnsq : ‖z‖ ^ 2 = u ^ 2 + a ^ 2 := by
    rw [Complex.sq_norm, Complex.normSq_apply]
    simp only [hzd]
    ring
  have hq : 8000000 ≤ ‖z‖ ^ 2 := by
    rw [hnsq]
    nlinarith [sq_nonneg (u - a)]
  have hr0 : 0 < ‖z‖ := by
    by_contra hc
    have : ‖z‖ = 0 := le_antisymm (not_lt.1 hc) (norm_nonneg z)
    rw [this] at hq
    norm_num at hq
  have hK : (Nat.factorial 2 : ℝ) / 2 ^ 2 * (‖z‖ ^ 2 + 1 / 2) ≤ 0.51 / ‖z‖ ^ 2 * hB ‖z‖ 2 ^ 2 := by
    have e : hB ‖z‖ 2 = ‖z‖ ^ 2 - 1 / 2 := by simp [hB]; ring
    rw [e, div_mul_eq_mul_div (0.51 : ℝ), le_div_iff₀ (by positivity)]
    generalize ‖z‖ ^ 2 = q at hq
    norm_num [Nat.factorial]
    nlinarith
  suffices hs : |(Complex.I / (√π : ℝ) * (hA z 2 / hB z 2)).re - voigtH a u| ≤ 9e-13 * voigtH a u by
    exact (scale_err hH hs).trans (mul_le_mul_of_nonneg_right (by norm_num) hH.le)
  rcases le_or_gt u a with hua | hua
  · obtain ⟨-, hrel⟩ := cf_rel hz (n := 2) (by norm_num) (by positivity) (by norm_num; linarith) hK
    refine hrel.trans (mul_le_mul_of_nonneg_right ?_ hH.le)
    have h1 : ‖z‖ ^ 2 / 2 ≤ z.im ^ 2 := by
      rw [hnsq]
      simp only [hzd]
      nlinarith
    rw [div_div, div_le_iff₀ (by positivity)]
    have h2 : 8000000 * (8000000 / 2) ≤ ‖z‖ ^ 2 * z.im ^ 2 := mul_le_mul hq (by linarith) (by norm_num) (by positivity)
    norm_num
    linarith
  · have hu2 : 2000 ≤ u := by linarith
    obtain ⟨-, hrel⟩ := cf_rel_wing hz (n := 2) (δ := u / 4) (by norm_num) (by positivity) (show u / 4 < u by linarith)
      (by simp only [hzd]; norm_num; nlinarith) hK
    refine hrel.trans (mul_le_mul_of_nonneg_right ?_ hH.le)
    have hur : u ≤ ‖z‖ := (le_abs_self u).trans (Complex.abs_re_le_norm z)
    have hru : ‖z‖ ≤ 1.415 * u := by
      refine abs_le_of_sq_le_sq' ?_ (by positivity) |>.2
      rw [hnsq]
      norm_num
      nlinarith
    have t1 : 0.51 / ‖z‖ ^ 2 * (1 / (u / 4) ^ 2 + 9 / 2 * ((2 : ℕ) : ℝ) / (‖z‖ * (u / 4))) ≤ 8e-13 := by
      have a1 : 1 / (u / 4) ^ 2 ≤ 32.1 / ‖z‖ ^ 2 := by
        rw [div_le_div_iff₀ (by positivity) (by positivity)]
        have : ‖z‖ ^ 2 ≤ (1.415 * u) ^ 2 := by gcongr
        norm_num at this ⊢
        linarith
      have a2 : 9 / 2 * ((2 : ℕ) : ℝ) / (‖z‖ * (u / 4)) ≤ 51 / ‖z‖ ^ 2 := by
        rw [div_le_div_iff₀ (by positivity) (by positivity)]
        have : ‖z‖ ^ 2 ≤ ‖z‖ * (1.415 * u) := by
          rw [sq]
          gcongr
        norm_num at this ⊢
        nlinarith
      calc 0.51 / ‖z‖ ^ 2 * (1 / (u / 4) ^ 2 + 9 / 2 * ((2 : ℕ) : ℝ) / (‖z‖ * (u / 4))) ≤ 0.51 / ‖z‖ ^ 2 * (32.1 / ‖z‖ ^ 2 + 51 / ‖z‖ ^ 2) := by gcongr
        _ ≤ 0.51 / 8000000 * (32.1 / 8000000 + 51 / 8000000) := by gcongr
        _ ≤ _ := by norm_num
    have t2 : (‖z‖ ^ 2 + 1 / 2) * exp (9 / 2 * ((2 : ℕ) : ℝ) * (u / 4) / z.re - (z.re - u / 4) ^ 2) * (π + 9 / 2 * ((2 : ℕ) : ℝ) * (u / 4) / ‖z‖) / (√π * z.im) ≤ 1e-15 := by
      have e1 : z.re = u := rfl
      have e2 : z.im = a := rfl
      have e3 : 9 / 2 * ((2 : ℕ) : ℝ) * (u / 4) / u - (u - u / 4) ^ 2 = 9 / 4 - (3 / 4 * u) ^ 2 := by
        push_cast
        field_simp
        ring
      have hs1 : 1 ≤ √π := one_le_sqrt.2 (by linarith [pi_gt_three])
      rw [e1, e2, e3, div_le_iff₀ (by positivity)]
      have hg := far_gauss hu2 ha
      have t5 : (‖z‖ ^ 2 + 1 / 2) * exp (9 / 4 - (3 / 4 * u) ^ 2) ≤ 1e-20 * a := by
        refine le_trans (mul_le_mul_of_nonneg_right ?_ (exp_pos _).le) hg
        rw [hnsq]
        nlinarith
      have t6 : π + 9 / 2 * ((2 : ℕ) : ℝ) * (u / 4) / ‖z‖ ≤ 7 := by
        have h1 : 9 / 2 * ((2 : ℕ) : ℝ) * (u / 4) / ‖z‖ ≤ 9 / 4 := by
          rw [div_le_iff₀ hr0]
          push_cast
          linarith
        have := pi_lt_d2
        norm_num at this h1 ⊢
        linarith
      calc (‖z‖ ^ 2 + 1 / 2) * exp (9 / 4 - (3 / 4 * u) ^ 2) * (π + 9 / 2 * ((2 : ℕ) : ℝ) * (u / 4) / ‖z‖) ≤ 1e-20 * a * 7 :=
            mul_le_mul t5 t6 (by have := pi_pos; positivity) (by positivity)
        _ ≤ 1e-15 * (1 * a) := by norm_num; linarith
        _ ≤ 1e-15 * (√π * a) := by gcongr
    refine (add_le_add t1 t2).trans ?_
    norm_num

/-- The wings for all damping parameters of a double: a relative error below 6e-10. -/
theorem profile_wing_accurate (F : RealFns) (fuel : ℕ) {u a : ℝ} (hu : u ≠ 0) (ha : 1e-100 ≤ a) (h : InWing u a) :
    ∃ r, profile F fuel u a = .ok (some r) ∧ |r - voigtH a u| ≤ 6e-10 * voigtH a u := by
  have ha0 : 0 < a := lt_of_lt_of_le (by norm_num) ha
  wlog hpos : 0 < u generalizing u with H
  · have hneg : 0 < -u := by
      rcases lt_or_gt_of_ne hu with h1 | h1
      · linarith
      · exact absurd h1 hpos
    obtain ⟨r, hr, he⟩ := H (u := -u) (neg_ne_zero.2 hu) (by unfold InWing at h ⊢; rwa [abs_neg]) hneg
    rw [profile_even] at hr
    rw [voigtH_even] at he
    exact ⟨r, hr, he⟩
  have hH := voigtH_pos ha0 u
  refine ⟨_, profile_cf F fuel hu ha0 h, ?_⟩
  have habs : |u| = u := abs_of_pos hpos
  by_cases h4 : u + a ≤ 4000
  · have hup : cfUpper |u| u a = cfn |u| u a := by
      unfold cfUpper
      rw [if_neg (by rw [habs]; exact not_lt.2 h4)]
    rw [hup]
    have hold := cfn_err ha0 (show useCF |u| a from h)
    rcases le_or_gt a 1 with h1 | h1
    · rcases h with h7 | ⟨h6, h01 | ⟨h8, h10⟩ | h28⟩
      · linarith
      · refine hold.trans (mul_le_mul_of_nonneg_right ?_ hH.le)
        have h2 : 1 / a ^ 2 ≤ 100 := by
          rw [div_le_iff₀ (by positivity)]
          norm_num at h01
          nlinarith
        have h3 : max 1 (1 / a ^ 2) ≤ 100 := max_le (by norm_num) h2
        generalize max 1 (1 / a ^ 2) = M at h3
        norm_num
        linarith
      · rw [habs] at h8
        refine (cfn_err_small h8.le h1 (Or.inl h10) (Or.inr ⟨h6, Or.inr (Or.inl ⟨by rw [habs]; exact h8, h10⟩)⟩)).trans (mul_le_mul_of_nonneg_right (by norm_num) hH.le)
      · have h28' := h28
        rw [habs] at h28
        refine (cfn_err_small (by linarith) h1 (Or.inr ⟨h28, ha⟩) (Or.inr ⟨h6, Or.inr (Or.inr h28')⟩)).trans (mul_le_mul_of_nonneg_right (by norm_num) hH.le)
    · refine hold.trans (mul_le_mul_of_nonneg_right ?_ hH.le)
      have h2 : 1 / a ^ 2 ≤ 1 := by
        rw [div_le_iff₀ (by positivity)]
        nlinarith
      rw [max_eq_left h2]
      norm_num
  · rw [not_le] at h4
    have h4' : 4000 < |u| + a := by rw [habs]; exact h4
    by_cases h7 : 1e7 < u + a
    · have := cf_far_err ha h4'
      rw [if_pos (by rw [habs]; exact h7)] at this
      exact this.trans (mul_le_mul_of_nonneg_right (by norm_num) hH.le)
    · have hup : cfUpper |u| u a = cf2 u a := by
        unfold cfUpper
        rw [if_pos h4', if_neg (by rw [habs]; exact h7)]
      rw [hup]
      exact (cf2_accurate hpos ha h4).trans (mul_le_mul_of_nonneg_right (by norm_num) hH.le)

example (F : RealFns) := profile_wing_accurate F 10 (u := 20) (a := 4.7e-4) (by norm_num) (by norm_num) (by unfold InWing; norm_num)

end Verif.Props
