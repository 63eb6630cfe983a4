import Verif.Model.Faddeeva
import Verif.Lemmas.WingErr
import Mathlib.Analysis.Real.Pi.Bounds

/-!
Property C99: the line profile is the Voigt function in the damping wings.
-/

namespace Verif.Props
open Verif.Model.Faddeeva Verif.Spec Verif.Hermite Real

/-! ### The constant -/

theorem ispi_err : |ispi * √π - 1| ≤ 1e-19 := by
  have h1 := pi_gt_d20
  have h2 := pi_lt_d20
  have hs : 0 < √π := sqrt_pos.2 pi_pos
  have hp : √π ^ 2 = π := sq_sqrt pi_pos.le
  have hi : 0 < ispi := by unfold ispi; norm_num
  have e : |(ispi * √π) ^ 2 - 1| ≤ 1e-19 := by
    rw [mul_pow, hp]
    unfold ispi
    rw [abs_le]
    constructor <;> norm_num <;> linarith
  have f : (ispi * √π) ^ 2 - 1 = (ispi * √π - 1) * (ispi * √π + 1) := by ring
  rw [f, abs_mul] at e
  have g : 1 ≤ |ispi * √π + 1| := by
    rw [abs_of_pos (by positivity)]
    have : 0 < ispi * √π := by positivity
    linarith
  nlinarith [abs_nonneg (ispi * √π - 1)]

/-! ### The loop of the continued fraction -/

theorem cfLoop_pos {xs ya : ℝ} (hy : 0 < ya) : ∀ (fuel : ℕ) (nu : ℝ) (w : ℝ × ℝ), 0 < w.2 → 0 < (cfLoop xs ya fuel nu w).2
  | 0, _, w, h => h
  | fuel + 1, nu, (wr, wi), h => by
    rw [cfLoop]
    split
    · rename_i hn
      refine cfLoop_pos hy fuel _ _ ?_
      have : 0 < wr * wr + wi * wi := by
        simp only at h
        have := mul_self_nonneg wr
        positivity
      simp only at h ⊢
      have : 0 < nu := by norm_num at hn; linarith
      positivity
    · exact h

/-- The loop computes a ratio of two polynomials. -/
theorem cfLoop_eq {z : ℂ} (hz : 0 < z.im) : ∀ (m fuel : ℕ) (w : ℝ × ℝ), m < fuel → 0 < w.2 →
    let W := cfLoop z.re z.im fuel (((m : ℝ) + 1) / 2) w
    (⟨W.1, W.2⟩ : ℂ) * ((⟨w.1, w.2⟩ : ℂ) * hA z (m + 1) - ((m : ℂ) + 1) / 2 * hA z m) =
      (⟨w.1, w.2⟩ : ℂ) * hB z (m + 1) - ((m : ℂ) + 1) / 2 * hB z m := by
  intro m
  induction m with
  | zero =>
    intro fuel w hf hw
    obtain ⟨fuel, rfl⟩ := Nat.exists_eq_succ_of_ne_zero (by omega : fuel ≠ 0)
    obtain ⟨wr, wi⟩ := w
    simp only at hw
    have hD : 0 < wr * wr + wi * wi := by
      have := mul_self_nonneg wr
      positivity
    have hstop : ∀ (f : ℕ) (v : ℝ × ℝ), cfLoop z.re z.im f ((((0 : ℕ) : ℝ) + 1) / 2 - 0.5) v = v := by
      intro f v
      cases f with
      | zero => rfl
      | succ f =>
        obtain ⟨a, b⟩ := v
        rw [cfLoop, if_neg (by norm_num)]
    simp only [Nat.succ_eq_add_one]
    rw [cfLoop, if_pos (by norm_num), hstop]
    simp only [hA, hB, Nat.cast_zero, zero_add, mul_zero, sub_zero, mul_one]
    apply Complex.ext
    · simp
      field_simp
      ring
    · simp
      field_simp
      ring
  | succ m ih =>
    intro fuel w hf hw
    obtain ⟨fuel, rfl⟩ := Nat.exists_eq_succ_of_ne_zero (by omega : fuel ≠ 0)
    obtain ⟨wr, wi⟩ := w
    simp only at hw
    have hD : 0 < wr * wr + wi * wi := by
      have := mul_self_nonneg wr
      positivity
    simp only [Nat.succ_eq_add_one]
    have hgt : (((m + 1 : ℕ) : ℝ) + 1) / 2 > 0.4 := by
      push_cast
      have : (0 : ℝ) ≤ m := Nat.cast_nonneg m
      norm_num
      linarith
    have hnext : (((m + 1 : ℕ) : ℝ) + 1) / 2 - 0.5 = ((m : ℝ) + 1) / 2 := by
      push_cast
      norm_num
      ring
    rw [cfLoop, if_pos hgt, hnext]
    set d := (((m + 1 : ℕ) : ℝ) + 1) / 2 / (wr * wr + wi * wi) with hd
    have hd0 : 0 < d := by positivity
    have h := ih fuel (z.re - wr * d, z.im + wi * d) (by omega) (by simp only; positivity)
    simp only at h
    -- the new value is `z - nu/w`
    have hstep : (⟨z.re - wr * d, z.im + wi * d⟩ : ℂ) * ⟨wr, wi⟩ = z * ⟨wr, wi⟩ - (((m + 1 : ℕ) : ℂ) + 1) / 2 := by
      have e : d * (wr * wr + wi * wi) = ((m : ℝ) + 1 + 1) / 2 := by
        rw [hd]
        push_cast
        field_simp
      have e2 : (((m + 1 : ℕ) : ℂ) + 1) / 2 = (((m : ℝ) + 1 + 1) / 2 : ℝ) := by push_cast; rfl
      rw [e2, ← e]
      apply Complex.ext
      · simp
        ring
      · simp
        ring
    set W := cfLoop z.re z.im fuel (((m : ℝ) + 1) / 2) (z.re - wr * d, z.im + wi * d)
    rw [hA_succ, hB_succ]
    have h2 := congrArg (· * (⟨wr, wi⟩ : ℂ)) h
    push_cast at hstep ⊢
    linear_combination h2 + (hB z (m + 1) - (⟨W.1, W.2⟩ : ℂ) * hA z (m + 1)) * hstep

/-! ### The number of terms -/

theorem cf_radius {x y : ℝ} (hx : 0 ≤ x) (hy : 0 < y) (h : useCF x y) : 6 ^ 2 ≤ x ^ 2 + y ^ 2 := by
  rcases h with h | ⟨h, _⟩ <;> nlinarith

theorem cfTerms_range {x y : ℝ} (hx : 0 ≤ x) (hy : 0 < y) (h : useCF x y) :
    ∃ n : ℕ, cfTerms x y = n ∧ 3 ≤ n ∧ n ≤ 19 ∧ 11.398 / ((n : ℝ) - 2.9) < 0.08254 * x + 0.1421 * y + 0.2023 := by
  set s := 0.08254 * x + 0.1421 * y + 0.2023 with hs
  have hs0 : (0.71 : ℝ) < s := by
    rcases h with h | ⟨h, h' | ⟨h', _⟩ | h'⟩ <;> rw [hs] <;> norm_num at * <;> linarith
  have hspos : 0 < s := by norm_num at hs0; linarith
  have hq0 : 0 < 11.398 / s := by positivity
  have hq1 : 11.398 / s < 16.1 := by
    rw [div_lt_iff₀ hspos]
    norm_num at hs0 ⊢
    linarith
  have h3 : 3 ≤ cfTerms x y := by
    unfold cfTerms
    rw [Int.le_floor, ← hs]
    have : (0 : ℝ) ≤ 3.9 + 11.398 / s - 3 := by
      have : (0 : ℝ) < 3.9 - 3 := by norm_num
      linarith
    push_cast
    linarith
  have h20 : cfTerms x y < 20 := by
    unfold cfTerms
    rw [Int.floor_lt, ← hs]
    have : (3.9 : ℝ) + 16.1 = 20 := by norm_num
    push_cast
    linarith
  obtain ⟨n, hn⟩ := Int.eq_ofNat_of_zero_le (by omega : 0 ≤ cfTerms x y)
  refine ⟨n, hn, by omega, by omega, ?_⟩
  have hlt := Int.lt_floor_add_one ((3.9 + 11.398 / (0.08254 * x + 0.1421 * y + 0.2023) : ℝ))
  have e : (⌊(3.9 + 11.398 / (0.08254 * x + 0.1421 * y + 0.2023) : ℝ)⌋ : ℝ) = n := by
    have : cfTerms x y = (n : ℤ) := hn
    unfold cfTerms at this
    rw [this]
    simp
  rw [e, ← hs] at hlt
  have hn3 : (3 : ℝ) ≤ n := by
    have : 3 ≤ n := by omega
    exact_mod_cast this
  have hd : 0 < (n : ℝ) - 2.9 := by norm_num; linarith
  rw [div_lt_iff₀ hd]
  have : 11.398 / s < n - 2.9 := by norm_num at hlt ⊢; linarith
  rw [div_lt_iff₀ hspos] at this
  linarith

/-! ### The value of the continued fraction -/

theorem cfn_eq {z : ℂ} (hz : 0 < z.im) {x : ℝ} {n : ℕ} (hn : cfTerms x z.im = n) (h2 : 2 ≤ n) (hB0 : hB z n ≠ 0) :
    cfn x z.re z.im = (ispi : ℝ) * (Complex.I * (hA z n / hB z n)) := by
  obtain ⟨m, rfl⟩ : ∃ m, n = m + 2 := ⟨n - 2, by omega⟩
  have hpos := cfLoop_pos (xs := z.re) hz (m + 2) (((m : ℝ) + 1) / 2) (z.re, z.im) hz
  have h := cfLoop_eq hz m (m + 2) (z.re, z.im) (by omega) hz
  simp only at h
  have hzz : (⟨z.re, z.im⟩ : ℂ) = z := rfl
  rw [hzz, ← hA_succ, ← hB_succ] at h
  unfold cfn
  have e1 : (0.5 * (((m + 2 : ℕ) : ℤ) : ℝ) - 1) = ((m : ℝ) + 2) / 2 - 1 := by
    push_cast
    norm_num
    ring
  have e : (0.5 : ℝ) * ((((m + 2 : ℕ) : ℤ) : ℝ) - 1) = ((m : ℝ) + 1) / 2 := by
    push_cast
    norm_num
    ring
  simp only
  rw [hn, e, Int.toNat_natCast]
  set W := cfLoop z.re z.im (m + 2) (((m : ℝ) + 1) / 2) (z.re, z.im)
  have hW : 0 < W.1 * W.1 + W.2 * W.2 := by
    have := mul_self_nonneg W.1
    positivity
  have hWne : (⟨W.1, W.2⟩ : ℂ) ≠ 0 := by
    intro e
    have := congrArg Complex.im e
    simp at this
    exact hpos.ne' this
  have hAB : hA z (m + 2) / hB z (m + 2) = (⟨W.1, W.2⟩ : ℂ)⁻¹ := by
    rw [← h]
    have : hA z (m + 2) ≠ 0 := by
      intro h0
      rw [h0, mul_zero] at h
      exact hB0 h.symm
    field_simp
  rw [hAB]
  apply Complex.ext
  · simp [Complex.inv_re, Complex.inv_im, Complex.normSq_apply]
    ring
  · simp [Complex.inv_re, Complex.inv_im, Complex.normSq_apply]
    ring

/-- The error of the fraction, relative to the Voigt function. -/
theorem cf_rel {z : ℂ} (hz : 0 < z.im) {n : ℕ} (hn : 1 ≤ n) {K : ℝ} (hK0 : 0 ≤ K) (h1 : 2 * ((n : ℝ) - 1) ≤ ‖z‖ ^ 2)
    (hK : (n.factorial : ℝ) / 2 ^ n * (‖z‖ ^ 2 + 1 / 2) ≤ K * hB ‖z‖ n ^ 2) :
    hB z n ≠ 0 ∧ |(Complex.I / (√π : ℝ) * (hA z n / hB z n)).re - voigtH z.im z.re| ≤ K / z.im ^ 2 * voigtH z.im z.re := by
  obtain ⟨m, rfl⟩ : ∃ m, n = m + 1 := ⟨n - 1, by omega⟩
  have hzn : 0 < ‖z‖ := by
    rw [norm_pos_iff]
    intro e
    rw [e] at hz
    simp at hz
  have hm : 2 * (m : ℝ) ≤ ‖z‖ ^ 2 := by push_cast at h1; linarith
  obtain ⟨p0, p1⟩ := hB_ratio hzn m hm
  have pB : 0 < hB ‖z‖ (m + 1) := lt_of_lt_of_le (by positivity) p1
  obtain ⟨q0, q1⟩ := hB_norm hzn m hm
  have hle : hB ‖z‖ (m + 1) ≤ ‖hB z (m + 1)‖ := by
    have : hB ‖z‖ (m + 1) * hB ‖z‖ m ≤ ‖hB z (m + 1)‖ * hB ‖z‖ m := le_trans (mul_le_mul_of_nonneg_left q0 pB.le) q1
    exact le_of_mul_le_mul_right this p0
  have hne : hB z (m + 1) ≠ 0 := norm_pos_iff.1 (lt_of_lt_of_le pB hle)
  refine ⟨hne, ?_⟩
  have hf := faddeeva_cf hz (m + 1) hne
  have hre : (faddeeva z).re = voigtH z.im z.re := by
    rw [← faddeeva_re hz]
    congr 2
    apply Complex.ext <;> simp
  have h2 : |(Complex.I / (√π : ℝ) * (hA z (m + 1) / hB z (m + 1))).re - voigtH z.im z.re| ≤
      ((m + 1).factorial : ℝ) / 2 ^ (m + 1) / (√π * z.im * ‖hB z (m + 1)‖ ^ 2) := by
    rw [← hre, ← Complex.sub_re]
    refine le_trans (Complex.abs_re_le_norm _) ?_
    rw [norm_sub_rev]
    exact hf
  refine h2.trans ?_
  have hs : 0 < √π := sqrt_pos.2 pi_pos
  have hge := voigtH_ge_lorentz hz z.re
  have hnsq : z.re ^ 2 + z.im ^ 2 = ‖z‖ ^ 2 := by
    rw [Complex.sq_norm, Complex.normSq_apply]
    ring
  rw [hnsq] at hge
  have hq : 0 < ‖z‖ ^ 2 + 1 / 2 := by positivity
  calc ((m + 1).factorial : ℝ) / 2 ^ (m + 1) / (√π * z.im * ‖hB z (m + 1)‖ ^ 2)
      ≤ ((m + 1).factorial : ℝ) / 2 ^ (m + 1) / (√π * z.im * hB ‖z‖ (m + 1) ^ 2) := by gcongr
    _ ≤ K / (√π * z.im * (‖z‖ ^ 2 + 1 / 2)) := by
      rw [div_le_div_iff₀ (by positivity) (by positivity)]
      have := mul_le_mul_of_nonneg_left hK (by positivity : 0 ≤ √π * z.im)
      linarith
    _ = K / z.im ^ 2 * (z.im / (√π * (‖z‖ ^ 2 + 1 / 2))) := by field_simp
    _ ≤ K / z.im ^ 2 * voigtH z.im z.re := by gcongr

theorem scale_err {r H ε : ℝ} (hH : 0 < H) (h : |r - H| ≤ ε * H) : |ispi * √π * r - H| ≤ (ε + 1e-19 * (1 + ε)) * H := by
  have h1 := ispi_err
  have hr : |r| ≤ (1 + ε) * H := by
    have : |r| ≤ |r - H| + |H| := by
      have := abs_add_le (r - H) H
      simpa using this
    rw [abs_of_pos hH] at this
    linarith
  have e : ispi * √π * r - H = (ispi * √π - 1) * r + (r - H) := by ring
  rw [e]
  refine (abs_add_le _ _).trans ?_
  rw [abs_mul]
  have : |ispi * √π - 1| * |r| ≤ 1e-19 * ((1 + ε) * H) := mul_le_mul h1 hr (abs_nonneg _) (by norm_num)
  linarith

/-- The continued fraction of the code, for up to 4000 widths. -/
theorem cfn_err {u a : ℝ} (ha : 0 < a) (h : useCF |u| a) :
    |(cfn |u| u a).re - voigtH a u| ≤ 5e-12 * max 1 (1 / a ^ 2) * voigtH a u := by
  obtain ⟨n, hn, h3, h19, hs⟩ := cfTerms_range (abs_nonneg u) ha h
  set z : ℂ := ⟨u, a⟩ with hzd
  have hz : 0 < z.im := ha
  have hnsq : ‖z‖ ^ 2 = |u| ^ 2 + a ^ 2 := by
    rw [Complex.sq_norm, Complex.normSq_apply, sq_abs]
    simp only [hzd]
    ring
  have h6 : 6 ≤ ‖z‖ := by
    have := cf_radius (abs_nonneg u) ha h
    rw [← hnsq] at this
    exact abs_le_of_sq_le_sq' this (norm_nonneg z) |>.2
  obtain ⟨k1, k2⟩ := wing_err h3 h19 hnsq (norm_nonneg z) (abs_nonneg u) ha h6 hs
  obtain ⟨hne, hrel⟩ := cf_rel hz (by omega : 1 ≤ n) (by positivity) k1 k2
  have e := cfn_eq hz (x := |u|) hn (by omega) hne
  have e1 : cfn |u| u a = cfn |u| z.re z.im := rfl
  have hs0 : ((√π : ℝ) : ℂ) ≠ 0 := by
    rw [Complex.ofReal_ne_zero]
    exact (sqrt_pos.2 pi_pos).ne'
  have e2 : ((ispi : ℝ) : ℂ) * (Complex.I * (hA z n / hB z n)) = ((ispi * √π : ℝ) : ℂ) * (Complex.I / (√π : ℝ) * (hA z n / hB z n)) := by
    push_cast
    field_simp
  rw [e1, e, e2, Complex.re_ofReal_mul]
  have hH := voigtH_pos ha u
  refine (scale_err hH hrel).trans (mul_le_mul_of_nonneg_right ?_ hH.le)
  have hmax : 4e-12 * max 1 (z.im ^ 2) / z.im ^ 2 = 4e-12 * max 1 (1 / a ^ 2) := by
    have : z.im = a := rfl
    rw [this, mul_div_assoc]
    congr 1
    rw [← max_div_div_right (by positivity : (0 : ℝ) ≤ a ^ 2), div_self (by positivity), max_comm]
  rw [hmax]
  have : 1 ≤ max 1 (1 / a ^ 2) := le_max_left _ _
  generalize max 1 (1 / a ^ 2) = M at this ⊢
  norm_num
  linarith

/-! ### The far wings -/

theorem tail_tiny {q a : ℝ} (hq : 8e6 ≤ q) (ha : 1e-100 ≤ a) : √2 * q * exp (-q / 8) / a ^ 2 ≤ 1e-3 / q := by
  have hq0 : 0 < q := by norm_num at hq; linarith
  have ha0 : 0 < a := lt_of_lt_of_le (by norm_num) ha
  have h2 : √2 ≤ 2 := by
    rw [sqrt_le_left (by norm_num)]
    norm_num
  have h1 : q ^ 2 * 1e240 ≤ exp (q / 8) := by
    have e : exp (q / 8) = exp (q / 800) ^ 100 := by
      rw [← exp_nat_mul]
      congr 1
      push_cast
      ring
    have h3 : q / 800 ≤ exp (q / 800) := by linarith [add_one_le_exp (q / 800)]
    have h4 : (q / 800) ^ 100 ≤ exp (q / 800) ^ 100 := by gcongr
    have h5 : (1e4 : ℝ) ≤ q / 800 := by norm_num at hq ⊢; linarith
    have h6 : (1e4 : ℝ) ^ 98 ≤ (q / 800) ^ 98 := by gcongr
    have h7 : (q / 800) ^ 100 = (q / 800) ^ 2 * (q / 800) ^ 98 := by rw [← pow_add]
    have h8 : q ^ 2 * 1e240 ≤ (q / 800) ^ 2 * (1e4 : ℝ) ^ 98 := by
      rw [div_pow]
      have : (1e240 : ℝ) * 800 ^ 2 ≤ (1e4 : ℝ) ^ 98 := by norm_num
      have h9 : 0 ≤ q ^ 2 := by positivity
      have e2 : q ^ 2 / 800 ^ 2 * (1e4 : ℝ) ^ 98 = q ^ 2 * ((1e4 : ℝ) ^ 98 / 800 ^ 2) := by ring
      rw [e2]
      refine mul_le_mul_of_nonneg_left ?_ h9
      rw [le_div_iff₀ (by norm_num)]
      exact this
    have h10 : (q / 800) ^ 2 * (1e4 : ℝ) ^ 98 ≤ (q / 800) ^ 2 * (q / 800) ^ 98 := by gcongr
    rw [e]
    linarith
  have h3 : exp (-q / 8) = 1 / exp (q / 8) := by
    rw [neg_div, exp_neg, one_div]
  rw [h3, div_le_div_iff₀ (by positivity) hq0]
  have h4 : (1e-200 : ℝ) ≤ a ^ 2 := by
    have : (1e-100 : ℝ) ^ 2 ≤ a ^ 2 := by gcongr
    refine le_trans ?_ this
    norm_num
  have h5 : √2 * q * (1 / exp (q / 8)) * q ≤ 2 * (q ^ 2 / exp (q / 8)) := by
    have : √2 * q * (1 / exp (q / 8)) * q = √2 * (q ^ 2 / exp (q / 8)) := by ring
    rw [this]
    gcongr
  have h6 : q ^ 2 / exp (q / 8) ≤ 1e-240 := by
    rw [div_le_iff₀ (exp_pos _)]
    have := mul_le_mul_of_nonneg_left h1 (by norm_num : (0 : ℝ) ≤ 1e-240)
    have e : (1e-240 : ℝ) * (q ^ 2 * 1e240) = q ^ 2 := by
      have : (1e-240 : ℝ) * 1e240 = 1 := by norm_num
      linear_combination q ^ 2 * this
    linarith
  calc √2 * q * (1 / exp (q / 8)) * q ≤ 2 * 1e-240 := by linarith
    _ ≤ 1e-3 * 1e-200 := by norm_num
    _ ≤ 1e-3 * a ^ 2 := by gcongr

theorem far_err {a u r : ℝ} (ha : 1e-100 ≤ a) (hq : 8e6 ≤ u ^ 2 + a ^ 2)
    (hr : |r - a / (√π * (u ^ 2 + a ^ 2))| ≤ a / (√π * (u ^ 2 + a ^ 2)) * (2 / (u ^ 2 + a ^ 2))) :
    |r - voigtH a u| ≤ 11 / (u ^ 2 + a ^ 2) * voigtH a u := by
  have ha0 : 0 < a := lt_of_lt_of_le (by norm_num) ha
  have hw := voigtH_wing ha0 u
  have ht := tail_tiny hq ha
  have hge := voigtH_ge_lorentz ha0 u
  have hs : 0 < √π := sqrt_pos.2 pi_pos
  set q := u ^ 2 + a ^ 2
  have hq0 : 0 < q := by norm_num at hq; linarith
  set L := a / (√π * q) with hL
  have hL0 : 0 < L := by positivity
  have hLH : L ≤ voigtH a u * (1 + 1 / 2 / q) := by
    have e : a / (√π * (q + 1 / 2)) * (1 + 1 / 2 / q) = L := by
      rw [hL]
      field_simp
    rw [← e]
    gcongr
  have h1 : |r - voigtH a u| ≤ L * (2 / q) + L * (8 / q + 1e-3 / q) := by
    have e : r - voigtH a u = (r - L) - (voigtH a u - L) := by ring
    rw [e]
    refine (abs_sub _ _).trans (add_le_add hr (hw.trans ?_))
    gcongr
  have hH := voigtH_pos ha0 u
  have hqi : 1 / q ≤ 1e-6 := by
    rw [div_le_iff₀ hq0]
    norm_num at hq ⊢
    linarith
  have hqi0 : 0 < 1 / q := by positivity
  have e2 : L * (2 / q) + L * (8 / q + 1e-3 / q) = L * (10.001 * (1 / q)) := by
    norm_num
    ring
  rw [e2] at h1
  refine h1.trans ?_
  have e3 : 11 / q * voigtH a u = voigtH a u * (11 * (1 / q)) := by ring
  rw [e3]
  have e4 : (1 : ℝ) / 2 / q = 1 / 2 * (1 / q) := by ring
  rw [e4] at hLH
  calc L * (10.001 * (1 / q)) ≤ voigtH a u * (1 + 1 / 2 * (1 / q)) * (10.001 * (1 / q)) := by gcongr
    _ = voigtH a u * ((1 + 1 / 2 * (1 / q)) * 10.001 * (1 / q)) := by ring
    _ ≤ voigtH a u * (11 * (1 / q)) := by
      gcongr
      norm_num at hqi ⊢
      linarith

theorem cf1_re {a u : ℝ} (ha : 0 < a) : (cf1 |u| u a).re = ispi * √π * (a / (√π * (u ^ 2 + a ^ 2))) := by
  have hs : √π ≠ 0 := (sqrt_pos.2 pi_pos).ne'
  have hq : 0 < u ^ 2 + a ^ 2 := by positivity
  unfold cf1
  split
  · rename_i h
    have hu : u ≠ 0 := by
      intro e
      rw [e, abs_zero] at h
      linarith
    have hq2 : u + a / u * a ≠ 0 := by
      have : u + a / u * a = (u ^ 2 + a ^ 2) / u := by field_simp
      rw [this]
      exact div_ne_zero hq.ne' hu
    have hq3 : u ^ 2 + a ^ 2 ≠ 0 := hq.ne'
    simp only
    field_simp
  · have hq2 : u / a * u + a ≠ 0 := by
      have : u / a * u + a = (u ^ 2 + a ^ 2) / a := by field_simp
      rw [this]
      exact div_ne_zero hq.ne' ha.ne'
    have hq3 : u ^ 2 + a ^ 2 ≠ 0 := hq.ne'
    simp only
    field_simp

theorem cf2_err {a u : ℝ} (ha : 0 < a) (hq : 8e6 ≤ u ^ 2 + a ^ 2) : ∃ r, (cf2 u a).re = ispi * √π * r ∧
    |r - a / (√π * (u ^ 2 + a ^ 2))| ≤ a / (√π * (u ^ 2 + a ^ 2)) * (2 / (u ^ 2 + a ^ 2)) := by
  have hs : 0 < √π := sqrt_pos.2 pi_pos
  set q := u ^ 2 + a ^ 2 with hqd
  have hq0 : 0 < q := by norm_num at hq; linarith
  set P := (u * u - a * a - 0.5) * (u * u - a * a - 0.5) + 2 * u * a * (2 * u * a) with hP
  have hP1 : P = q ^ 2 - (u ^ 2 - a ^ 2) + 0.25 := by
    rw [hP, hqd]
    norm_num
    ring
  have hx : |u ^ 2 - a ^ 2| ≤ q := by
    rw [abs_le, hqd]
    constructor <;> nlinarith [sq_nonneg u, sq_nonneg a]
  have hP2 : q ^ 2 - q ≤ P := by
    rw [hP1]
    have := (abs_le.1 hx).2
    norm_num
    linarith
  have hP0 : 0 < P := by
    have : 0 < q ^ 2 - q := by
      norm_num at hq
      nlinarith
    linarith
  refine ⟨a * (q + 0.5) / (√π * P), ?_, ?_⟩
  · unfold cf2
    simp only
    rw [← hP]
    have e : u * (2 * u * a) - a * (u * u - a * a - 0.5) = a * (q + 0.5) := by
      rw [hqd]
      ring
    rw [e]
    field_simp
  · have e : a * (q + 0.5) / (√π * P) - a / (√π * q) = a / (√π * q) * (((q + 0.5) * q - P) / P) := by
      field_simp
    rw [e, abs_mul, abs_of_pos (by positivity : 0 < a / (√π * q)), abs_div, abs_of_pos hP0]
    refine mul_le_mul_of_nonneg_left ?_ (by positivity)
    have h1 : |(q + 0.5) * q - P| ≤ 1.5 * q := by
      have : (q + 0.5) * q - P = 0.5 * q + (u ^ 2 - a ^ 2) - 0.25 := by
        rw [hP1]
        ring
      rw [this, abs_le]
      have h3 := abs_le.1 hx
      norm_num at hq ⊢
      constructor <;> linarith [h3.1, h3.2]
    rw [div_le_div_iff₀ hP0 hq0]
    have h2 : |(q + 0.5) * q - P| * q ≤ 1.5 * q * q := by gcongr
    have h4 : 1.5 * q * q ≤ 2 * (q ^ 2 - q) := by
      norm_num at hq ⊢
      nlinarith
    linarith

/-- Further out the code uses one or two terms. -/
theorem cf_far_err {u a : ℝ} (ha : 1e-100 ≤ a) (h : 4000 < |u| + a) :
    |(cfUpper |u| u a).re - voigtH a u| ≤ (if 1e7 < |u| + a then 1e-12 else 2e-6) * voigtH a u := by
  have ha0 : 0 < a := lt_of_lt_of_le (by norm_num) ha
  have hu : |u| ^ 2 = u ^ 2 := sq_abs u
  have hq : 8e6 ≤ u ^ 2 + a ^ 2 := by
    rw [← hu]
    norm_num
    nlinarith [sq_nonneg (|u| - a)]
  have hH := voigtH_pos ha0 u
  have hs : 0 < √π := sqrt_pos.2 pi_pos
  have hq0 : 0 < u ^ 2 + a ^ 2 := by positivity
  unfold cfUpper
  rw [if_pos h]
  split
  · rename_i h7
    rw [cf1_re ha0]
    have hr := far_err ha hq (r := a / (√π * (u ^ 2 + a ^ 2))) (by
      rw [sub_self, abs_zero]
      positivity)
    refine (scale_err hH hr).trans (mul_le_mul_of_nonneg_right ?_ hH.le)
    have hq2 : 5e13 ≤ u ^ 2 + a ^ 2 := by
      rw [← hu]
      norm_num at h7 ⊢
      nlinarith [sq_nonneg (|u| - a)]
    have : 11 / (u ^ 2 + a ^ 2) ≤ 11 / 5e13 := by gcongr
    norm_num at this ⊢
    linarith
  · rename_i h7
    obtain ⟨r, e, hr⟩ := cf2_err ha0 hq
    rw [e]
    refine (scale_err hH (far_err ha hq hr)).trans (mul_le_mul_of_nonneg_right ?_ hH.le)
    have : 11 / (u ^ 2 + a ^ 2) ≤ 11 / 8e6 := by gcongr
    norm_num at this ⊢
    linarith

/-! ### The profile is even -/

theorem cfLoop_neg (xs ya : ℝ) : ∀ (fuel : ℕ) (nu wr wi : ℝ),
    cfLoop (-xs) ya fuel nu (-wr, wi) = (-(cfLoop xs ya fuel nu (wr, wi)).1, (cfLoop xs ya fuel nu (wr, wi)).2)
  | 0, _, _, _ => rfl
  | fuel + 1, nu, wr, wi => by
    rw [cfLoop, cfLoop]
    split
    · have h := cfLoop_neg xs ya fuel (nu - 0.5) (xs - wr * (nu / (wr * wr + wi * wi))) (ya + wi * (nu / (wr * wr + wi * wi)))
      simp only
      rw [← h, neg_mul_neg]
      congr 2
      ring
    · rfl

theorem cfUpper_neg (x xs ya : ℝ) : (cfUpper x (-xs) ya).re = (cfUpper x xs ya).re := by
  unfold cfUpper
  split
  · split
    · unfold cf1
      split
      · simp only
        have e : -xs + ya / -xs * ya = -(xs + ya / xs * ya) := by rw [div_neg]; ring
        rw [e, div_neg, div_neg]
        ring
      · simp only
        rw [neg_div, neg_mul_neg]
    · unfold cf2
      simp only
      rw [neg_mul_neg]
      ring_nf
  · unfold cfn
    simp only
    rw [cfLoop_neg, neg_mul_neg]

theorem cf_neg (u a : ℝ) : (cf (-u) a).re = (cf u a).re := by
  unfold cf
  simp only [abs_neg]
  split
  · have h := cfUpper_neg |u| (-u) |a|
    rw [neg_neg] at h ⊢
    simp only [Complex.sub_re, Complex.mul_re, Complex.exp_re, Complex.re_ofNat, Complex.im_ofNat, zero_mul, sub_zero]
    rw [h]
    have e1 : (|a| - u) * (u + |a|) = (|a| - -u) * (-u + |a|) := by ring
    have e2 : 2 * -u * a = -(2 * u * a) := by ring
    rw [e1, e2, cos_neg]
  · exact cfUpper_neg |u| u |a|

theorem sinc_neg (x s : ℝ) : Model.Faddeeva.sinc (-x) (-s) = Model.Faddeeva.sinc x s := by
  unfold Model.Faddeeva.sinc
  rw [abs_neg]
  split
  · ring
  · rw [neg_div_neg_eq]

theorem head_neg (F : RealFns) (u a e : ℝ) (s : Sums) : (head F (-u) a e s).re = (head F u a e s).re := by
  unfold head
  simp only [abs_neg]
  split
  · rfl
  · have h1 : -u * a = -(u * a) := by ring
    have h2 : 2 * -u * a = -(2 * u * a) := by ring
    simp only
    rw [h1, h2, sin_neg, cos_neg, sinc_neg]
    ring

/-- C99: on the real axis the values at `x` and `-x` are conjugate. -/
theorem w_real_axis (F : RealFns) (fuel : ℕ) {x : ℝ} (hx : x ≠ 0) : ∃ c : ℂ, w F fuel ⟨x, 0⟩ = .ok (some c) ∧
    w F fuel ⟨-x, 0⟩ = .ok (some ((starRingEnd ℂ) c)) ∧ c.re = exp (-x ^ 2) := by
  have odd : ∀ t : ℝ, 0 < t → F.w_im (-t) = -F.w_im t := by
    intro t ht
    unfold RealFns.w_im
    rw [if_neg (by linarith : ¬(-t ≥ 0)), if_pos (by linarith : t ≥ 0)]
    by_cases h1 : t > 45
    · rw [if_pos h1, if_pos (by linarith : -t < -45)]
      by_cases h2 : t > 5e7
      · rw [if_pos h2, if_pos (by linarith : -t < -5e7), div_neg]
      · rw [if_neg h2, if_neg (by linarith : ¬(-t < -5e7))]
        rw [show -t * ((-t * -t) * (-t * -t - 5) + 3.75) = -(t * ((t * t) * (t * t - 5) + 3.75)) by ring, div_neg]
        congr 2
        ring
    · rw [if_neg h1, if_neg (by linarith : ¬(-t < -45)), neg_neg, sub_neg_eq_add]
  refine ⟨⟨exp (-(x * x)), F.w_im x⟩, ?_, ?_, by rw [pow_two]⟩
  · unfold w
    rw [if_neg (by simpa using hx), if_pos rfl]
  · unfold w
    rw [if_neg (by simpa using hx), if_pos rfl]
    have : F.w_im (-x) = -F.w_im x := by
      rcases lt_or_gt_of_ne hx with h | h
      · have := odd (-x) (by linarith)
        rw [neg_neg] at this
        rw [this, neg_neg]
      · exact odd x h
    congr 2
    apply Complex.ext
    · simp
    · simpa using this

example (F : RealFns) := w_real_axis F 10 (x := 0.5) (by norm_num)

/-- The profile is symmetric about the centre of the line, for every width. -/
theorem profile_even (F : RealFns) (fuel : ℕ) (u a : ℝ) : profile F fuel (-u) a = profile F fuel u a := by
  unfold profile w
  by_cases h1 : u = 0
  · subst h1
    rw [neg_zero]
  by_cases h2 : a = 0
  · simp [h1, h2, Except.map]
  by_cases h3 : useCF |u| |a|
  · have h3' : useCF |(-u)| |a| := by rwa [abs_neg]
    simp [h1, h2, h3, h3', Except.map, cf_neg]
  have h3' : ¬useCF |(-u)| |a| := by rwa [abs_neg]
  simp only [neg_eq_zero, if_neg h1, if_neg h2, if_neg h3, if_neg h3']
  rw [abs_neg]
  split
  · cases sums |u| a with
    | error e => rfl
    | ok es => simp [Except.map, finish, head_neg]
  · simp only [Except.map, Option.map_map]
    congr 2

end Verif.Props
