import Verif.Props.ErfcxTable
import Verif.Props.ProfileCore
import Verif.Props.ProfileWing

/-!
The line profile between 10 and 28 thermal widths from the centre for damping parameters of at most 1e-10.
-/

namespace Verif.Props
open Verif.Model.Faddeeva Verif.Spec Verif.Erfcx Verif.VoigtSeries Real

/-- The term above the largest one. -/
noncomputable def upTerm (y n0 dx : ℝ) (d : ℕ) : ℝ := exp (-((cA * d + dx) * (cA * d + dx))) / (cA2 * ((n0 + d) * (n0 + d)) + y * y)

/-- The term below the largest one. -/
noncomputable def downTerm (y n0 dx : ℝ) (d : ℕ) : ℝ :=
  exp (-((cA * d + dx) * (cA * d + dx))) * exp (4 * cA * dx) ^ d / (cA2 * ((n0 - d) * (n0 - d)) + y * y)

theorem both_result {y n0 dx : ℝ} (hn1 : 19 ≤ n0) (hn2 : n0 ≤ 55) (hy : y * y ≤ 1e-20) (hdx : |dx| ≤ cA / 2) :
    ∀ (fuel dn : ℕ) (e : ℝ) (s : Sums), 1 ≤ dn → dn ≤ 13 → 14 ≤ dn + fuel → e = exp (4 * cA * dx) ^ (dn - 1) →
      cA * n0 * (exp (-dx * dx) / (cA2 * (n0 * n0) + y * y)) ≤ s.sum5 →
      ∃ (D : ℕ) (s' : Sums), loopBoth y n0 dx (exp (4 * cA * dx)) fuel dn e s = (s', true, D) ∧ dn ≤ D ∧ D ≤ 13 ∧ s'.sum2 = s.sum2 ∧
        s'.sum3 = s.sum3 + ∑ d ∈ Finset.Ico dn (D + 1), (upTerm y n0 dx d + downTerm y n0 dx d) ∧
        s'.sum5 = s.sum5 + ∑ d ∈ Finset.Ico dn (D + 1), cA * ((n0 + d) * upTerm y n0 dx d + (n0 - d) * downTerm y n0 dx d) ∧
        cA * ((n0 + D) * upTerm y n0 dx D + (n0 - D) * downTerm y n0 dx D) < relerr * s'.sum5
  | 0, dn, _, _, _, h2, h3, _, _ => by omega
  | fuel + 1, dn, e, s, h1, h2, h3, he, hs => by
    have hyy := mul_self_nonneg y
    have hA := cA_pos
    have hA2 := cA2_pos
    have hdn : (dn : ℝ) ≤ 13 := by exact_mod_cast h2
    have hpos : n0 - dn > 0 := by linarith
    rw [loopBoth]
    simp only
    rw [if_pos hpos]
    have hee : e * exp (4 * cA * dx) = exp (4 * cA * dx) ^ dn := by
      rw [he, ← pow_succ]
      congr 1
      omega
    have t1 : 0 ≤ cA * ((n0 + dn) * upTerm y n0 dx dn + (n0 - dn) * downTerm y n0 dx dn) := by
      unfold upTerm downTerm
      positivity
    rw [hee]
    change ∃ (D : ℕ) (s' : Sums), (if cA * ((n0 + dn) * upTerm y n0 dx dn + (n0 - dn) * downTerm y n0 dx dn) <
        relerr * (s.sum5 + cA * ((n0 + dn) * upTerm y n0 dx dn + (n0 - dn) * downTerm y n0 dx dn)) then _ else
        loopBoth y n0 dx (exp (4 * cA * dx)) fuel (dn + 1) (exp (4 * cA * dx) ^ dn) { s with
          sum3 := s.sum3 + (upTerm y n0 dx dn + downTerm y n0 dx dn)
          sum5 := s.sum5 + cA * ((n0 + dn) * upTerm y n0 dx dn + (n0 - dn) * downTerm y n0 dx dn) }) = _ ∧ _
    split
    · rename_i hc
      exact ⟨dn, _, rfl, le_refl _, h2, rfl, by simp [upTerm, downTerm], by simp [upTerm, downTerm], hc⟩
    · rename_i hc
      have hne : dn ≠ 13 := by
        intro h13
        refine hc ?_
        subst h13
        refine lt_of_lt_of_le (term13 hn1 hn2 hy hdx) (mul_le_mul_of_nonneg_left (hs.trans (le_add_of_nonneg_right t1)) relerr_pos.le)
      obtain ⟨D, s', e1, e2, e3, e4, e5, e6, e7⟩ := both_result hn1 hn2 hy hdx fuel (dn + 1) (exp (4 * cA * dx) ^ dn) { s with
          sum3 := s.sum3 + (upTerm y n0 dx dn + downTerm y n0 dx dn)
          sum5 := s.sum5 + cA * ((n0 + dn) * upTerm y n0 dx dn + (n0 - dn) * downTerm y n0 dx dn) } (by omega) (by omega) (by omega)
        (by simp) (by simp only; linarith)
      refine ⟨D, s', e1, by omega, e3, e4, ?_, ?_, e7⟩
      · rw [e5, Finset.sum_eq_sum_Ico_succ_bot (show dn < D + 1 by omega)]
        ring
      · rw [e6, Finset.sum_eq_sum_Ico_succ_bot (show dn < D + 1 by omega)]
        ring

/-- The terms as a function of their index. -/
noncomputable def gTerm (y x : ℝ) (n : ℕ) : ℝ := exp (-(cA * n - x) ^ 2) / (cA2 * (n : ℝ) ^ 2 + y ^ 2)

theorem upTerm_eq (y x : ℝ) (K d : ℕ) : upTerm y K (cA * K - x) d = gTerm y x (K + d) := by
  unfold upTerm gTerm
  push_cast
  congr 1
  · congr 1
    ring
  · ring

theorem downTerm_eq (y x : ℝ) {K d : ℕ} (h : d ≤ K) : downTerm y K (cA * K - x) d = gTerm y x (K - d) := by
  unfold downTerm gTerm
  rw [← exp_nat_mul, ← exp_add]
  push_cast [h]
  congr 1
  · congr 1
    ring
  · ring

theorem sym_sum (g : ℕ → ℝ) (K : ℕ) : ∀ D : ℕ, D ≤ K →
    g K + ∑ d ∈ Finset.Ico 1 (D + 1), (g (K + d) + g (K - d)) = ∑ n ∈ Finset.Icc (K - D) (K + D), g n
  | 0, _ => by simp
  | D + 1, h => by
    have ih := sym_sum g K D (by omega)
    rw [Finset.sum_Ico_succ_top (by omega), ← add_assoc, ih]
    have e : Finset.Icc (K - (D + 1)) (K + (D + 1)) = insert (K - (D + 1)) (insert (K + (D + 1)) (Finset.Icc (K - D) (K + D))) := by
      ext n
      simp only [Finset.mem_Icc, Finset.mem_insert]
      omega
    rw [e, Finset.sum_insert (by simp only [Finset.mem_insert, Finset.mem_Icc]; omega), Finset.sum_insert (by simp only [Finset.mem_Icc]; omega)]
    ring

/-- What the code computes between 10 and 28 widths. -/
theorem large_value (F : RealFns) (fuel : ℕ) {u y : ℝ} (h10 : 10 ≤ |u|) (h28 : |u| ≤ 28) (hy : 0 < y) (hy2 : y ≤ 1e-10) (h : ¬InWing u y) :
    ∃ K D : ℕ, 19 ≤ K ∧ K ≤ 55 ∧ 1 ≤ D ∧ D ≤ 13 ∧ abs (cA * (K : ℝ) - |u|) ≤ cA / 2 ∧
      (((K + D : ℕ) : ℝ) * gTerm y |u| (K + D) + ((K - D : ℕ) : ℝ) * gTerm y |u| (K - D) < relerr * ∑ n ∈ Finset.Icc (K - D) (K + D), (n : ℝ) * gTerm y |u| n) ∧
      profile F fuel u y = .ok (some (exp (-|u| ^ 2) + 0.5 * cC * y * ∑ n ∈ Finset.Icc (K - D) (K + D), gTerm y |u| n)) := by
  have hA := cA_pos
  have hAv : cA = 0.518321480430085929872 := rfl
  have hx0 : u ≠ 0 := by
    intro e
    rw [e, abs_zero] at h10
    norm_num at h10
  have h' : ¬useCF |u| |y| := by
    rw [abs_of_pos hy]
    exact h
  have hyy : y * y ≤ 1e-20 := by
    have : y * y ≤ 1e-10 * 1e-10 := mul_le_mul hy2 hy2 hy.le (by norm_num)
    exact this.trans (by norm_num)
  generalize hx : |u| = x at *
  have hq1 : 19 ≤ x / cA := by
    rw [le_div_iff₀ hA, hAv]
    norm_num
    linarith
  have hq2 : x / cA ≤ 54.1 := by
    rw [div_le_iff₀ hA, hAv]
    norm_num
    linarith
  obtain ⟨K, hK⟩ : ∃ K : ℕ, ⌊x / cA + 0.5⌋ = K := by
    refine ⟨⌊x / cA + 0.5⌋.toNat, (Int.toNat_of_nonneg ?_).symm⟩
    rw [Int.le_floor]
    push_cast
    norm_num
    linarith
  have hf1 := Int.floor_le (x / cA + 0.5)
  have hf2 := Int.lt_floor_add_one (x / cA + 0.5)
  rw [hK] at hf1 hf2
  push_cast at hf1 hf2
  have hk1 : (19 : ℤ) ≤ K := by
    rw [← hK, Int.le_floor]
    push_cast
    norm_num
    linarith
  have hk1' : 19 ≤ K := by exact_mod_cast hk1
  have hkr : (19 : ℝ) ≤ K := by exact_mod_cast hk1
  have hk2 : (K : ℝ) ≤ 55 := by norm_num at hf1 hq2; linarith
  have hxe : x = cA * (x / cA) := by field_simp
  have hdx : |cA * (K : ℝ) - x| ≤ cA / 2 := by
    have e : cA * (K : ℝ) - x = cA * (K - x / cA) := by
      rw [mul_sub, ← hxe]
    rw [e, abs_mul, abs_of_pos hA]
    have e2 : cA / 2 = cA * (1 / 2) := by ring
    rw [e2]
    refine mul_le_mul_of_nonneg_left ?_ hA.le
    generalize x / cA = t at *
    rw [abs_le]
    norm_num at hf1 hf2 ⊢
    constructor <;> linarith
  obtain ⟨D, s', e1, e2, e3, e4, e5, e6, e7⟩ := both_result hkr hk2 hyy hdx K 1 1 { zeroSums with
    sum3 := exp (-(cA * (K : ℝ) - x) * (cA * (K : ℝ) - x)) / (cA2 * ((K : ℝ) * K) + y * y)
    sum5 := cA * K * (exp (-(cA * (K : ℝ) - x) * (cA * (K : ℝ) - x)) / (cA2 * ((K : ℝ) * K) + y * y)) }
    (by omega) (by omega) (by omega) (by simp) (le_refl _)
  have hc : exp (-(cA * (K : ℝ) - x) * (cA * (K : ℝ) - x)) / (cA2 * ((K : ℝ) * K) + y * y) = gTerm y x K := by
    unfold gTerm
    congr 1
    · congr 1
      ring
    · ring
  simp only [hc, zeroSums] at e1 e4 e5 e6
  have g3 : s'.sum3 = ∑ n ∈ Finset.Icc (K - D) (K + D), gTerm y x n := by
    rw [e5, ← sym_sum _ K D (by omega)]
    congr 1
    refine Finset.sum_congr rfl fun d hd => ?_
    rw [Finset.mem_Ico] at hd
    rw [upTerm_eq, downTerm_eq _ _ (by omega)]
  have g5 : s'.sum5 = cA * ∑ n ∈ Finset.Icc (K - D) (K + D), (n : ℝ) * gTerm y x n := by
    rw [e6, ← sym_sum _ K D (by omega), mul_add, Finset.mul_sum, mul_assoc]
    congr 1
    refine Finset.sum_congr rfl fun d hd => ?_
    rw [Finset.mem_Ico] at hd
    rw [upTerm_eq, downTerm_eq _ _ (by omega), Nat.cast_sub (by omega)]
    push_cast
    rfl
  refine ⟨K, D, hk1', by exact_mod_cast hk2, e2, e3, hdx, ?_, ?_⟩
  · rw [upTerm_eq, downTerm_eq _ _ (by omega), g5] at e7
    rw [Nat.cast_sub (by omega)]
    push_cast
    refine lt_of_mul_lt_mul_left (a := cA) ?_ hA.le
    linarith
  · unfold profile w
    have hn10 : ¬x < 10 := not_lt.2 h10
    rw [← hx] at h'
    simp only [hx0, if_neg h']
    simp only [hx, hy.ne', if_false, if_neg hn10, Except.map]
    have hl : large fuel x y = some s' := by
      unfold large
      simp only [hK, Int.toNat_natCast, Int.cast_natCast, hc, zeroSums]
      rw [e1]
    rw [hl]
    simp only [Option.map]
    unfold finish
    rw [Complex.add_re]
    simp only [Complex.ofReal_re, e4, g3, zero_add]
    rw [show -x * x = -x ^ 2 by ring]

theorem gTerm_nonneg (y x : ℝ) (n : ℕ) : 0 ≤ gTerm y x n := by
  have := cA2_pos
  unfold gTerm
  positivity

theorem gTerm_le {y x : ℝ} {n : ℕ} (hn : 1 ≤ n) : gTerm y x n ≤ 3.8 * exp (-(cA * n - x) ^ 2) := by
  have hn' : (1 : ℝ) ≤ n := by exact_mod_cast hn
  have h1 : (1 : ℝ) ≤ (n : ℝ) ^ 2 := by nlinarith
  have hA2 : cA2 = 0.268657157075235951582 := rfl
  have hyy := sq_nonneg y
  have hD : 1 / 3.8 ≤ cA2 * (n : ℝ) ^ 2 + y ^ 2 := by
    rw [hA2]
    norm_num
    linarith
  unfold gTerm
  rw [div_le_iff₀ (lt_of_lt_of_le (by norm_num) hD)]
  have he := exp_pos (-(cA * n - x) ^ 2)
  generalize exp (-(cA * n - x) ^ 2) = e at *
  have : e * (1 / 3.8) ≤ e * (cA2 * (n : ℝ) ^ 2 + y ^ 2) := by gcongr
  norm_num at this ⊢
  linarith

/-- A term so small that the loop ends is far from the largest one. -/
theorem gTerm_small {y x : ℝ} {n : ℕ} (hn : 1 ≤ n) (hn2 : n ≤ 68) (hy : y * y ≤ 1e-20) (h : (n : ℝ) * gTerm y x n ≤ 4e-15) : 30 ≤ (cA * n - x) ^ 2 := by
  have hn' : (1 : ℝ) ≤ n := by exact_mod_cast hn
  have hn2' : (n : ℝ) ≤ 68 := by exact_mod_cast hn2
  have hA2 : cA2 = 0.268657157075235951582 := rfl
  have hA2p := cA2_pos
  have hyy := sq_nonneg y
  by_contra hc
  rw [not_le] at hc
  have h1 : exp (-30) ≤ exp (-(cA * n - x) ^ 2) := exp_le_exp.2 (by linarith)
  have h2 : 9e-14 ≤ exp (-30) := by
    have e : exp (-30) = exp (-1) ^ 30 := by
      rw [← exp_nat_mul]
      norm_num
    have h3 : 0.36787 ≤ exp (-1) := by
      rw [exp_neg, le_inv_comm₀ (by norm_num) (exp_pos _)]
      have := exp_one_lt_d9
      norm_num at this ⊢
      linarith
    rw [e]
    calc (9e-14 : ℝ) ≤ 0.36787 ^ 30 := by norm_num
      _ ≤ _ := by gcongr
  have h4 := h2.trans h1
  unfold gTerm at h
  generalize exp (-(cA * n - x) ^ 2) = e at *
  have hD : 0 < cA2 * (n : ℝ) ^ 2 + y ^ 2 := by positivity
  rw [← mul_div_assoc, div_le_iff₀ hD] at h
  have h5 : cA2 * (n : ℝ) ^ 2 + y ^ 2 ≤ 18.5 * n := by
    rw [hA2]
    norm_num at hy ⊢
    nlinarith
  have h6 : (n : ℝ) * e ≤ 4e-15 * (18.5 * n) := h.trans (by gcongr)
  have h7 : (n : ℝ) * 9e-14 ≤ n * e := by gcongr
  norm_num at h6 h7
  linarith

/-- The terms left out are small. -/
theorem left_out {y x : ℝ} {K D : ℕ} (hK : 19 ≤ K) (hK2 : K ≤ 55) (hD1 : 1 ≤ D) (hD : D ≤ 13) (hy : y * y ≤ 1e-20) (hdx : |cA * (K : ℝ) - x| ≤ cA / 2)
    (hs : ((K + D : ℕ) : ℝ) * gTerm y x (K + D) + ((K - D : ℕ) : ℝ) * gTerm y x (K - D) < relerr * ∑ n ∈ Finset.Icc (K - D) (K + D), (n : ℝ) * gTerm y x n)
    {n : ℕ} (hn : n < K - D ∨ K + D < n) : exp (-(cA * n - x) ^ 2) ≤ 7e-16 := by
  have hA := cA_pos
  have hAv : cA = 0.518321480430085929872 := rfl
  have hA2p := cA2_pos
  have hA2 : cA2 = 0.268657157075235951582 := rfl
  have hdx' := abs_le.1 hdx
  have hsum : ∑ n ∈ Finset.Icc (K - D) (K + D), (n : ℝ) * gTerm y x n ≤ 17.1 := by
    have h1 : ∀ n ∈ Finset.Icc (K - D) (K + D), (n : ℝ) * gTerm y x n ≤ 0.63 := by
      intro n hn
      rw [Finset.mem_Icc] at hn
      have hn6 : (6 : ℝ) ≤ n := by exact_mod_cast (show 6 ≤ n by omega)
      have hyy := sq_nonneg y
      unfold gTerm
      have hD : 0 < cA2 * (n : ℝ) ^ 2 + y ^ 2 := by positivity
      rw [← mul_div_assoc, div_le_iff₀ hD]
      have he : exp (-(cA * n - x) ^ 2) ≤ 1 := exp_le_one_iff.2 (by nlinarith [sq_nonneg (cA * n - x)])
      have h2 : (n : ℝ) * exp (-(cA * n - x) ^ 2) ≤ n * 1 := by gcongr
      refine h2.trans ?_
      rw [hA2]
      norm_num
      nlinarith
    have h2 := Finset.sum_le_card_nsmul _ _ _ h1
    rw [Nat.card_Icc, nsmul_eq_mul] at h2
    have h3 : ((K + D + 1 - (K - D) : ℕ) : ℝ) ≤ 27 := by exact_mod_cast (show K + D + 1 - (K - D) ≤ 27 by omega)
    refine h2.trans ?_
    calc _ ≤ 27 * (0.63 : ℝ) := by gcongr
      _ ≤ _ := by norm_num
  have hrel : relerr ≤ 2.3e-16 := by
    unfold relerr
    norm_num
  have hs2 : relerr * ∑ n ∈ Finset.Icc (K - D) (K + D), (n : ℝ) * gTerm y x n ≤ 4e-15 := by
    have h0 : 0 ≤ ∑ n ∈ Finset.Icc (K - D) (K + D), (n : ℝ) * gTerm y x n := Finset.sum_nonneg fun n _ => mul_nonneg (Nat.cast_nonneg _) (gTerm_nonneg y x n)
    calc _ ≤ 2.3e-16 * (17.1 : ℝ) := by gcongr
      _ ≤ _ := by norm_num
  have p1 : 0 ≤ ((K + D : ℕ) : ℝ) * gTerm y x (K + D) := mul_nonneg (Nat.cast_nonneg _) (gTerm_nonneg y x _)
  have p2 : 0 ≤ ((K - D : ℕ) : ℝ) * gTerm y x (K - D) := mul_nonneg (Nat.cast_nonneg _) (gTerm_nonneg y x _)
  have q1 := gTerm_small (y := y) (x := x) (n := K + D) (by omega) (by omega) hy (by linarith)
  have q2 := gTerm_small (y := y) (x := x) (n := K - D) (by omega) (by omega) hy (by linarith)
  have hDr : (1 : ℝ) ≤ D := by exact_mod_cast hD1
  have root30 : ∀ t : ℝ, 0 ≤ t → 30 ≤ t ^ 2 → 5.477 ≤ t := by
    intro t h0 h1
    norm_num
    nlinarith
  have r1 : 5.477 ≤ cA * ((K + D : ℕ) : ℝ) - x := by
    have h1 : 0 ≤ cA * ((K + D : ℕ) : ℝ) - x := by
      push_cast
      nlinarith
    exact root30 _ h1 q1
  have r2 : 5.477 ≤ x - cA * ((K - D : ℕ) : ℝ) := by
    have h1 : 0 ≤ x - cA * ((K - D : ℕ) : ℝ) := by
      rw [Nat.cast_sub (by omega)]
      nlinarith
    exact root30 _ h1 (by linarith [q2, sq_abs (x - cA * ((K - D : ℕ) : ℝ)), show (cA * ((K - D : ℕ) : ℝ) - x) ^ 2 = (x - cA * ((K - D : ℕ) : ℝ)) ^ 2 by ring])
  have h35 : 35 ≤ (cA * n - x) ^ 2 := by
    rcases hn with h | h
    · have h1 : (n : ℝ) + 1 ≤ ((K - D : ℕ) : ℝ) := by exact_mod_cast h
      have h2 : cA * ((n : ℝ) + 1) ≤ cA * ((K - D : ℕ) : ℝ) := by gcongr
      have h3 : 5.99 ≤ x - cA * n := by
        have : cA * ((n : ℝ) + 1) = cA * n + cA := by ring
        rw [this] at h2
        have : (0.518 : ℝ) ≤ cA := by rw [hAv]; norm_num
        norm_num at r2 this ⊢
        linarith
      norm_num at h3
      nlinarith
    · have h1 : ((K + D : ℕ) : ℝ) + 1 ≤ n := by exact_mod_cast h
      have h2 : cA * (((K + D : ℕ) : ℝ) + 1) ≤ cA * n := by gcongr
      have h3 : 5.99 ≤ cA * n - x := by
        have : cA * (((K + D : ℕ) : ℝ) + 1) = cA * ((K + D : ℕ) : ℝ) + cA := by ring
        rw [this] at h2
        have : (0.518 : ℝ) ≤ cA := by rw [hAv]; norm_num
        generalize ((K + D : ℕ) : ℝ) = m at *
        norm_num at r1 this ⊢
        linarith
      norm_num at h3
      nlinarith
  have h := exp_neg_le 35 (x := (cA * n - x) ^ 2) (by exact_mod_cast h35)
  refine h.trans ?_
  norm_num

/-- The terms of the series without the last digits of the constants. -/
noncomputable def gExact (y x : ℝ) (n : ℕ) : ℝ := exp (-(cA * n - x) ^ 2) / ((cA * n) ^ 2 + y ^ 2)

theorem gExact_nonneg (y x : ℝ) (n : ℕ) : 0 ≤ gExact y x n := by
  unfold gExact
  positivity

theorem gExact_le {y x : ℝ} {n : ℕ} (hn : 1 ≤ n) : gExact y x n ≤ 3.8 * exp (-(cA * n - x) ^ 2) := by
  have hn' : (1 : ℝ) ≤ n := by exact_mod_cast hn
  have h1 : (1 : ℝ) ≤ (n : ℝ) ^ 2 := by nlinarith
  have hA2 : 0.268 ≤ cA ^ 2 := by
    unfold cA
    norm_num
  have hyy := sq_nonneg y
  have hD : 1 / 3.8 ≤ (cA * n) ^ 2 + y ^ 2 := by
    rw [mul_pow]
    norm_num at hA2 ⊢
    nlinarith
  unfold gExact
  rw [div_le_iff₀ (lt_of_lt_of_le (by norm_num) hD)]
  have he := exp_pos (-(cA * n - x) ^ 2)
  generalize exp (-(cA * n - x) ^ 2) = e at *
  have : e * (1 / 3.8) ≤ e * ((cA * n) ^ 2 + y ^ 2) := by gcongr
  norm_num at this ⊢
  linarith

theorem gTerm_near {y : ℝ} (x : ℝ) (hy : 0 < y) {n : ℕ} (hn : 1 ≤ n) : RelNear 1e-17 (0.5 * cC * y * gTerm y x n) (cA / π * y * gExact y x n) := by
  have hA := cA_pos
  have hA2 := cA2_pos
  have hpi := pi_pos
  have hn' : (1 : ℝ) ≤ n := by exact_mod_cast hn
  have d1 : RelNear 1e-18 cC (2 * cA / π) := cC_near
  have d3 : RelNear 1e-20 (cA2 * (n : ℝ) ^ 2 + y ^ 2) ((cA * n) ^ 2 + y ^ 2) := by
    unfold RelNear
    have e : cA2 * (n : ℝ) ^ 2 + y ^ 2 - ((cA * n) ^ 2 + y ^ 2) = (cA2 - cA ^ 2) * (n : ℝ) ^ 2 := by ring
    rw [e, abs_mul, abs_of_nonneg (sq_nonneg (n : ℝ))]
    have hAv : (0.1 : ℝ) ≤ cA ^ 2 := by
      unfold cA
      norm_num
    have h1 : 1e-21 * (n : ℝ) ^ 2 ≤ 1e-20 * (cA * (n : ℝ)) ^ 2 := by
      rw [mul_pow]
      have : 0.1 * (n : ℝ) ^ 2 ≤ cA ^ 2 * (n : ℝ) ^ 2 := by gcongr
      norm_num at this ⊢
      linarith
    calc |cA2 - cA ^ 2| * (n : ℝ) ^ 2 ≤ 1e-21 * (n : ℝ) ^ 2 := by gcongr; exact cA2_near
      _ ≤ _ := h1
      _ ≤ _ := by
        gcongr
        have := sq_nonneg y
        linarith
  have d3' := d3.inv (by positivity) (by norm_num)
  have m1 := ((d1.mul d3' (by positivity) (by positivity) (by norm_num)).mul
    (RelNear.refl (0.5 * y * exp (-(cA * n - x) ^ 2))) (by positivity) (by positivity) (by norm_num))
  have m2 := m1.mono (e := 1e-17) (by positivity) (by norm_num)
  convert m2 using 1
  · unfold gTerm
    ring
  · unfold gExact
    ring

/-- A term of the series and the one summed by the code. -/
theorem kappa_far {y : ℝ} (x : ℝ) (hx : 0 ≤ x) (hy : 0 < y) (i : ℕ) :
    |exp (-x ^ 2) * kappa cA y x i - cA / π * y * gExact y x (i + 1)| ≤ 2 * y * exp (-x ^ 2) := by
  have hA := cA_pos
  have hpi := pi_pos
  have e1 : exp (-x ^ 2) * kappa cA y x i - cA / π * y * gExact y x (i + 1) =
      2 * cA / π * y * ((1 / 2 * exp (-(cA * (i + 1) + x) ^ 2) - cos (2 * x * y) * exp (-x ^ 2 + -(cA * (i + 1)) ^ 2)) / ((cA * (i + 1)) ^ 2 + y ^ 2)) := by
    unfold kappa gExact
    rw [cosh_eq]
    push_cast
    have a1 : exp (-(cA * ((i : ℝ) + 1) - x) ^ 2) = exp (-x ^ 2 + -(cA * (i + 1)) ^ 2) * exp (2 * (cA * (i + 1)) * x) := by
      rw [← exp_add]
      congr 1
      ring
    have a2 : exp (-(cA * ((i : ℝ) + 1) + x) ^ 2) = exp (-x ^ 2 + -(cA * (i + 1)) ^ 2) * exp (-(2 * (cA * (i + 1)) * x)) := by
      rw [← exp_add]
      congr 1
      ring
    rw [a1, a2, exp_add]
    ring
  rw [e1, abs_mul, abs_of_pos (by positivity), abs_div, abs_of_pos (show 0 < (cA * ((i : ℝ) + 1)) ^ 2 + y ^ 2 by positivity)]
  have hm : |1 / 2 * exp (-(cA * ((i : ℝ) + 1) + x) ^ 2) - cos (2 * x * y) * exp (-x ^ 2 + -(cA * (i + 1)) ^ 2)| ≤ 3 / 2 * exp (-x ^ 2) := by
    have b1 : exp (-(cA * ((i : ℝ) + 1) + x) ^ 2) ≤ exp (-x ^ 2) := exp_le_exp.2 (by
      have : 0 ≤ cA * ((i : ℝ) + 1) := by positivity
      nlinarith)
    have b2 : exp (-x ^ 2 + -(cA * ((i : ℝ) + 1)) ^ 2) ≤ exp (-x ^ 2) := exp_le_exp.2 (by nlinarith [sq_nonneg (cA * ((i : ℝ) + 1))])
    have b3 : |cos (2 * x * y) * exp (-x ^ 2 + -(cA * ((i : ℝ) + 1)) ^ 2)| ≤ exp (-x ^ 2) := by
      rw [abs_mul, abs_of_pos (exp_pos _)]
      calc _ ≤ 1 * exp (-x ^ 2 + -(cA * ((i : ℝ) + 1)) ^ 2) := by gcongr; exact abs_cos_le_one _
        _ ≤ _ := by rw [one_mul]; exact b2
    refine (abs_sub _ _).trans ?_
    rw [abs_mul, abs_of_pos (exp_pos _), abs_of_pos (by norm_num : (0 : ℝ) < 1 / 2)]
    linarith
  have hn' : (1 : ℝ) ≤ (i : ℝ) + 1 := by
    have : (0 : ℝ) ≤ i := Nat.cast_nonneg _
    linarith
  have hD : 0.268 ≤ (cA * ((i : ℝ) + 1)) ^ 2 + y ^ 2 := by
    have hA2 : 0.268 ≤ cA ^ 2 := by
      unfold cA
      norm_num
    have h1 : (1 : ℝ) ≤ ((i : ℝ) + 1) ^ 2 := by nlinarith
    rw [mul_pow]
    norm_num at hA2 ⊢
    nlinarith [sq_nonneg y]
  have hc : 2 * cA / π ≤ 0.34 := by
    rw [div_le_iff₀ hpi]
    have := pi_gt_d2
    unfold cA
    norm_num at this ⊢
    linarith
  calc 2 * cA / π * y * (|1 / 2 * exp (-(cA * ((i : ℝ) + 1) + x) ^ 2) - cos (2 * x * y) * exp (-x ^ 2 + -(cA * (i + 1)) ^ 2)| / ((cA * (i + 1)) ^ 2 + y ^ 2))
      ≤ 0.34 * y * (3 / 2 * exp (-x ^ 2) / 0.268) := by gcongr
    _ ≤ 2 * y * exp (-x ^ 2) := by
      have := mul_pos hy (exp_pos (-x ^ 2))
      norm_num
      linarith

theorem voigtH_zero_ge {y : ℝ} (hy : 0 < y) (hy2 : y ≤ 1e-10) : 1 - 2 * y ≤ voigtH y 0 := by
  have hs : 0 < √π := sqrt_pos.2 pi_pos
  have hs1 : 1 ≤ √π := by
    rw [le_sqrt' one_pos]
    have := pi_gt_three
    linarith
  have ht : √π / 2 - y ≤ tail y := by
    unfold tail
    have : ∫ v in (0 : ℝ)..y, exp (-v ^ 2) ≤ ∫ v in (0 : ℝ)..y, (1 : ℝ) :=
      intervalIntegral.integral_mono_on hy.le (Continuous.intervalIntegrable (by fun_prop) _ _) (Continuous.intervalIntegrable (by fun_prop) _ _)
        fun v _ => exp_le_one_iff.2 (by nlinarith [sq_nonneg v])
    simp at this
    linarith
  have hp : 0 ≤ √π / 2 - y := by
    norm_num at hy2
    linarith
  rw [voigtH_zero hy]
  have h1 : 1 ≤ exp (y ^ 2) := one_le_exp (sq_nonneg y)
  have h2 : 2 / √π * 1 * (√π / 2 - y) ≤ 2 / √π * exp (y ^ 2) * tail y := by gcongr
  refine le_trans ?_ h2
  have e : 2 / √π * 1 * (√π / 2 - y) = 1 - 2 * y / √π := by
    field_simp
  rw [e]
  have : 2 * y / √π ≤ 2 * y := div_le_self (by linarith) hs1
  linarith

/-- The sum of the code against the series. -/
theorem sum_far {y x : ℝ} {K D : ℕ} (hx : 0 ≤ x) (hy0 : 0 < y) (hK : 19 ≤ K) (hK2 : K ≤ 55) (hD1 : 1 ≤ D) (hD : D ≤ 13) (hy : y * y ≤ 1e-20)
    (hdx : |cA * (K : ℝ) - x| ≤ cA / 2)
    (hs : ((K + D : ℕ) : ℝ) * gTerm y x (K + D) + ((K - D : ℕ) : ℝ) * gTerm y x (K - D) < relerr * ∑ n ∈ Finset.Icc (K - D) (K + D), (n : ℝ) * gTerm y x n) :
    |0.5 * cC * y * (∑ n ∈ Finset.Icc (K - D) (K + D), gTerm y x n) - exp (-x ^ 2) * ∑ i ∈ Finset.range 80, kappa cA y x i| ≤
      (4e-14 + 160 * exp (-x ^ 2)) * y := by
  have hA := cA_pos
  have hpi := pi_pos
  have hc : cA / π ≤ 0.17 := by
    rw [div_le_iff₀ hpi]
    have := pi_gt_d2
    unfold cA
    norm_num at this ⊢
    linarith
  have hsub : Finset.Icc (K - D) (K + D) ⊆ Finset.Ico 1 81 := by
    intro n hn
    rw [Finset.mem_Icc] at hn
    rw [Finset.mem_Ico]
    omega
  have hU : ∑ i ∈ Finset.range 80, gExact y x (i + 1) = ∑ n ∈ Finset.Ico 1 81, gExact y x n := by
    rw [Finset.sum_Ico_eq_sum_range]
    refine Finset.sum_congr rfl fun i _ => ?_
    rw [add_comm]
  have b1 : |0.5 * cC * y * (∑ n ∈ Finset.Icc (K - D) (K + D), gTerm y x n) - cA / π * y * ∑ n ∈ Finset.Icc (K - D) (K + D), gExact y x n| ≤ 2e-16 * y := by
    rw [Finset.mul_sum, Finset.mul_sum, ← Finset.sum_sub_distrib]
    refine (Finset.abs_sum_le_sum_abs _ _).trans ?_
    have h1 : ∀ n ∈ Finset.Icc (K - D) (K + D), |0.5 * cC * y * gTerm y x n - cA / π * y * gExact y x n| ≤ 1e-17 * (0.17 * y * 3.8) := by
      intro n hn
      rw [Finset.mem_Icc] at hn
      refine (gTerm_near x hy0 (show 1 ≤ n by omega)).trans ?_
      have h2 := gExact_le (y := y) (x := x) (show 1 ≤ n by omega)
      have h3 : exp (-(cA * n - x) ^ 2) ≤ 1 := exp_le_one_iff.2 (by nlinarith [sq_nonneg (cA * n - x)])
      have h4 : gExact y x n ≤ 3.8 := h2.trans (by norm_num at h3 ⊢; linarith)
      gcongr
      exact gExact_nonneg _ _ _
    have h2 := Finset.sum_le_card_nsmul _ _ _ h1
    rw [Nat.card_Icc, nsmul_eq_mul] at h2
    have h3 : ((K + D + 1 - (K - D) : ℕ) : ℝ) ≤ 27 := by exact_mod_cast (show K + D + 1 - (K - D) ≤ 27 by omega)
    refine h2.trans ?_
    calc _ ≤ 27 * ((1e-17 : ℝ) * (0.17 * y * 3.8)) := by gcongr
      _ ≤ _ := by
        norm_num
        linarith
  have b2 : |cA / π * y * (∑ n ∈ Finset.Icc (K - D) (K + D), gExact y x n) - cA / π * y * ∑ i ∈ Finset.range 80, gExact y x (i + 1)| ≤ 3.7e-14 * y := by
    rw [← mul_sub, hU, ← Finset.sum_sdiff hsub, sub_add_cancel_right, mul_neg, abs_neg]
    have h0 : 0 ≤ ∑ n ∈ Finset.Ico 1 81 \ Finset.Icc (K - D) (K + D), gExact y x n := Finset.sum_nonneg fun n _ => gExact_nonneg _ _ _
    rw [abs_of_nonneg (by positivity)]
    have h1 : ∀ n ∈ Finset.Ico 1 81 \ Finset.Icc (K - D) (K + D), gExact y x n ≤ 3.8 * 7e-16 := by
      intro n hn
      rw [Finset.mem_sdiff, Finset.mem_Ico, Finset.mem_Icc] at hn
      refine (gExact_le hn.1.1).trans (mul_le_mul_of_nonneg_left ?_ (by norm_num))
      exact left_out hK hK2 hD1 hD hy hdx hs (by omega)
    have h2 := Finset.sum_le_card_nsmul _ _ _ h1
    rw [nsmul_eq_mul] at h2
    have h3 : ((Finset.Ico 1 81 \ Finset.Icc (K - D) (K + D)).card : ℝ) ≤ 80 := by
      have := Finset.card_le_card (Finset.sdiff_subset (s := Finset.Ico 1 81) (t := Finset.Icc (K - D) (K + D)))
      rw [Nat.card_Ico] at this
      exact_mod_cast this
    have h4 : ∑ n ∈ Finset.Ico 1 81 \ Finset.Icc (K - D) (K + D), gExact y x n ≤ 80 * (3.8 * 7e-16) := h2.trans (by gcongr)
    calc _ ≤ 0.17 * y * (80 * (3.8 * 7e-16)) := by gcongr
      _ ≤ _ := by
        norm_num
        linarith
  have b3 : |cA / π * y * (∑ i ∈ Finset.range 80, gExact y x (i + 1)) - exp (-x ^ 2) * ∑ i ∈ Finset.range 80, kappa cA y x i| ≤ 160 * exp (-x ^ 2) * y := by
    rw [Finset.mul_sum, Finset.mul_sum, ← Finset.sum_sub_distrib]
    refine (Finset.abs_sum_le_sum_abs _ _).trans ?_
    have h2 := Finset.sum_le_card_nsmul (Finset.range 80) (fun i => |cA / π * y * gExact y x (i + 1) - exp (-x ^ 2) * kappa cA y x i|) (2 * y * exp (-x ^ 2))
      fun i _ => by rw [abs_sub_comm]; exact kappa_far x hx hy0 i
    refine h2.trans (le_of_eq ?_)
    rw [Finset.card_range, nsmul_eq_mul]
    push_cast
    ring
  generalize 0.5 * cC * y * (∑ n ∈ Finset.Icc (K - D) (K + D), gTerm y x n) = A at *
  generalize cA / π * y * ∑ n ∈ Finset.Icc (K - D) (K + D), gExact y x n = B at *
  generalize cA / π * y * ∑ i ∈ Finset.range 80, gExact y x (i + 1) = C at *
  generalize exp (-x ^ 2) * ∑ i ∈ Finset.range 80, kappa cA y x i = Z at *
  have e : A - Z = (A - B) + ((B - C) + (C - Z)) := by ring
  rw [e]
  refine (abs_add_le _ _).trans ?_
  have := abs_add_le (B - C) (C - Z)
  refine le_trans (add_le_add b1 (this.trans (add_le_add b2 b3))) ?_
  rw [add_mul]
  norm_num
  linarith

theorem far_centre {x a : ℝ} (h10 : 10 ≤ x) (h28 : x ≤ 28) (ha : 0 < a) (ha2 : a ≤ 1e-10) :
    |exp (-x ^ 2) * (1 - cos (2 * x * a) * voigtH a 0)| ≤ exp (-x ^ 2) * (3 * a) := by
  have hEp := exp_pos (-x ^ 2)
  have hcos1 := cos_le_one (2 * x * a)
  have hcos2 := one_sub_sq_div_two_le_cos (x := 2 * x * a)
  have h1 := voigtH_zero_ge ha ha2
  have h2 := voigtH_zero_le ha
  have h3 : (2 * x * a) ^ 2 / 2 ≤ a / 2 := by
    have : x ^ 2 * a ≤ 784 * 1e-10 := mul_le_mul (by nlinarith) ha2 ha.le (by norm_num)
    norm_num at this
    nlinarith
  have h4 : a ≤ 1 / 100 := ha2.trans (by norm_num)
  rw [abs_mul, abs_of_pos hEp]
  refine mul_le_mul_of_nonneg_left ?_ hEp.le
  rw [abs_le]
  constructor <;> nlinarith

theorem far_kappa0 {x a : ℝ} (h10 : 10 ≤ x) (h28 : x ≤ 28) (ha : 0 < a) : |exp (-x ^ 2) * kappa0 cA a x| ≤ exp (-x ^ 2) * (300 * a) := by
  have hA := cA_pos
  have hEp := exp_pos (-x ^ 2)
  have hcos1 := cos_le_one (2 * x * a)
  have hcos2 := one_sub_sq_div_two_le_cos (x := 2 * x * a)
  rw [abs_mul, abs_of_pos hEp, abs_of_nonneg (kappa0_nonneg hA ha x)]
  refine mul_le_mul_of_nonneg_left ?_ hEp.le
  unfold kappa0
  have h1 : (1 - cos (2 * x * a)) / a ≤ 1568 * a := by
    rw [div_le_iff₀ ha]
    have : x ^ 2 * a ^ 2 ≤ 784 * a ^ 2 := by
      gcongr
      nlinarith
    nlinarith
  have h2 : cA / π ≤ 0.17 := by
    rw [div_le_iff₀ pi_pos]
    have := pi_gt_d2
    unfold cA
    norm_num at this ⊢
    linarith
  have h0 : 0 ≤ (1 - cos (2 * x * a)) / a := div_nonneg (by linarith) ha.le
  calc _ ≤ 0.17 * (1568 * a) := by gcongr
    _ ≤ _ := by
      norm_num
      linarith

theorem far_trunc {x : ℝ} (h28 : x ≤ 28) : ∀ v, 0 ≤ v → v ≤ x →
    |cA / √π * (1 + ∑ n ∈ Finset.range 80, gterm cA v n) - exp (v ^ 2)| ≤ 1e-15 * exp (v ^ 2) := by
  have hN : (5 : ℝ) ≤ cA * (80 : ℕ) - x := by
    unfold cA
    norm_num
    linarith
  intro v h0 h1
  have h2 := gsum_trunc (h := cA) (v := v) (x := x) (N := 80) (by unfold cA; norm_num) (by unfold cA; norm_num) (by rw [abs_of_nonneg h0]; exact h1) hN
  refine h2.trans (mul_le_mul_of_nonneg_right ?_ (exp_pos _).le)
  have h3 : 13 ≤ cA * (80 : ℕ) - x := by
    unfold cA
    norm_num
    linarith
  have h4 := exp_neg_le 100 (x := (cA * (80 : ℕ) - x) ^ 2) (by push_cast at h3 ⊢; nlinarith)
  have h5 : (0.36788 : ℝ) ^ 100 ≤ 1e-40 := by norm_num
  have h6 := h4.trans h5
  generalize exp (-(cA * (80 : ℕ) - x) ^ 2) = e at *
  norm_num at h6 ⊢
  linarith

/-- Between 10 and 28 widths from the centre, for damping parameters too small for the continued fraction. -/
theorem profile_large (F : RealFns) (fuel : ℕ) {u a : ℝ} (h10 : 10 ≤ |u|) (ha : 0 < a) (h : ¬InWing u a) :
    ∃ r, profile F fuel u a = .ok (some r) ∧ |r - voigtH a u| ≤ 1e-10 * voigtH a u := by
  have h5 : |u| ≤ 28 ∧ a ≤ 1e-10 := by
    unfold InWing at h
    push Not at h
    obtain ⟨_, h6⟩ := h
    obtain ⟨_, h7, h8⟩ := h6 (by linarith)
    exact ⟨h8, h7 (by linarith)⟩
  obtain ⟨K, D, hK, hK2, hD1, hD, hdx, hst, hv⟩ := large_value F fuel h10 h5.1 ha h5.2 h
  refine ⟨_, hv, ?_⟩
  have hH := voigtH_pos ha u
  have hev : voigtH a u = voigtH a |u| := by
    rcases abs_choice u with e | e <;> rw [e]
    rw [voigtH_even]
  rw [hev] at hH ⊢
  obtain ⟨h28, ha2⟩ := h5
  generalize |u| = x at *
  have hx0 : 0 < x := by linarith
  have haa : a * a ≤ 1e-20 := by
    have : a * a ≤ 1e-10 * 1e-10 := mul_le_mul ha2 ha2 ha.le (by norm_num)
    exact this.trans (by norm_num)
  have hA := cA_pos
  have hs : 0 < √π := sqrt_pos.2 pi_pos
  have hs2 : √π ≤ 1.78 := by
    rw [sqrt_le_left (by norm_num)]
    have := pi_lt_d2
    norm_num at this ⊢
    linarith
  have c1 := sum_far hx0.le ha hK hK2 hD1 hD haa hdx hst
  have hE : exp (-x ^ 2) ≤ 1e-40 := by
    have h1 := exp_neg_le 100 (x := x ^ 2) (by push_cast; nlinarith)
    refine h1.trans ?_
    norm_num
  have hEp := exp_pos (-x ^ 2)
  have c2 := series_err ha hx0.le (far_trunc h28)
  have c3 := meas_voigt hx0 ha (ha2.trans (by norm_num))
  have hHa : a ≤ 1400 * voigtH a x := by
    have h1 := Hermite.voigtH_ge_lorentz ha x
    have h2 : √π * (x ^ 2 + a ^ 2 + 1 / 2) ≤ 1400 := by
      have h3 : x ^ 2 + a ^ 2 + 1 / 2 ≤ 785 := by
        norm_num at haa
        nlinarith
      calc _ ≤ 1.78 * (785 : ℝ) := by gcongr
        _ ≤ _ := by norm_num
    have h3 : a / 1400 ≤ voigtH a x := le_trans (by gcongr) h1
    linarith
  have c4 := far_centre h10 h28 ha ha2
  have c5 := far_kappa0 h10 h28 ha
  generalize ∑ n ∈ Finset.range 80, kappa cA a x n = S at c1 c2
  generalize kappa0 cA a x = S0 at c2 c5
  have c6 : |exp (-x ^ 2) * (cos (2 * x * a) * voigtH a 0 + (S0 + S) - exp (x ^ 2) * voigtH a x)| ≤
      2e-13 * voigtH a x := by
    rw [abs_mul, abs_of_pos hEp]
    calc _ ≤ exp (-x ^ 2) * (1e-15 * (4 * a / √π * meas x)) := by gcongr
      _ = 1e-15 * (exp (-x ^ 2) * (4 * a / √π * meas x)) := by ring
      _ ≤ 1e-15 * (145 * voigtH a x) := by gcongr
      _ ≤ _ := by
        norm_num
        linarith
  have key : ∀ p : ℝ, exp (-x ^ 2) + p - voigtH a x = exp (-x ^ 2) * (1 - cos (2 * x * a) * voigtH a 0) +
      (-(exp (-x ^ 2) * S0) + ((p - exp (-x ^ 2) * S) +
      exp (-x ^ 2) * (cos (2 * x * a) * voigtH a 0 + (S0 + S) - exp (x ^ 2) * voigtH a x))) := by
    intro p
    have : exp (-x ^ 2) * (exp (x ^ 2) * voigtH a x) = voigtH a x := by
      rw [← mul_assoc, ← exp_add, neg_add_cancel, exp_zero, one_mul]
    linear_combination this
  rw [key]
  clear key
  have d1 : exp (-x ^ 2) * (3 * a) ≤ 3e-40 * a := by
    have := mul_le_mul_of_nonneg_right hE ha.le
    norm_num at this ⊢
    linarith
  have d2 : exp (-x ^ 2) * (300 * a) ≤ 3e-38 * a := by
    have := mul_le_mul_of_nonneg_right hE ha.le
    norm_num at this ⊢
    linarith
  have d3 : (4e-14 + 160 * exp (-x ^ 2)) * a ≤ 4.1e-14 * a := by
    refine mul_le_mul_of_nonneg_right ?_ ha.le
    norm_num at hE ⊢
    linarith
  have c5' : |-(exp (-x ^ 2) * S0)| ≤ 3e-38 * a := by
    rw [abs_neg]
    exact c5.trans d2
  refine (abs_add_le _ _).trans (le_trans (add_le_add (c4.trans d1) ((abs_add_le _ _).trans (add_le_add c5' ((abs_add_le _ _).trans (add_le_add (c1.trans d3) c6))))) ?_)
  norm_num
  linarith

/-- The case is met: 12 widths from the centre with a damping parameter of 1e-11. -/
example : (10 : ℝ) ≤ |12| ∧ ¬InWing 12 1e-11 := by
  unfold InWing
  norm_num

end Verif.Props
