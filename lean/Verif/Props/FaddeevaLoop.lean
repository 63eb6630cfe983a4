import Verif.Props.FaddeevaTable
import Verif.Lemmas.VoigtSum

/-!
Property C99: what the loops over the table add up, and where they stop.
-/

namespace Verif.Props
open Verif.Model.Faddeeva Verif.VoigtSeries Real

/-- The coefficient of a turn of the loops. -/
noncomputable def lcoef (y ex : ℝ) (tab : List ℝ) (n i : ℕ) : ℝ :=
  tab.getD i 0 * ex / (cA2 * (((n + i : ℕ) : ℝ) * ((n + i : ℕ) : ℝ)) + y * y)

theorem lcoef_succ (y ex e : ℝ) (tab : List ℝ) (n i : ℕ) : lcoef y ex (e :: tab) n (i + 1) = lcoef y ex tab (n + 1) i := by
  unfold lcoef
  rw [List.getD_cons_succ, show n + (i + 1) = n + 1 + i by ring]

theorem lcoef_zero (y ex e : ℝ) (tab : List ℝ) (n : ℕ) : lcoef y ex (e :: tab) n 0 = e * ex / (cA2 * ((n : ℝ) * n) + y * y) := rfl

theorem loopMain_sums {y ex A B : ℝ} : ∀ (tab : List ℝ) (n : ℕ) (p pm : ℝ) (s r : Sums), loopMain y ex A B tab n p pm s = .ok r →
    ∃ k, k < tab.length ∧
      r.sum1 = s.sum1 + ∑ i ∈ Finset.range (k + 1), lcoef y ex tab n i ∧
      r.sum2 = s.sum2 + ∑ i ∈ Finset.range (k + 1), lcoef y ex tab n i * (pm * B ^ (i + 1)) ∧
      r.sum3 = s.sum3 + ∑ i ∈ Finset.range (k + 1), lcoef y ex tab n i * (p * A ^ (i + 1)) ∧
      r.sum5 = s.sum5 + ∑ i ∈ Finset.range (k + 1), lcoef y ex tab n i * (p * A ^ (i + 1)) * (cA * ((n + i : ℕ) : ℝ)) ∧
      lcoef y ex tab n k * (p * A ^ (k + 1)) * (cA * ((n + k : ℕ) : ℝ)) < relerr * r.sum5
  | [], _, _, _, _, _, h => by simp [loopMain] at h
  | e :: tab, n, p, pm, s, r, h => by
    rw [loopMain] at h
    simp only at h
    split at h
    · rename_i hc
      injection h with h
      subst h
      refine ⟨0, by simp, ?_, ?_, ?_, ?_, ?_⟩
      · simp [lcoef_zero]
      · simp [lcoef_zero]
      · simp [lcoef_zero]
      · simp [lcoef_zero]
      · simpa [lcoef_zero] using hc
    · obtain ⟨k, hk, h1, h2, h3, h5, h6⟩ := loopMain_sums tab (n + 1) _ _ _ r h
      refine ⟨k + 1, by simpa using hk, ?_, ?_, ?_, ?_, ?_⟩
      · rw [h1, Finset.sum_range_succ' _ (k + 1)]
        simp only [lcoef_succ, lcoef_zero]
        ring
      · rw [h2, Finset.sum_range_succ' _ (k + 1)]
        simp only [lcoef_succ, lcoef_zero, pow_succ, pow_zero]
        have : ∀ i, lcoef y ex tab (n + 1) i * (pm * B * (B ^ i * B)) = lcoef y ex tab (n + 1) i * (pm * (B ^ i * B * B)) := fun i => by ring
        simp_rw [this]
        ring
      · rw [h3, Finset.sum_range_succ' _ (k + 1)]
        simp only [lcoef_succ, lcoef_zero, pow_succ, pow_zero]
        have : ∀ i, lcoef y ex tab (n + 1) i * (p * A * (A ^ i * A)) = lcoef y ex tab (n + 1) i * (p * (A ^ i * A * A)) := fun i => by ring
        simp_rw [this]
        ring
      · rw [h5, Finset.sum_range_succ' _ (k + 1)]
        simp only [lcoef_succ, lcoef_zero, pow_succ, pow_zero]
        have : ∀ i, lcoef y ex tab (n + 1) i * (p * A * (A ^ i * A)) * (cA * ((n + 1 + i : ℕ) : ℝ)) =
            lcoef y ex tab (n + 1) i * (p * (A ^ i * A * A)) * (cA * ((n + (i + 1) : ℕ) : ℝ)) := fun i => by push_cast; ring
        simp_rw [this]
        push_cast
        ring
      · rw [lcoef_succ]
        calc _ = lcoef y ex tab (n + 1) k * (p * A * A ^ (k + 1)) * (cA * ((n + 1 + k : ℕ) : ℝ)) := by push_cast; ring
          _ < _ := h6

theorem loopTiny_sums {x y ex A B : ℝ} : ∀ (tab : List ℝ) (n : ℕ) (p pm : ℝ) (s r : Sums), loopTiny x y ex A B tab n p pm s = .ok r →
    ∃ k, k < tab.length ∧
      r.sum1 = s.sum1 + ∑ i ∈ Finset.range (k + 1), lcoef y ex tab n i ∧
      r.sum2 = s.sum2 + ∑ i ∈ Finset.range (k + 1), lcoef y ex tab n i * (pm * B ^ (i + 1)) ∧
      r.sum3 = s.sum3 + ∑ i ∈ Finset.range (k + 1), lcoef y ex tab n i * (p * A ^ (i + 1)) ∧
      lcoef y ex tab n k * (p * A ^ (k + 1)) < relerr * r.sum3
  | [], _, _, _, _, _, h => by simp [loopTiny] at h
  | e :: tab, n, p, pm, s, r, h => by
    rw [loopTiny] at h
    simp only at h
    split at h
    · rename_i hc
      injection h with h
      subst h
      refine ⟨0, by simp, ?_, ?_, ?_, ?_⟩
      · simp [lcoef_zero]
      · simp [lcoef_zero]
      · simp [lcoef_zero]
      · simpa [lcoef_zero] using hc
    · obtain ⟨k, hk, h1, h2, h3, h6⟩ := loopTiny_sums tab (n + 1) _ _ _ r h
      refine ⟨k + 1, by simpa using hk, ?_, ?_, ?_, ?_⟩
      · rw [h1, Finset.sum_range_succ' _ (k + 1)]
        simp only [lcoef_succ, lcoef_zero]
        ring
      · rw [h2, Finset.sum_range_succ' _ (k + 1)]
        simp only [lcoef_succ, lcoef_zero, pow_succ, pow_zero]
        have : ∀ i, lcoef y ex tab (n + 1) i * (pm * B * (B ^ i * B)) = lcoef y ex tab (n + 1) i * (pm * (B ^ i * B * B)) := fun i => by ring
        simp_rw [this]
        ring
      · rw [h3, Finset.sum_range_succ' _ (k + 1)]
        simp only [lcoef_succ, lcoef_zero, pow_succ, pow_zero]
        have : ∀ i, lcoef y ex tab (n + 1) i * (p * A * (A ^ i * A)) = lcoef y ex tab (n + 1) i * (p * (A ^ i * A * A)) := fun i => by ring
        simp_rw [this]
        ring
      · rw [lcoef_succ]
        calc _ = lcoef y ex tab (n + 1) k * (p * A * A ^ (k + 1)) := by ring
          _ < _ := h6

/-- An element of the table. -/
noncomputable def tabAt (i : ℕ) : ℝ := expa2n2.getD i 0

theorem tabAt_near {i : ℕ} (hi : i < 51) : |tabAt i - exp (-(cA * (i + 1)) ^ 2)| ≤ 1e-16 * exp (-(cA * (i + 1)) ^ 2) := by
  obtain ⟨t, ht, h⟩ := table_gauss hi
  unfold tabAt
  rw [List.getD_eq_getElem?_getD, ht]
  exact h

theorem tabAt_last : tabAt 51 = 0 := by
  unfold tabAt
  rw [List.getD_eq_getElem?_getD, table_eq, List.getElem?_append_right (by rw [List.length_map]; decide)]
  simp [tabNat]

theorem table_length : expa2n2.length = 52 := rfl

theorem lcoef_table (y ex : ℝ) (i : ℕ) : lcoef y ex expa2n2 1 i = tabAt i * ex / (cA2 * ((i : ℝ) + 1) ^ 2 + y ^ 2) := by
  unfold lcoef tabAt
  congr 1
  push_cast
  ring

theorem exp28 : (5.9e-13 : ℝ) ≤ exp (-28) := by
  have h1 : 0.36787 ≤ exp (-1) := by
    rw [exp_neg, le_inv_comm₀ (by norm_num) (exp_pos _)]
    have := exp_one_lt_d9
    norm_num at this ⊢
    linarith
  have e : exp (-28) = exp (-1) ^ 28 := by
    rw [← exp_nat_mul]
    norm_num
  rw [e]
  calc (5.9e-13 : ℝ) ≤ (0.36787 : ℝ) ^ 28 := by norm_num
    _ ≤ _ := by gcongr

theorem exists_mean {k : ℕ} (f : ℕ → ℝ) : ∃ j ≤ k, ∑ i ∈ Finset.range (k + 1), f i ≤ (k + 1) * f j := by
  by_contra hc
  push Not at hc
  have : ∑ j ∈ Finset.range (k + 1), ((k : ℝ) + 1) * f j < ∑ j ∈ Finset.range (k + 1), ∑ i ∈ Finset.range (k + 1), f i := by
    refine Finset.sum_lt_sum_of_nonempty ⟨0, by simp⟩ fun j hj => hc j ?_
    have := Finset.mem_range.1 hj
    omega
  rw [← Finset.mul_sum, Finset.sum_const, Finset.card_range, nsmul_eq_mul] at this
  push_cast at this
  exact lt_irrefl _ this

/-- Where the test for the size of the terms stops the sums: a later term is far below an earlier one. -/
theorem stop_ratio {k : ℕ} (hk : k < 51) {f G c : ℕ → ℝ} {W : ℝ} (hG : ∀ i, 0 < G i) (hc : ∀ i, 0 < c i) (hW : ∀ j ≤ k, c j ≤ W * c k)
    (hf : ∀ i ≤ k, |f i - G i * c i| ≤ 1e-16 * (G i * c i)) (hs : f k < relerr * ∑ i ∈ Finset.range (k + 1), f i) :
    ∃ j ≤ k, G k < relerr * 51 * W * (1 + 3e-16) * G j := by
  obtain ⟨j, hj, hm⟩ := exists_mean (k := k) f
  refine ⟨j, hj, ?_⟩
  have h1 := (abs_le.1 (hf k le_rfl)).1
  have h2 := (abs_le.1 (hf j hj)).2
  have hr := relerr_pos
  have hk1 : ((k : ℝ) + 1) ≤ 51 := by exact_mod_cast hk
  have hGj := hG j
  have hck := hc k
  have hcj := hc j
  have hW0 : 0 < W := by
    have := hW k le_rfl
    by_contra hn
    have : W * c k ≤ 0 := mul_nonpos_of_nonpos_of_nonneg (not_lt.1 hn) hck.le
    linarith [hW k le_rfl]
  have h3 : f j ≤ (1 + 1e-16) * (G j * (W * c k)) := by
    have : G j * c j ≤ G j * (W * c k) := mul_le_mul_of_nonneg_left (hW j hj) hGj.le
    calc f j ≤ (1 + 1e-16) * (G j * c j) := by linarith
      _ ≤ _ := by gcongr
  have h4 : f k < relerr * (51 * ((1 + 1e-16) * (G j * (W * c k)))) := by
    refine lt_of_lt_of_le hs (mul_le_mul_of_nonneg_left (hm.trans ?_) hr.le)
    calc ((k : ℝ) + 1) * f j ≤ (k + 1) * ((1 + 1e-16) * (G j * (W * c k))) := by gcongr
      _ ≤ _ := by gcongr
  have h5 : (1 - 1e-16) * (G k * c k) < relerr * (51 * ((1 + 1e-16) * (G j * (W * c k)))) := by linarith
  have h6 : (1 - 1e-16) * G k < relerr * (51 * ((1 + 1e-16) * (G j * W))) := by
    refine lt_of_mul_lt_mul_right ?_ hck.le
    calc (1 - 1e-16) * G k * c k = (1 - 1e-16) * (G k * c k) := by ring
      _ < _ := h5
      _ = _ := by ring
  have hQ : 0 < relerr * 51 * W * G j := by positivity
  have h7 : (1 - 1e-16) * G k < (1 + 1e-16) * (relerr * 51 * W * G j) := by
    calc _ < _ := h6
      _ = _ := by ring
  rw [show relerr * 51 * W * (1 + 3e-16) * G j = (1 + 3e-16) * (relerr * 51 * W * G j) by ring]
  generalize relerr * 51 * W * G j = Q at *
  norm_num at h7 ⊢
  linarith

theorem grid_ratio {y : ℝ} {j k : ℕ} (hj : j ≤ k) : (cA2 * ((k : ℝ) + 1) ^ 2 + y ^ 2) * ((j : ℝ) + 1) ^ 2 ≤ (cA2 * ((j : ℝ) + 1) ^ 2 + y ^ 2) * ((k : ℝ) + 1) ^ 2 := by
  have : (j : ℝ) ≤ k := by exact_mod_cast hj
  have h0 : (0 : ℝ) ≤ j := Nat.cast_nonneg j
  have : y ^ 2 * ((j : ℝ) + 1) ^ 2 ≤ y ^ 2 * ((k : ℝ) + 1) ^ 2 := by gcongr
  nlinarith

theorem gauss_shift (x : ℝ) (i : ℕ) : exp (-(cA * ((i : ℝ) + 1)) ^ 2) * exp (-x * x) * exp (2 * cA * x) ^ (i + 1) = exp (-(cA * ((i : ℝ) + 1) - x) ^ 2) := by
  rw [← exp_nat_mul, ← exp_add, ← exp_add]
  congr 1
  push_cast
  ring

/-- The loop stops when the terms left out are negligible. -/
theorem stop_main {x y : ℝ} {k : ℕ} (hk : k < 51) (hy : 0 < y)
    (hs : lcoef y (exp (-x * x)) expa2n2 1 k * (1 * exp (2 * cA * x) ^ (k + 1)) * (cA * ((1 + k : ℕ) : ℝ)) < relerr *
      ∑ i ∈ Finset.range (k + 1), lcoef y (exp (-x * x)) expa2n2 1 i * (1 * exp (2 * cA * x) ^ (i + 1)) * (cA * ((1 + i : ℕ) : ℝ))) :
    5 ≤ cA * ((k + 1 : ℕ) : ℝ) - x ∧ 28 ≤ (cA * ((k + 1 : ℕ) : ℝ) - x) ^ 2 := by
  have hA := cA_pos
  have hA2 := cA2_pos
  have hW : ∀ j ≤ k, (fun i : ℕ => cA * ((i : ℝ) + 1) / (cA2 * ((i : ℝ) + 1) ^ 2 + y ^ 2)) j ≤ 51 * (fun i : ℕ => cA * ((i : ℝ) + 1) / (cA2 * ((i : ℝ) + 1) ^ 2 + y ^ 2)) k := by
    intro j hj
    simp only
    have hr := grid_ratio (y := y) hj
    have hD : 0 < cA2 * ((k : ℝ) + 1) ^ 2 + y ^ 2 := by positivity
    have hd : 0 < cA2 * ((j : ℝ) + 1) ^ 2 + y ^ 2 := by positivity
    rw [mul_div_assoc', div_le_div_iff₀ hd hD]
    have hk1 : ((k : ℝ) + 1) ≤ 51 := by exact_mod_cast hk
    have h0 : (0 : ℝ) ≤ j := Nat.cast_nonneg j
    have h1 : cA * ((j : ℝ) + 1) * (cA2 * ((k : ℝ) + 1) ^ 2 + y ^ 2) ≤ cA * ((cA2 * ((k : ℝ) + 1) ^ 2 + y ^ 2) * ((j : ℝ) + 1) ^ 2) := by
      have : ((j : ℝ) + 1) ≤ ((j : ℝ) + 1) ^ 2 := by nlinarith
      calc _ = cA * ((cA2 * ((k : ℝ) + 1) ^ 2 + y ^ 2) * ((j : ℝ) + 1)) := by ring
        _ ≤ _ := by gcongr
    calc _ ≤ _ := h1
      _ ≤ cA * ((cA2 * ((j : ℝ) + 1) ^ 2 + y ^ 2) * ((k : ℝ) + 1) ^ 2) := by gcongr
      _ = (((k : ℝ) + 1) * (cA * ((k : ℝ) + 1))) * (cA2 * ((j : ℝ) + 1) ^ 2 + y ^ 2) := by ring
      _ ≤ _ := by gcongr
  have hf : ∀ i ≤ k, |(fun i : ℕ => lcoef y (exp (-x * x)) expa2n2 1 i * (1 * exp (2 * cA * x) ^ (i + 1)) * (cA * ((1 + i : ℕ) : ℝ))) i - (fun i : ℕ => exp (-(cA * ((i : ℝ) + 1) - x) ^ 2)) i * (fun i : ℕ => cA * ((i : ℝ) + 1) / (cA2 * ((i : ℝ) + 1) ^ 2 + y ^ 2)) i| ≤ 1e-16 * ((fun i : ℕ => exp (-(cA * ((i : ℝ) + 1) - x) ^ 2)) i * (fun i : ℕ => cA * ((i : ℝ) + 1) / (cA2 * ((i : ℝ) + 1) ^ 2 + y ^ 2)) i) := by
    intro i hi
    simp only
    have ht := tabAt_near (lt_of_le_of_lt hi hk)
    rw [lcoef_table, ← gauss_shift]
    have e1 : tabAt i * exp (-x * x) / (cA2 * ((i : ℝ) + 1) ^ 2 + y ^ 2) * (1 * exp (2 * cA * x) ^ (i + 1)) * (cA * ((1 + i : ℕ) : ℝ)) -
        exp (-(cA * ((i : ℝ) + 1)) ^ 2) * exp (-x * x) * exp (2 * cA * x) ^ (i + 1) * (cA * ((i : ℝ) + 1) / (cA2 * ((i : ℝ) + 1) ^ 2 + y ^ 2)) =
        (tabAt i - exp (-(cA * ((i : ℝ) + 1)) ^ 2)) * (exp (-x * x) * exp (2 * cA * x) ^ (i + 1) * (cA * ((i : ℝ) + 1) / (cA2 * ((i : ℝ) + 1) ^ 2 + y ^ 2))) := by
      push_cast
      ring
    rw [e1, abs_mul, abs_of_pos (a := exp (-x * x) * exp (2 * cA * x) ^ (i + 1) * (cA * ((i : ℝ) + 1) / (cA2 * ((i : ℝ) + 1) ^ 2 + y ^ 2))) (by positivity)]
    calc _ ≤ 1e-16 * exp (-(cA * ((i : ℝ) + 1)) ^ 2) * (exp (-x * x) * exp (2 * cA * x) ^ (i + 1) * (cA * ((i : ℝ) + 1) / (cA2 * ((i : ℝ) + 1) ^ 2 + y ^ 2))) := by gcongr
      _ = _ := by ring
  obtain ⟨j, hj, h⟩ := stop_ratio hk (f := fun i => lcoef y (exp (-x * x)) expa2n2 1 i * (1 * exp (2 * cA * x) ^ (i + 1)) * (cA * ((1 + i : ℕ) : ℝ)))
    (G := fun i => exp (-(cA * ((i : ℝ) + 1) - x) ^ 2)) (c := fun i => cA * ((i : ℝ) + 1) / (cA2 * ((i : ℝ) + 1) ^ 2 + y ^ 2)) (W := 51)
    (fun i : ℕ => exp_pos _) (fun i => by positivity) hW hf hs
  have h28 : relerr * 51 * 51 * (1 + 3e-16) ≤ exp (-28) := by
    refine le_trans ?_ exp28
    unfold relerr
    norm_num
  have h2 : exp (-(cA * ((k : ℝ) + 1) - x) ^ 2) < exp (-28) * exp (-(cA * ((j : ℝ) + 1) - x) ^ 2) :=
    lt_of_lt_of_le h (by gcongr)
  rw [← exp_add, exp_lt_exp] at h2
  have hjk : (j : ℝ) ≤ k := by exact_mod_cast hj
  push_cast
  have hm : cA * ((j : ℝ) + 1) ≤ cA * ((k : ℝ) + 1) := by gcongr
  have h3 : 28 ≤ (cA * ((k : ℝ) + 1) - x) ^ 2 := by nlinarith [sq_nonneg (cA * ((j : ℝ) + 1) - x)]
  have h4 : 0 ≤ cA * ((k : ℝ) + 1) - x := by
    by_contra hn
    rw [not_le] at hn
    nlinarith
  exact ⟨by nlinarith, h3⟩

theorem exp24 : (3e-11 : ℝ) ≤ exp (-24) := by
  have h1 : 0.36787 ≤ exp (-1) := by
    rw [exp_neg, le_inv_comm₀ (by norm_num) (exp_pos _)]
    have := exp_one_lt_d9
    norm_num at this ⊢
    linarith
  have e : exp (-24) = exp (-1) ^ 24 := by
    rw [← exp_nat_mul]
    norm_num
  rw [e]
  calc (3e-11 : ℝ) ≤ (0.36787 : ℝ) ^ 24 := by norm_num
    _ ≤ _ := by gcongr

/-- The loop for tiny arguments takes at least ten turns. -/
theorem stop_tiny {y ex A : ℝ} {k : ℕ} (hk : k < 51) (hy : 0 < y) (hex : 0 < ex) (hA1 : 1 ≤ A)
    (hs : lcoef y ex expa2n2 1 k * (1 * A ^ (k + 1)) < relerr * ∑ i ∈ Finset.range (k + 1), lcoef y ex expa2n2 1 i * (1 * A ^ (i + 1))) :
    10 ≤ k + 1 := by
  have hA := cA_pos
  have hA2 := cA2_pos
  have hW : ∀ j ≤ k, (fun i : ℕ => ex / (cA2 * ((i : ℝ) + 1) ^ 2 + y ^ 2)) j ≤ 2601 * (fun i : ℕ => ex / (cA2 * ((i : ℝ) + 1) ^ 2 + y ^ 2)) k := by
    intro j hj
    simp only
    have hr := grid_ratio (y := y) hj
    have hD : 0 < cA2 * ((k : ℝ) + 1) ^ 2 + y ^ 2 := by positivity
    have hd : 0 < cA2 * ((j : ℝ) + 1) ^ 2 + y ^ 2 := by positivity
    rw [mul_div_assoc', div_le_div_iff₀ hd hD]
    have hk1 : ((k : ℝ) + 1) ≤ 51 := by exact_mod_cast hk
    have h0 : (0 : ℝ) ≤ j := Nat.cast_nonneg j
    have h1 : ex * (cA2 * ((k : ℝ) + 1) ^ 2 + y ^ 2) ≤ ex * ((cA2 * ((k : ℝ) + 1) ^ 2 + y ^ 2) * ((j : ℝ) + 1) ^ 2) := by
      have : 1 ≤ ((j : ℝ) + 1) ^ 2 := by nlinarith
      refine mul_le_mul_of_nonneg_left ?_ hex.le
      nlinarith
    calc _ ≤ _ := h1
      _ ≤ ex * ((cA2 * ((j : ℝ) + 1) ^ 2 + y ^ 2) * ((k : ℝ) + 1) ^ 2) := by gcongr
      _ ≤ ex * ((cA2 * ((j : ℝ) + 1) ^ 2 + y ^ 2) * 51 ^ 2) := by gcongr
      _ = _ := by ring
  have hf : ∀ i ≤ k, |(fun i : ℕ => lcoef y ex expa2n2 1 i * (1 * A ^ (i + 1))) i - (fun i : ℕ => exp (-(cA * ((i : ℝ) + 1)) ^ 2) * A ^ (i + 1)) i * (fun i : ℕ => ex / (cA2 * ((i : ℝ) + 1) ^ 2 + y ^ 2)) i| ≤ 1e-16 * ((fun i : ℕ => exp (-(cA * ((i : ℝ) + 1)) ^ 2) * A ^ (i + 1)) i * (fun i : ℕ => ex / (cA2 * ((i : ℝ) + 1) ^ 2 + y ^ 2)) i) := by
    intro i hi
    simp only
    have ht := tabAt_near (lt_of_le_of_lt hi hk)
    rw [lcoef_table]
    have e1 : tabAt i * ex / (cA2 * ((i : ℝ) + 1) ^ 2 + y ^ 2) * (1 * A ^ (i + 1)) -
        exp (-(cA * ((i : ℝ) + 1)) ^ 2) * A ^ (i + 1) * (ex / (cA2 * ((i : ℝ) + 1) ^ 2 + y ^ 2)) =
        (tabAt i - exp (-(cA * ((i : ℝ) + 1)) ^ 2)) * (A ^ (i + 1) * (ex / (cA2 * ((i : ℝ) + 1) ^ 2 + y ^ 2))) := by
      ring
    have hA0 : 0 < A := by linarith
    rw [e1, abs_mul, abs_of_pos (a := A ^ (i + 1) * (ex / (cA2 * ((i : ℝ) + 1) ^ 2 + y ^ 2))) (by positivity)]
    calc _ ≤ 1e-16 * exp (-(cA * ((i : ℝ) + 1)) ^ 2) * (A ^ (i + 1) * (ex / (cA2 * ((i : ℝ) + 1) ^ 2 + y ^ 2))) := by gcongr
      _ = _ := by ring
  obtain ⟨j, hj, h⟩ := stop_ratio hk (f := fun i => lcoef y ex expa2n2 1 i * (1 * A ^ (i + 1)))
    (G := fun i => exp (-(cA * ((i : ℝ) + 1)) ^ 2) * A ^ (i + 1)) (c := fun i => ex / (cA2 * ((i : ℝ) + 1) ^ 2 + y ^ 2)) (W := 2601)
    (fun i => by positivity) (fun i => by positivity) hW hf hs
  have h24 : relerr * 51 * 2601 * (1 + 3e-16) ≤ exp (-24) := by
    refine le_trans ?_ exp24
    unfold relerr
    norm_num
  have h2 : exp (-(cA * ((k : ℝ) + 1)) ^ 2) * A ^ (k + 1) < exp (-24) * (exp (-(cA * ((j : ℝ) + 1)) ^ 2) * A ^ (j + 1)) :=
    lt_of_lt_of_le h (by gcongr)
  have hp : A ^ (j + 1) ≤ A ^ (k + 1) := pow_le_pow_right₀ hA1 (by omega)
  have h3 : exp (-(cA * ((k : ℝ) + 1)) ^ 2) < exp (-24) * exp (-(cA * ((j : ℝ) + 1)) ^ 2) := by
    refine lt_of_mul_lt_mul_right (a := A ^ (k + 1)) ?_ (by positivity)
    refine lt_of_lt_of_le h2 ?_
    rw [← mul_assoc]
    gcongr
  rw [← exp_add, exp_lt_exp] at h3
  by_contra hn
  have hk8 : (k : ℝ) + 1 ≤ 9 := by exact_mod_cast (by omega : k + 1 ≤ 9)
  have hj0 : (0 : ℝ) ≤ j := Nat.cast_nonneg j
  have hk0 : (0 : ℝ) ≤ k := Nat.cast_nonneg k
  have hAv : cA = 0.518321480430085929872 := rfl
  have h5 : (cA * ((k : ℝ) + 1)) ^ 2 ≤ (cA * 9) ^ 2 := by gcongr
  have h6 : (cA * 1) ^ 2 ≤ (cA * ((j : ℝ) + 1)) ^ 2 := by gcongr; linarith
  rw [hAv] at h5 h6 h3
  norm_num at h5 h6 h3
  nlinarith

end Verif.Props
