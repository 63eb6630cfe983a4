import Verif.Props.Faddeeva
import Mathlib.Analysis.Complex.ExponentialBounds

/-!
Property C99: the line profile has a value for every argument: the loops end, and never read past the table.
-/

namespace Verif.Props
open Verif.Model.Faddeeva Real

theorem table_nonneg : ∀ e ∈ expa2n2, 0 ≤ e := by
  intro e he
  unfold expa2n2 at he
  simp only [List.mem_cons, List.not_mem_nil, or_false] at he
  rcases he with h | h | h | h | h | h | h | h | h | h | h | h | h | h | h | h | h | h | h | h | h | h | h | h | h | h |
    h | h | h | h | h | h | h | h | h | h | h | h | h | h | h | h | h | h | h | h | h | h | h | h | h | h <;> rw [h] <;>
    first | positivity | exact NNRat.cast_nonneg _

theorem table_head : ∃ e t, expa2n2 = e :: t ∧ 0 < e ∧ (∀ f ∈ t, 0 ≤ f) ∧ (0 : ℝ) ∈ t := by
  refine ⟨_, _, rfl, by norm_num, fun f hf => table_nonneg f (List.mem_cons_of_mem _ hf), ?_⟩
  simp only [List.mem_cons, List.not_mem_nil, or_false]
  repeat right
  norm_num

theorem cA_pos : 0 < cA := by unfold cA; norm_num
theorem cA2_pos : 0 < cA2 := by unfold cA2; norm_num
theorem relerr_pos : 0 < relerr := by unfold relerr; positivity

theorem denom_pos {n : ℕ} (hn : 1 ≤ n) (y : ℝ) : 0 < cA2 * ((n : ℝ) * n) + y * y := by
  have h1 := cA2_pos
  have : (0 : ℝ) < n := by exact_mod_cast hn
  have := mul_self_nonneg y
  positivity

theorem map_ok {α β : Type} {f : α → β} {c : CRes α} (h : ∃ r, c = .ok r) : ∃ r, c.map f = .ok r := by
  obtain ⟨r, rfl⟩ := h
  exact ⟨_, rfl⟩

theorem loopMain_ok {y expx2 exp2ax expm2ax : ℝ} (h1 : 0 < expx2) (h2 : 0 < exp2ax) : ∀ (tab : List ℝ) (n : ℕ) (p pm : ℝ) (s : Sums),
    (∀ e ∈ tab, 0 ≤ e) → (0 : ℝ) ∈ tab → 1 ≤ n → 0 < p → 0 < s.sum5 → ∃ r, loopMain y expx2 exp2ax expm2ax tab n p pm s = .ok r
  | [], _, _, _, _, _, h, _, _, _ => by simp at h
  | e :: tab, n, p, pm, s, he, h0, hn, hp, hs => by
    rw [loopMain]
    simp only
    split
    · exact ⟨_, rfl⟩
    · rename_i hc
      have hd := denom_pos hn y
      have hc0 : 0 ≤ e * expx2 / (cA2 * (n * n) + y * y) := by
        have := he e (by simp)
        positivity
      have ha := cA_pos
      have hadd : 0 ≤ e * expx2 / (cA2 * (n * n) + y * y) * (p * exp2ax) * (cA * n) := by positivity
      refine loopMain_ok h1 h2 tab (n + 1) _ _ _ (fun f hf => he f (by simp [hf])) ?_ (by omega) (by positivity) (by simp only; linarith)
      rcases List.mem_cons.1 h0 with h | h
      · exfalso
        refine hc ?_
        rw [← h]
        have hr := relerr_pos
        simp
        positivity
      · exact h

theorem loopTiny_ok {x y expx2 exp2ax expm2ax : ℝ} (h1 : 0 < expx2) (h2 : 0 < exp2ax) : ∀ (tab : List ℝ) (n : ℕ) (p pm : ℝ) (s : Sums),
    (∀ e ∈ tab, 0 ≤ e) → (0 : ℝ) ∈ tab → 1 ≤ n → 0 < p → 0 < s.sum3 → ∃ r, loopTiny x y expx2 exp2ax expm2ax tab n p pm s = .ok r
  | [], _, _, _, _, _, h, _, _, _ => by simp at h
  | e :: tab, n, p, pm, s, he, h0, hn, hp, hs => by
    rw [loopTiny]
    simp only
    split
    · exact ⟨_, rfl⟩
    · rename_i hc
      have hd := denom_pos hn y
      have hc0 : 0 ≤ e * expx2 / (cA2 * (n * n) + y * y) := by
        have := he e (by simp)
        positivity
      have hadd : 0 ≤ e * expx2 / (cA2 * (n * n) + y * y) * (p * exp2ax) := by positivity
      refine loopTiny_ok h1 h2 tab (n + 1) _ _ _ (fun f hf => he f (by simp [hf])) ?_ (by omega) (by positivity) (by simp only; linarith)
      rcases List.mem_cons.1 h0 with h | h
      · exfalso
        refine hc ?_
        rw [← h]
        have hr := relerr_pos
        simp
        positivity
      · exact h

/-- The loops over the table end before its end. -/
theorem sums_ok {x y : ℝ} (hx : 0 ≤ x) : ∃ r, sums x y = .ok r := by
  obtain ⟨e, t, ht, he, htn, ht0⟩ := table_head
  have hd := denom_pos (le_refl 1) y
  have ha := cA_pos
  unfold sums
  split
  · rename_i hx2
    have hx3 : x < 1 / 1000 := by norm_num at hx2; linarith
    have h1 : 0 < 1 - x * x * (1 - 0.5 * (x * x)) := by
      norm_num
      nlinarith [mul_nonneg hx hx]
    have h2 : 0 < 1 + 1.036642960860171859744 * x * (1 + 1.036642960860171859744 * x * (0.5 + 0.166666666666666666667 * (1.036642960860171859744 * x))) := by
      positivity
    simp only
    rw [ht, loopTiny]
    simp only
    split
    · exact ⟨_, rfl⟩
    · refine map_ok (loopTiny_ok h1 h2 t _ _ _ _ htn ht0 (by omega) (by rw [one_mul]; exact h2) ?_)
      simp only [zeroSums]
      rw [zero_add]
      positivity
  · have h1 : 0 < exp (-x * x) := exp_pos _
    have h2 : 0 < exp (2 * cA * x) := exp_pos _
    simp only
    rw [ht, loopMain]
    simp only
    split
    · exact ⟨_, rfl⟩
    · refine map_ok (loopMain_ok h1 h2 t _ _ _ _ htn ht0 (by omega) (by rw [one_mul]; exact h2) ?_)
      simp only [zeroSums]
      rw [zero_add]
      positivity

/-! ### The branch of large arguments -/

theorem exp_small : exp (-41) ≤ 2e-18 := by
  have h : exp (-1) ≤ 0.36788 := by
    rw [exp_neg, inv_le_comm₀ (exp_pos _) (by norm_num)]
    have := exp_one_gt_d9
    norm_num at this ⊢
    linarith
  have e : exp (-41) = exp (-1) ^ 41 := by
    rw [← exp_nat_mul]
    norm_num
  rw [e]
  calc exp (-1) ^ 41 ≤ (0.36788 : ℝ) ^ 41 := by gcongr
    _ ≤ 2e-18 := by norm_num

/-- The terms thirteen steps away from the largest one are negligible. -/
theorem term13 {y n0 dx : ℝ} (hn1 : 19 ≤ n0) (hn2 : n0 ≤ 55) (hy : y * y ≤ 1e-20) (hdx : |dx| ≤ cA / 2) :
    cA * ((n0 + 13) * (exp (-((cA * 13 + dx) * (cA * 13 + dx))) / (cA2 * ((n0 + 13) * (n0 + 13)) + y * y)) +
      (n0 - 13) * (exp (-((cA * 13 + dx) * (cA * 13 + dx))) * exp (4 * cA * dx) ^ 13 / (cA2 * ((n0 - 13) * (n0 - 13)) + y * y))) <
    relerr * (cA * n0 * (exp (-dx * dx) / (cA2 * (n0 * n0) + y * y))) := by
  have hyy := mul_self_nonneg y
  have hA : cA = 0.518321480430085929872 := rfl
  have hA2 : cA2 = 0.268657157075235951582 := rfl
  have hd := abs_le.1 hdx
  have e1 : exp (-((cA * 13 + dx) * (cA * 13 + dx))) ≤ 2e-18 := by
    refine le_trans (exp_le_exp.2 ?_) exp_small
    have : cA * 12.5 ≤ cA * 13 + dx := by linarith [hd.1]
    have h2 : (6.45 : ℝ) ≤ cA * 13 + dx := le_trans (by rw [hA]; norm_num) this
    norm_num at h2
    nlinarith
  have e2 : exp (-((cA * 13 + dx) * (cA * 13 + dx))) * exp (4 * cA * dx) ^ 13 ≤ 2e-18 := by
    rw [← exp_nat_mul, ← exp_add]
    refine le_trans (exp_le_exp.2 ?_) exp_small
    have : cA * 12.5 ≤ cA * 13 - dx := by linarith [hd.2]
    have h2 : (6.45 : ℝ) ≤ cA * 13 - dx := le_trans (by rw [hA]; norm_num) this
    push_cast
    norm_num at h2
    nlinarith
  have f1 : (n0 + 13) * (exp (-((cA * 13 + dx) * (cA * 13 + dx))) / (cA2 * ((n0 + 13) * (n0 + 13)) + y * y)) ≤ 2e-18 := by
    have hD : 0 < cA2 * ((n0 + 13) * (n0 + 13)) + y * y := by
      rw [hA2]
      positivity
    rw [← mul_div_assoc, div_le_iff₀ hD]
    have h3 : (n0 + 13) * exp (-((cA * 13 + dx) * (cA * 13 + dx))) ≤ (n0 + 13) * 2e-18 := by gcongr
    have h4 : n0 + 13 ≤ cA2 * ((n0 + 13) * (n0 + 13)) + y * y := by
      rw [hA2]
      norm_num
      nlinarith
    norm_num at h3 ⊢
    linarith
  have f2 : (n0 - 13) * (exp (-((cA * 13 + dx) * (cA * 13 + dx))) * exp (4 * cA * dx) ^ 13 / (cA2 * ((n0 - 13) * (n0 - 13)) + y * y)) ≤ 2e-18 := by
    have hm : 6 ≤ n0 - 13 := by linarith
    generalize n0 - 13 = m at hm ⊢
    have hD : 0 < cA2 * (m * m) + y * y := by
      rw [hA2]
      positivity
    rw [← mul_div_assoc, div_le_iff₀ hD]
    have h3 : m * (exp (-((cA * 13 + dx) * (cA * 13 + dx))) * exp (4 * cA * dx) ^ 13) ≤ m * 2e-18 := by gcongr
    have h4 : m ≤ cA2 * (m * m) + y * y := by
      rw [hA2]
      norm_num
      nlinarith
    norm_num at h3 ⊢
    linarith
  have e3 : 0.9 ≤ exp (-dx * dx) := by
    have h5 : dx * dx ≤ 0.09 := by
      have : |dx| ≤ 0.26 := hdx.trans (by rw [hA]; norm_num)
      have h6 := abs_le.1 this
      norm_num at h6 ⊢
      nlinarith [h6.1, h6.2]
    have := add_one_le_exp (-dx * dx)
    refine le_trans ?_ this
    norm_num at h5 ⊢
    linarith
  have f3 : 0.9 / 15 ≤ n0 * (exp (-dx * dx) / (cA2 * (n0 * n0) + y * y)) := by
    have hD : 0 < cA2 * (n0 * n0) + y * y := by
      rw [hA2]
      positivity
    rw [← mul_div_assoc, div_le_div_iff₀ (by norm_num) hD]
    have h4 : cA2 * (n0 * n0) + y * y ≤ n0 * 15 := by
      rw [hA2]
      norm_num at hy ⊢
      nlinarith
    have h5 : n0 * 0.9 * 15 ≤ n0 * exp (-dx * dx) * 15 := by gcongr
    norm_num at h5 h4 ⊢
    linarith
  have hrel : (2.2e-16 : ℝ) ≤ relerr := by
    unfold relerr
    norm_num
  have hApos := cA_pos
  have h7 : cA * ((n0 + 13) * (exp (-((cA * 13 + dx) * (cA * 13 + dx))) / (cA2 * ((n0 + 13) * (n0 + 13)) + y * y)) +
      (n0 - 13) * (exp (-((cA * 13 + dx) * (cA * 13 + dx))) * exp (4 * cA * dx) ^ 13 / (cA2 * ((n0 - 13) * (n0 - 13)) + y * y))) ≤ cA * 4e-18 := by
    refine mul_le_mul_of_nonneg_left ?_ hApos.le
    norm_num at f1 f2 ⊢
    linarith
  have h8 : cA * (2.2e-16 * (0.9 / 15)) ≤ relerr * (cA * n0 * (exp (-dx * dx) / (cA2 * (n0 * n0) + y * y))) := by
    have : relerr * (cA * n0 * (exp (-dx * dx) / (cA2 * (n0 * n0) + y * y))) = cA * (relerr * (n0 * (exp (-dx * dx) / (cA2 * (n0 * n0) + y * y)))) := by ring
    rw [this]
    refine mul_le_mul_of_nonneg_left ?_ hApos.le
    exact mul_le_mul hrel f3 (by norm_num) relerr_pos.le
  refine lt_of_le_of_lt h7 (lt_of_lt_of_le ?_ h8)
  exact mul_lt_mul_of_pos_left (by norm_num) hApos

theorem both_stops {y n0 dx : ℝ} (hn1 : 19 ≤ n0) (hn2 : n0 ≤ 55) (hy : y * y ≤ 1e-20) (hdx : |dx| ≤ cA / 2) :
    ∀ (fuel dn : ℕ) (e : ℝ) (s : Sums), 1 ≤ dn → dn ≤ 13 → 14 ≤ dn + fuel → e = exp (4 * cA * dx) ^ (dn - 1) →
      cA * n0 * (exp (-dx * dx) / (cA2 * (n0 * n0) + y * y)) ≤ s.sum5 →
      (loopBoth y n0 dx (exp (4 * cA * dx)) fuel dn e s).2.1 = true
  | 0, dn, _, _, _, h2, h3, _, _ => by omega
  | fuel + 1, dn, e, s, h1, h2, h3, he, hs => by
    have hyy := mul_self_nonneg y
    have hA := cA_pos
    have hA2 := cA2_pos
    have hdn : (dn : ℝ) ≤ 13 := by exact_mod_cast h2
    have hpos : n0 - dn > 0 := by linarith
    rw [loopBoth]
    simp only
    rw [if_pos hpos]
    have hee : e * exp (4 * cA * dx) = exp (4 * cA * dx) ^ dn := by
      rw [he, ← pow_succ]
      congr 1
      omega
    have t1 : 0 ≤ cA * ((n0 + dn) * (exp (-((cA * dn + dx) * (cA * dn + dx))) / (cA2 * ((n0 + dn) * (n0 + dn)) + y * y)) +
        (n0 - dn) * (exp (-((cA * dn + dx) * (cA * dn + dx))) * (e * exp (4 * cA * dx)) / (cA2 * ((n0 - dn) * (n0 - dn)) + y * y))) := by
      rw [hee]
      positivity
    split
    · rfl
    · rename_i hc
      have hne : dn ≠ 13 := by
        intro h13
        refine hc ?_
        rw [hee]
        rw [hee] at t1
        subst h13
        refine lt_of_lt_of_le (term13 hn1 hn2 hy hdx) (mul_le_mul_of_nonneg_left ?_ relerr_pos.le)
        linarith
      refine both_stops hn1 hn2 hy hdx fuel (dn + 1) _ _ (by omega) (by omega) (by omega) ?_ ?_
      · rw [hee]
        simp
      · simp only
        linarith

/-- With a real part between 10 and 28 the first loop converges: the second one is never reached. -/
theorem large_ok {fuel : ℕ} {x y : ℝ} (hx1 : 10 ≤ x) (hx2 : x ≤ 28) (hy : |y| ≤ 1e-10) : ∃ s, large fuel x y = some s := by
  have hA := cA_pos
  have hAv : cA = 0.518321480430085929872 := rfl
  have hyy : y * y ≤ 1e-20 := by
    rw [← abs_mul_abs_self]
    have : |y| * |y| ≤ 1e-10 * 1e-10 := mul_le_mul hy hy (abs_nonneg _) (by norm_num)
    refine this.trans (by norm_num)
  have hq1 : 19 ≤ x / cA := by
    rw [le_div_iff₀ hA, hAv]
    norm_num
    linarith
  have hq2 : x / cA ≤ 54.1 := by
    rw [div_le_iff₀ hA, hAv]
    norm_num
    linarith
  set k := ⌊x / cA + 0.5⌋ with hk
  have hf1 := Int.floor_le (x / cA + 0.5)
  have hf2 := Int.lt_floor_add_one (x / cA + 0.5)
  rw [← hk] at hf1 hf2
  have hk1 : 19 ≤ k := by
    rw [hk, Int.le_floor]
    push_cast
    norm_num
    linarith
  have hkr : (19 : ℝ) ≤ k := by exact_mod_cast hk1
  have hk2 : (k : ℝ) ≤ 55 := by norm_num at hf1 hq2; linarith
  have hxe : x = cA * (x / cA) := by field_simp
  have hdx : |cA * (k : ℝ) - x| ≤ cA / 2 := by
    have e : cA * (k : ℝ) - x = cA * (k - x / cA) := by
      rw [mul_sub, ← hxe]
    rw [e, abs_mul, abs_of_pos hA]
    have e2 : cA / 2 = cA * (1 / 2) := by ring
    rw [e2]
    refine mul_le_mul_of_nonneg_left ?_ hA.le
    generalize x / cA = t at *
    rw [abs_le]
    norm_num at hf1 hf2 ⊢
    constructor <;> linarith
  unfold large
  simp only
  have h := both_stops hkr hk2 hyy hdx k.toNat 1 1 { zeroSums with
    sum3 := exp (-(cA * (k : ℝ) - x) * (cA * (k : ℝ) - x)) / (cA2 * ((k : ℝ) * k) + y * y)
    sum5 := cA * k * (exp (-(cA * (k : ℝ) - x) * (cA * (k : ℝ) - x)) / (cA2 * ((k : ℝ) * k) + y * y)) }
    (by omega) (by omega) (by omega) (by simp) (le_refl _)
  split
  · exact ⟨_, rfl⟩
  · rename_i s dn he
    rw [he] at h
    simp at h

/-- The profile has a value for every argument, with no read past the end of the table and no endless loop. -/
theorem profile_total (F : RealFns) (fuel : ℕ) (u a : ℝ) : ∃ r, profile F fuel u a = .ok (some r) := by
  have hw : ∃ r, w F fuel ⟨u, a⟩ = .ok (some r) := by
    unfold w
    simp only
    split
    · exact ⟨_, rfl⟩
    split
    · exact ⟨_, rfl⟩
    split
    · exact ⟨_, rfl⟩
    rename_i h3
    split
    · obtain ⟨r, hr⟩ := sums_ok (y := a) (abs_nonneg u)
      rw [hr]
      exact ⟨_, rfl⟩
    · rename_i h4
      rw [not_lt] at h4
      have h5 : |u| ≤ 28 ∧ |a| ≤ 1e-10 := by
        unfold useCF at h3
        push Not at h3
        obtain ⟨_, h6⟩ := h3
        obtain ⟨_, h7, h8⟩ := h6 (by linarith)
        exact ⟨h8, h7 (by linarith)⟩
      obtain ⟨s, hs⟩ := large_ok (fuel := fuel) h4 h5.1 h5.2
      rw [hs]
      exact ⟨_, rfl⟩
  obtain ⟨r, hr⟩ := hw
  unfold profile
  rw [hr]
  exact ⟨_, rfl⟩

end Verif.Props
