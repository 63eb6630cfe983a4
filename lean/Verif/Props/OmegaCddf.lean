import Verif.Props.Incidence

/-!
C64: Omega from the column density function compared with the direct sum.
-/

namespace Verif.Props
open Verif Verif.Np Verif.Absorbers Verif.Units Verif.Spec

theorem trapz_range (m x : ℕ → ℝ) (n : ℕ) : trapz ((List.range n).map m) ((List.range n).map x) =
    ∑ i ∈ Finset.range (n - 1), (x (i + 1) - x i) * (m i + m (i + 1)) / 2 := by
  induction n generalizing m x with
  | zero => simp [trapz]
  | succ n ih =>
    cases n with
    | zero => simp [trapz]
    | succ n =>
      have hr : ∀ f : ℕ → ℝ, (List.range (n + 1 + 1)).map f = f 0 :: f 1 :: (List.range n).map (fun i => f (i + 2)) := by
        intro f
        rw [List.range_succ_eq_map, List.range_succ_eq_map]
        simp [List.map_map, Function.comp_def]
      have hr' : ∀ f : ℕ → ℝ, f 1 :: (List.range n).map (fun i => f (i + 2)) = (List.range (n + 1)).map (fun i => f (i + 1)) := by
        intro f
        rw [List.range_succ_eq_map]
        simp [List.map_map, Function.comp_def]
      rw [hr m, hr x, trapz, hr' m, hr' x, ih]
      rw [show n + 1 + 1 - 1 = (n + 1 - 1) + 1 by omega, Finset.sum_range_succ']
      ring

/-- The ratio of neighbouring edges of the table. -/
noncomputable def ratio : ℝ := (10 : ℝ) ^ (0.2 : ℝ)

theorem ratio_gt_one : 1 < ratio := by
  unfold ratio
  exact Real.one_lt_rpow (by norm_num) (by norm_num)

theorem logEdge_succ (a : ℝ) (i : ℕ) : logEdge a 0.2 (i + 1) = ratio * logEdge a 0.2 i := by
  unfold logEdge ratio
  rw [← Real.rpow_add (by norm_num)]
  congr 1
  push_cast; ring

open Classical in
/-- Counts times bin centres, and the total of the column densities in the bins. -/
theorem centre_sum_bounds {a : ℝ} {n : ℕ} (hn : 0 < n) {xs : List ℝ}
    (hx : ∀ x ∈ xs, x < logEdge a 0.2 0 ∨ (logEdge a 0.2 0 < x ∧ x ≤ logEdge a 0.2 n)) {u : ℝ} (hu : logEdge a 0.2 n < u) :
    (1 + ratio) / (2 * ratio) * sumBetween (logEdge a 0.2 0) u xs ≤
      ∑ i ∈ Finset.range n, (Spec.count (InEdges (logEdge a 0.2) n i) xs : ℝ) * (logEdge a 0.2 i * (1 + ratio) / 2) ∧
    ∑ i ∈ Finset.range n, (Spec.count (InEdges (logEdge a 0.2) n i) xs : ℝ) * (logEdge a 0.2 i * (1 + ratio) / 2) ≤
      (1 + ratio) / 2 * sumBetween (logEdge a 0.2 0) u xs := by
  have hr := ratio_gt_one
  have hm : Monotone (logEdge a 0.2) := logEdge_mono (by norm_num)
  induction xs with
  | nil => simp [sumBetween, Spec.count]
  | cons x xs ih =>
    obtain ⟨ih1, ih2⟩ := ih (fun y hy => hx y (by simp [hy]))
    rw [sumBetween_cons]
    have hcons : ∑ i ∈ Finset.range n, (Spec.count (InEdges (logEdge a 0.2) n i) (x :: xs) : ℝ)
          * (logEdge a 0.2 i * (1 + ratio) / 2) =
        ∑ i ∈ Finset.range n, (Spec.count (InEdges (logEdge a 0.2) n i) xs : ℝ) * (logEdge a 0.2 i * (1 + ratio) / 2)
        + ∑ i ∈ Finset.range n, (if InEdges (logEdge a 0.2) n i x then logEdge a 0.2 i * (1 + ratio) / 2 else 0) := by
      rw [← Finset.sum_add_distrib]
      apply Finset.sum_congr rfl
      intro i _
      rw [count_cons]
      by_cases h : InEdges (logEdge a 0.2) n i x
      · rw [if_pos h, if_pos h]; push_cast; ring
      · rw [if_neg h, if_neg h]; push_cast; ring
    rw [hcons]
    rcases hx x (by simp) with hlt | ⟨h0, h1⟩
    · rw [if_neg (show ¬(logEdge a 0.2 0 < x ∧ x < u) by rintro ⟨h, -⟩; linarith)]
      have : ∑ i ∈ Finset.range n, (if InEdges (logEdge a 0.2) n i x then logEdge a 0.2 i * (1 + ratio) / 2 else 0) = 0 := by
        apply Finset.sum_eq_zero
        intro i _
        rw [if_neg]
        rintro ⟨h, -⟩
        have := hm (Nat.zero_le i)
        linarith
      rw [this]
      constructor <;> linarith
    · obtain ⟨i, ⟨hi, hin⟩, huq⟩ := inEdges_unique hn (fun i _ => hm (Nat.le_succ i)) h0.le h1
      have : ∑ i ∈ Finset.range n, (if InEdges (logEdge a 0.2) n i x then logEdge a 0.2 i * (1 + ratio) / 2 else 0)
          = logEdge a 0.2 i * (1 + ratio) / 2 := by
        rw [Finset.sum_eq_single i]
        · rw [if_pos hin]
        · intro j hj hne
          rw [if_neg]
          intro hc
          exact hne (huq j ⟨Finset.mem_range.1 hj, hc⟩)
        · intro hc; exact absurd (Finset.mem_range.2 hi) hc
      rw [this, if_pos ⟨h0, by linarith⟩]
      have hlo := hin.1
      have hhi : x ≤ ratio * logEdge a 0.2 i := by
        rw [← logEdge_succ]
        rcases hin.2 with h | ⟨-, h⟩
        · exact h.le
        · exact h
      have e1 : (1 + ratio) / (2 * ratio) * x ≤ logEdge a 0.2 i * (1 + ratio) / 2 := by
        rw [div_mul_eq_mul_div, div_le_div_iff₀ (by linarith) (by norm_num)]
        have := mul_le_mul_of_nonneg_left hhi (by linarith : 0 ≤ (1 + ratio) * 2)
        linarith
      have e2 : logEdge a 0.2 i * (1 + ratio) / 2 ≤ (1 + ratio) / 2 * x := by
        have := mul_le_mul_of_nonneg_left hlo (by linarith : 0 ≤ (1 + ratio) / 2)
        linarith
      constructor <;> linarith

/-- The integral over bin centres in terms of counts. -/
theorem cddf_moment {a D : ℝ} (hD : 0 < D) {n : ℕ} (c : ℕ → ℝ) (hlast : c (n - 1) = 0) (hc : ∀ i, 0 ≤ c i) :
    (1 + ratio) / 4 * (∑ i ∈ Finset.range n, c i * (logEdge a 0.2 i * (1 + ratio) / 2)) ≤
      D * trapz ((List.range n).map (fun i =>
          c i / ((logEdge a 0.2 (i + 1) - logEdge a 0.2 i) * D) * ((logEdge a 0.2 i + logEdge a 0.2 (i + 1)) / 2)))
        ((List.range n).map (fun i => (logEdge a 0.2 i + logEdge a 0.2 (i + 1)) / 2)) ∧
    D * trapz ((List.range n).map (fun i =>
          c i / ((logEdge a 0.2 (i + 1) - logEdge a 0.2 i) * D) * ((logEdge a 0.2 i + logEdge a 0.2 (i + 1)) / 2)))
        ((List.range n).map (fun i => (logEdge a 0.2 i + logEdge a 0.2 (i + 1)) / 2)) ≤
      (1 + ratio) ^ 2 / (4 * ratio) * (∑ i ∈ Finset.range n, c i * (logEdge a 0.2 i * (1 + ratio) / 2)) := by
  have hr := ratio_gt_one
  rw [trapz_range]
  set g : ℕ → ℝ := fun i => c i * (logEdge a 0.2 i * (1 + ratio) / 2) with hg
  have hgn : ∀ i, 0 ≤ g i := fun i => mul_nonneg (hc i) (by
    have := logEdge_pos a 0.2 i
    have : 0 ≤ logEdge a 0.2 i * (1 + ratio) := by nlinarith
    linarith)
  have hterm : ∀ i, D * (((logEdge a 0.2 (i + 1) + logEdge a 0.2 (i + 1 + 1)) / 2 -
        (logEdge a 0.2 i + logEdge a 0.2 (i + 1)) / 2) *
      (c i / ((logEdge a 0.2 (i + 1) - logEdge a 0.2 i) * D) * ((logEdge a 0.2 i + logEdge a 0.2 (i + 1)) / 2)
      + c (i + 1) / ((logEdge a 0.2 (i + 1 + 1) - logEdge a 0.2 (i + 1)) * D) *
        ((logEdge a 0.2 (i + 1) + logEdge a 0.2 (i + 1 + 1)) / 2)) / 2) =
      (1 + ratio) / 4 * g i + (1 + ratio) / (4 * ratio) * g (i + 1) := by
    intro i
    have he := logEdge_pos a 0.2 i
    rw [hg]
    simp only [logEdge_succ]
    have h1 : ratio - 1 ≠ 0 := by linarith
    have h2 : ratio ≠ 0 := by linarith
    have h3 : ratio * logEdge a 0.2 i - logEdge a 0.2 i = (ratio - 1) * logEdge a 0.2 i := by ring
    have h4 : ratio * (ratio * logEdge a 0.2 i) - ratio * logEdge a 0.2 i = (ratio - 1) * (ratio * logEdge a 0.2 i) := by ring
    rw [h3, h4]
    field_simp
    ring
  have key := Finset.sum_congr (rfl : Finset.range (n - 1) = Finset.range (n - 1)) (fun i _ => hterm i)
  rw [← Finset.mul_sum] at key
  rw [key, Finset.sum_add_distrib, ← Finset.mul_sum, ← Finset.mul_sum]
  rcases Nat.eq_zero_or_pos n with rfl | hn
  · simp
  · have hs1 : ∑ i ∈ Finset.range n, g i = ∑ i ∈ Finset.range (n - 1), g i := by
      conv_lhs => rw [show n = (n - 1) + 1 by omega, Finset.sum_range_succ]
      have : g (n - 1) = 0 := by rw [hg]; simp [hlast]
      rw [this, add_zero]
    have hs2 : ∑ i ∈ Finset.range n, g i = ∑ i ∈ Finset.range (n - 1), g (i + 1) + g 0 := by
      conv_lhs => rw [show n = (n - 1) + 1 by omega, Finset.sum_range_succ']
    have hpos : 0 ≤ ∑ i ∈ Finset.range (n - 1), g (i + 1) := Finset.sum_nonneg (fun i _ => hgn _)
    have h0 := hgn 0
    have hk : 0 ≤ (1 + ratio) / (4 * ratio) := by positivity
    rw [← hs1]
    constructor
    · have := mul_nonneg hk hpos
      linarith
    · have h5 : ∑ i ∈ Finset.range (n - 1), g (i + 1) ≤ ∑ i ∈ Finset.range n, g i := by linarith
      have h6 := mul_le_mul_of_nonneg_left h5 hk
      have h7 : (1 + ratio) ^ 2 / (4 * ratio) = (1 + ratio) / 4 + (1 + ratio) / (4 * ratio) := by
        field_simp
        ring
      rw [h7, add_mul]
      linarith

/-- Three bins, the last one empty. -/
example := cddf_moment (a := 17) (D := 5) (by norm_num) (n := 3) (fun i => if i = 2 then 0 else i + 1) (by norm_num)
  (fun i => by split <;> positivity)

/-- C64, partial: when no absorber is exactly at the threshold or in or above the last bin, Omega from the column density
function is within a factor of the direct sum: at least `(1+r)^2/(8r)` and at most `(1+r)^3/(8r)` times as much, where
`r = 10^0.2`. Missing: equality (`omega_estimates_differ`). -/
theorem omega_cddf_partial {o : Obj} (ho : ValidObj o) {mass t u : ℝ} (hm : 0 ≤ mass) (ht : 0 < t) (hu0 : 0 < u)
    {rho : List (List ℝ)} (hne : rho ≠ []) {n : ℕ} (hn : n = ⌈(Real.logb 10 u - Real.logb 10 t) / 0.2⌉₊ - 1) (hn2 : 2 ≤ n)
    (hrange : ∀ row ∈ rho, row.sum < t ∨ (t < row.sum ∧ row.sum < t * ratio ^ (n - 1))) {direct cddf : ℝ}
    (hdir : omega_abs o mass t u rho = .ok direct) (hcd : omega_abs_cddf o mass t u rho = .ok cddf) :
    (1 + ratio) ^ 2 / (8 * ratio) * direct ≤ cddf ∧ cddf ≤ (1 + ratio) ^ 3 / (8 * ratio) * direct := by
  have hr := ratio_gt_one
  have hdist := absDist_pos ho
  have hdisc : 0 ≤ o.discarded := ho.2.2.2.2
  have hn1 : (0 : ℝ) < rho.length := by exact_mod_cast List.length_pos_iff.2 hne
  have hs : (0 : ℝ) < rho.length + o.discarded := by linarith
  have hrc := (rho_crit_friedmann ho.2.2.2.1).1
  have hmp : 0 < protonmass := by unfold protonmass; norm_num
  have hlight : 0 < light := by unfold light; norm_num
  have hh100 : 0 < h100 := by unfold h100; norm_num
  obtain ⟨hu, hb, hz, hh, -⟩ := id ho
  have hUL := hu.2.1
  have hz1 : 0 < 1 + o.red := by linarith
  set a := Real.logb 10 t with ha
  have he0 : logEdge a 0.2 0 = t := by
    unfold logEdge
    rw [ha]
    simp only [Nat.cast_zero, zero_mul, add_zero]
    exact Real.rpow_logb (by norm_num) (by norm_num) ht
  have hek : ∀ k, logEdge a 0.2 k = t * ratio ^ k := by
    intro k
    induction k with
    | zero => rw [he0]; simp
    | succ k ih => rw [logEdge_succ, ih]; ring
  have hnlt : (n : ℝ) < (Real.logb 10 u - a) / 0.2 := Nat.lt_ceil.1 (by omega)
  have hnu : logEdge a 0.2 n < u := by
    have hlog : a + n * 0.2 < Real.logb 10 u := by
      rw [lt_div_iff₀ (by norm_num)] at hnlt
      linarith
    unfold logEdge
    calc (10 : ℝ) ^ (a + n * 0.2) < (10 : ℝ) ^ (Real.logb 10 u) :=
          Real.rpow_lt_rpow_of_exponent_lt (by norm_num) hlog
      _ = u := Real.rpow_logb (by norm_num) (by norm_num) hu0
  have hmono : Monotone (logEdge a 0.2) := logEdge_mono (by norm_num)
  -- the counts
  set xs := rho.map List.sum with hxs
  have hx : ∀ x ∈ xs, x < logEdge a 0.2 0 ∨ (logEdge a 0.2 0 < x ∧ x ≤ logEdge a 0.2 n) := by
    intro x hx
    obtain ⟨row, hrow, rfl⟩ := List.mem_map.1 hx
    rw [he0]
    rcases hrange row hrow with h | ⟨h1, h2⟩
    · exact .inl h
    · refine .inr ⟨h1, ?_⟩
      rw [← hek] at h2
      exact h2.le.trans (hmono (by omega))
  have hlast : Spec.count (InEdges (logEdge a 0.2) n (n - 1)) xs = 0 := by
    unfold Spec.count
    rw [List.length_eq_zero_iff, List.filter_eq_nil_iff]
    intro x hx hc
    obtain ⟨row, hrow, rfl⟩ := List.mem_map.1 hx
    have hc' : logEdge a 0.2 (n - 1) ≤ row.sum := by
      simp only [decide_eq_true_eq] at hc
      exact hc.1
    rcases hrange row hrow with h | ⟨h1, h2⟩
    · have := hmono (Nat.zero_le (n - 1))
      rw [he0] at this
      linarith
    · rw [← hek] at h2
      linarith
  obtain ⟨b1, b2⟩ := centre_sum_bounds (by omega : 0 < n) hx hnu
  rw [he0] at b1 b2
  have hD : 0 < absorption_distance o.units o.box o.red * (rho.length + o.discarded) := mul_pos hdist hs
  obtain ⟨m1, m2⟩ := cddf_moment (a := a) hD (n := n) (fun i => (Spec.count (InEdges (logEdge a 0.2) n i) xs : ℝ))
    (by exact_mod_cast hlast) (fun i => by positivity)
  -- the two results
  obtain ⟨centers, vals, hcv, hc1, hv1, hcvi⟩ := cddf_spec (o := o) (close := 50) (line := true) (dX := true) (rho := rho)
    (dlogN := 0.2) (minN := a) (maxN := Real.logb 10 u) (by norm_num) hn
  have hcent : centers = (List.range n).map (fun i => (logEdge a 0.2 i + logEdge a 0.2 (i + 1)) / 2) := by
    apply List.ext_getElem?
    intro i
    by_cases hi : i < n
    · rw [(hcvi i hi).1, List.getElem?_map, List.getElem?_range hi]; rfl
    · rw [List.getElem?_eq_none (by omega), List.getElem?_eq_none (by simp; omega)]
  have hval : vals = (List.range n).map (fun i => (Spec.count (InEdges (logEdge a 0.2) n i) xs : ℝ) /
      ((logEdge a 0.2 (i + 1) - logEdge a 0.2 i) * (absorption_distance o.units o.box o.red * (rho.length + o.discarded)))) := by
    apply List.ext_getElem?
    intro i
    by_cases hi : i < n
    · rw [(hcvi i hi).2, List.getElem?_map, List.getElem?_range hi]
      simp only [Option.map_some, Obj.dist, countedAbsorbers, if_true, mul_assoc]
      rfl
    · rw [List.getElem?_eq_none (by omega), List.getElem?_eq_none (by simp; omega)]
  unfold omega_abs_cddf at hcd
  rw [← ha, hcv] at hcd
  simp only [bind, Except.bind, pure, Except.pure] at hcd
  rw [hcent, hval, zip_maps] at hcd
  have hcd := Except.ok.inj hcd
  rw [omega_abs_spec ho hne] at hdir
  have hdir := Except.ok.inj hdir
  set T := trapz ((List.range n).map (fun i => (Spec.count (InEdges (logEdge a 0.2) n i) xs : ℝ) /
      ((logEdge a 0.2 (i + 1) - logEdge a 0.2 i) * (absorption_distance o.units o.box o.red * (rho.length + o.discarded)))
        * ((logEdge a 0.2 i + logEdge a 0.2 (i + 1)) / 2)))
    ((List.range n).map (fun i => (logEdge a 0.2 i + logEdge a 0.2 (i + 1)) / 2)) with hT
  set S := sumBetween t u xs with hS
  set C := ∑ i ∈ Finset.range n, (Spec.count (InEdges (logEdge a 0.2) n i) xs : ℝ) * (logEdge a 0.2 i * (1 + ratio) / 2) with hC
  have hP : ∃ P : ℝ, 0 ≤ P ∧ direct = P * S ∧
      cddf = P * (absorption_distance o.units o.box o.red * (rho.length + o.discarded) * T) := by
    refine ⟨mass * protonmass / (rho.length + o.discarded) / (1 + o.red) ^ 2 / (o.box * o.units.UnitLength_in_cm / o.hubble)
      / rho_crit o.hubble, by positivity, ?_, ?_⟩
    · rw [← hdir]; ring
    · rw [← hcd]
      unfold absorption_distance
      field_simp
  obtain ⟨P, hP0, hd, hc⟩ := hP
  rw [hd, hc]
  have hk1 : 0 ≤ (1 + ratio) / 4 := by linarith
  have hk2 : 0 ≤ (1 + ratio) ^ 2 / (4 * ratio) := by positivity
  constructor
  · have h1 := mul_le_mul_of_nonneg_left b1 hk1
    have h2 : (1 + ratio) ^ 2 / (8 * ratio) * S ≤ absorption_distance o.units o.box o.red * (rho.length + o.discarded) * T := by
      have e : (1 + ratio) / 4 * ((1 + ratio) / (2 * ratio) * S) = (1 + ratio) ^ 2 / (8 * ratio) * S := by
        field_simp; ring
      linarith
    have := mul_le_mul_of_nonneg_left h2 hP0
    linarith
  · have h1 := mul_le_mul_of_nonneg_left b2 hk2
    have h2 : absorption_distance o.units o.box o.red * (rho.length + o.discarded) * T ≤ (1 + ratio) ^ 3 / (8 * ratio) * S := by
      have e : (1 + ratio) ^ 2 / (4 * ratio) * ((1 + ratio) / 2 * S) = (1 + ratio) ^ 3 / (8 * ratio) * S := by
        field_simp; ring
      linarith
    have := mul_le_mul_of_nonneg_left h2 hP0
    linarith

theorem ratio_pow_five : ratio ^ 5 = 10 := by
  unfold ratio
  rw [← Real.rpow_natCast, ← Real.rpow_mul (by norm_num)]
  norm_num

theorem ratio_gt_six_fifths : 6 / 5 < ratio := by
  by_contra h
  have h1 : ratio ^ 5 ≤ (6 / 5) ^ 5 := pow_le_pow_left₀ (by linarith [ratio_gt_one]) (not_lt.1 h) 5
  rw [ratio_pow_five] at h1
  norm_num at h1

/-- The number of bins between 10 and 100. -/
theorem bins_ten_hundred : ⌈(Real.logb 10 100 - Real.logb 10 10) / 0.2⌉₊ - 1 = 4 := by
  have h1 : Real.logb 10 100 = 2 := by
    rw [show (100 : ℝ) = (10 : ℝ) ^ (2 : ℝ) by norm_num, Real.logb_rpow (by norm_num) (by norm_num)]
  have h2 : Real.logb 10 10 = 1 := Real.logb_self_eq_one (by norm_num)
  rw [h1, h2, show ((2 : ℝ) - 1) / 0.2 = ((5 : ℕ) : ℝ) by norm_num, Nat.ceil_natCast]

/-- The hypotheses of `omega_cddf_partial` are met by one sightline with an absorber in the first bin. -/
example : ∃ (o : Obj) (rho : List (List ℝ)) (n : ℕ), ValidObj o ∧ rho ≠ [] ∧
    n = ⌈(Real.logb 10 100 - Real.logb 10 10) / 0.2⌉₊ - 1 ∧ 2 ≤ n ∧
    ∀ row ∈ rho, row.sum < 10 ∨ (10 < row.sum ∧ row.sum < 10 * ratio ^ (n - 1)) := by
  refine ⟨_, [[5, 6]], 4, validObj_example, by simp, bins_ten_hundred.symm, by norm_num, ?_⟩
  intro row hrow
  simp at hrow
  subst hrow
  refine .inr ⟨by norm_num, ?_⟩
  have h1 := ratio_gt_six_fifths
  have : (6 / 5 : ℝ) ^ 3 ≤ ratio ^ 3 := pow_le_pow_left₀ (by norm_num) h1.le 3
  norm_num at this ⊢
  linarith

theorem first_bin_only {x : ℝ} (h1 : 10 ≤ x) (h2 : x ≤ 12) (i : ℕ) :
    InEdges (logEdge (Real.logb 10 10) 0.2) 4 i x ↔ i = 0 := by
  have hr := ratio_gt_six_fifths
  have e0 : logEdge (Real.logb 10 10) 0.2 0 = 10 := by
    unfold logEdge
    rw [Real.logb_self_eq_one (by norm_num)]
    norm_num
  have e1 : logEdge (Real.logb 10 10) 0.2 1 = ratio * 10 := by
    rw [show (1 : ℕ) = 0 + 1 from rfl, logEdge_succ, e0]
  constructor
  · rintro ⟨h, -⟩
    by_contra hi
    have := logEdge_mono (minN := Real.logb 10 10) (dlogN := 0.2) (by norm_num) (show 1 ≤ i by omega)
    rw [e1] at this
    linarith
  · rintro rfl
    refine ⟨by rw [e0]; exact h1, .inl ?_⟩
    rw [zero_add, e1]
    linarith

/-- C64 is false of the code: two surveys with the same column density function, hence the same `omega_abs_cddf`, have
different `omega_abs`. -/
theorem omega_estimates_differ : ∃ (o : Obj) (mass t u : ℝ) (rho rho' : List (List ℝ)), ValidObj o ∧ 0 < mass ∧
    omega_abs_cddf o mass t u rho = omega_abs_cddf o mass t u rho' ∧
    ∃ w w', omega_abs o mass t u rho = .ok w ∧ omega_abs o mass t u rho' = .ok w' ∧ w < w' := by
  refine ⟨_, 1, 10, 100, [[11]], [[12]], validObj_example, by norm_num, ?_, ?_⟩
  · have hcv : ∀ x : ℝ, 10 ≤ x → x ≤ 12 → ∀ cv : List ℝ × List ℝ,
        column_density_function ⟨gadget, 10000, 3, 0.7, 0.3, 1, 2⟩ 0.2 (Real.logb 10 10) (Real.logb 10 100) true 50 true [[x]]
          = .ok cv →
        cv.1.length = 4 ∧ cv.2.length = 4 ∧ ∀ i < 4,
        cv.1[i]? = some ((logEdge (Real.logb 10 10) 0.2 i + logEdge (Real.logb 10 10) 0.2 (i + 1)) / 2) ∧
        cv.2[i]? = some (((if i = 0 then 1 else 0 : ℕ) : ℝ) /
          ((logEdge (Real.logb 10 10) 0.2 (i + 1) - logEdge (Real.logb 10 10) 0.2 i) *
          (Obj.dist ⟨gadget, 10000, 3, 0.7, 0.3, 1, 2⟩ true) * (1 + 2))) := by
      intro x h1 h2 cv hcv
      obtain ⟨c, v, h, hc, hv, hi⟩ := cddf_spec (o := ⟨gadget, 10000, 3, 0.7, 0.3, 1, 2⟩) (dlogN := 0.2)
        (minN := Real.logb 10 10) (maxN := Real.logb 10 100) (line := true) (close := 50) (dX := true) (rho := [[x]])
        (by norm_num) bins_ten_hundred.symm
      rw [h] at hcv
      obtain rfl := Except.ok.inj hcv
      refine ⟨hc, hv, fun i hi4 => ⟨(hi i hi4).1, ?_⟩⟩
      rw [(hi i hi4).2]
      have : Spec.count (InEdges (logEdge (Real.logb 10 10) 0.2) 4 i) (countedAbsorbers true (cbins 50 1) [[x]])
          = if i = 0 then 1 else 0 := by
        have hl : countedAbsorbers true (cbins 50 1) [[x]] = [x] := by simp [countedAbsorbers]
        rw [hl, count_cons]
        by_cases h0 : i = 0
        · rw [if_pos h0, if_pos ((first_bin_only h1 h2 i).2 h0)]; rfl
        · rw [if_neg h0, if_neg (fun hc => h0 ((first_bin_only h1 h2 i).1 hc))]; rfl
      simp only [this]
      simp
    have hsame : column_density_function ⟨gadget, 10000, 3, 0.7, 0.3, 1, 2⟩ 0.2 (Real.logb 10 10) (Real.logb 10 100) true 50 true [[11]]
        = column_density_function ⟨gadget, 10000, 3, 0.7, 0.3, 1, 2⟩ 0.2 (Real.logb 10 10) (Real.logb 10 100) true 50 true [[12]] := by
      obtain ⟨c, v, h, -, -, -⟩ := cddf_spec (o := ⟨gadget, 10000, 3, 0.7, 0.3, 1, 2⟩) (dlogN := 0.2)
        (minN := Real.logb 10 10) (maxN := Real.logb 10 100) (line := true) (close := 50) (dX := true) (rho := [[11]])
        (by norm_num) bins_ten_hundred.symm
      obtain ⟨c', v', h', -, -, -⟩ := cddf_spec (o := ⟨gadget, 10000, 3, 0.7, 0.3, 1, 2⟩) (dlogN := 0.2)
        (minN := Real.logb 10 10) (maxN := Real.logb 10 100) (line := true) (close := 50) (dX := true) (rho := [[12]])
        (by norm_num) bins_ten_hundred.symm
      obtain ⟨a1, a2, a3⟩ := hcv 11 (by norm_num) (by norm_num) _ h
      obtain ⟨b1, b2, b3⟩ := hcv 12 (by norm_num) (by norm_num) _ h'
      rw [h, h']
      congr 2
      · apply List.ext_getElem?
        intro i
        by_cases hi : i < 4
        · rw [(a3 i hi).1, (b3 i hi).1]
        · rw [List.getElem?_eq_none (by simp only at a1; omega), List.getElem?_eq_none (by simp only at b1; omega)]
      · apply List.ext_getElem?
        intro i
        by_cases hi : i < 4
        · rw [(a3 i hi).2, (b3 i hi).2]
        · rw [List.getElem?_eq_none (by simp only at a2; omega), List.getElem?_eq_none (by simp only at b2; omega)]
    unfold omega_abs_cddf
    rw [hsame]
  · rw [omega_abs_spec validObj_example (by simp), omega_abs_spec validObj_example (by simp)]
    refine ⟨_, _, rfl, rfl, ?_⟩
    have hrc := (rho_crit_friedmann (h := 0.7) (by norm_num)).1
    have hmp : 0 < protonmass := by unfold protonmass; norm_num
    have s1 : sumBetween 10 100 ([[11]].map List.sum) = 11 := by
      simp only [List.map_cons, List.map_nil, List.sum_cons, List.sum_nil, sumBetween_cons]
      norm_num [sumBetween]
    have s2 : sumBetween 10 100 ([[12]].map List.sum) = 12 := by
      simp only [List.map_cons, List.map_nil, List.sum_cons, List.sum_nil, sumBetween_cons]
      norm_num [sumBetween]
    rw [s1, s2]
    have hl : (0 : ℝ) < 10000 * gadget.UnitLength_in_cm / 0.7 := by unfold gadget; norm_num
    simp only [List.length_cons, List.length_nil]
    gcongr
    norm_num

end Verif.Props
