import Verif.Model.Numpy
import Verif.Spec.Absorbers

/-! `np.histogram` counts: one bin per element. -/

namespace Verif.Np
open Verif.Spec

open Classical in
theorem count_cons (P : ℝ → Prop) (x : ℝ) (xs : List ℝ) :
    Spec.count P (x :: xs) = Spec.count P xs + if P x then 1 else 0 := by
  unfold Spec.count
  rw [List.filter_cons]
  by_cases h : P x <;> simp [h]

theorem count_congr {P Q : ℝ → Prop} {xs : List ℝ} (h : ∀ x ∈ xs, P x ↔ Q x) : Spec.count P xs = Spec.count Q xs := by
  induction xs with
  | nil => rfl
  | cons x xs ih =>
    rw [count_cons, count_cons, ih (fun y hy => h y (by simp [hy]))]
    have hx := h x (by simp)
    by_cases hp : P x
    · rw [if_pos hp, if_pos (hx.1 hp)]
    · rw [if_neg hp, if_neg (fun hq => hp (hx.2 hq))]

theorem count_le {P Q : ℝ → Prop} {xs : List ℝ} (h : ∀ x ∈ xs, P x → Q x) : Spec.count P xs ≤ Spec.count Q xs := by
  induction xs with
  | nil => exact le_rfl
  | cons x xs ih =>
    rw [count_cons, count_cons]
    apply Nat.add_le_add (ih (fun y hy => h y (by simp [hy])))
    have := h x (by simp)
    split_ifs <;> simp_all

theorem count_le_length (P : ℝ → Prop) (xs : List ℝ) : Spec.count P xs ≤ xs.length := List.length_filter_le _ _

theorem mono_edges {edge : ℕ → ℝ} {n : ℕ} (h : ∀ i < n, edge i ≤ edge (i + 1)) {i j : ℕ} (hij : i ≤ j) (hj : j ≤ n) :
    edge i ≤ edge j := by
  induction j with
  | zero => rw [Nat.le_zero.1 hij]
  | succ j ih =>
    rcases Nat.lt_or_ge j i with hlt | hge
    · rw [show i = j + 1 by omega]
    · exact (ih hge (by omega)).trans (h j (by omega))

theorem cumCount_inEdges {edge : ℕ → ℝ} {n i : ℕ} (hi : i < n) (hm : edge i ≤ edge (i + 1)) (xs : List ℝ) :
    cumCount edge n xs (i + 1) - cumCount edge n xs i = (Spec.count (InEdges edge n i) xs : ℤ) := by
  unfold cumCount
  rw [if_neg (by omega : ¬i = n)]
  by_cases hl : i + 1 = n
  · rw [if_pos hl]
    subst hl
    induction xs with
    | nil => rfl
    | cons x xs ih =>
      rw [List.countP_cons, List.countP_cons, count_cons]
      have hx : InEdges edge (i + 1) i x ↔ edge i ≤ x ∧ x ≤ edge (i + 1) := by
        unfold InEdges
        constructor
        · rintro ⟨h1, h2 | ⟨-, h2⟩⟩
          · exact ⟨h1, h2.le⟩
          · exact ⟨h1, h2⟩
        · rintro ⟨h1, h2⟩; exact ⟨h1, .inr ⟨rfl, h2⟩⟩
      by_cases a : x ≤ edge (i + 1) <;> by_cases b : x < edge i
      · have c : ¬InEdges edge (i + 1) i x := by rw [hx]; rintro ⟨h, -⟩; linarith
        simp only [a, b, c, decide_true, if_true, if_false]
        push_cast; linarith
      · have c : InEdges edge (i + 1) i x := by rw [hx]; exact ⟨not_lt.1 b, a⟩
        simp only [a, b, c, decide_true, decide_false, if_true, if_false, Bool.false_eq_true]
        push_cast; linarith
      · exfalso; linarith
      · have c : ¬InEdges edge (i + 1) i x := by rw [hx]; rintro ⟨-, h⟩; exact a h
        simp only [a, b, c, decide_false, if_false, Bool.false_eq_true]
        push_cast; linarith
  · rw [if_neg hl]
    induction xs with
    | nil => rfl
    | cons x xs ih =>
      rw [List.countP_cons, List.countP_cons, count_cons]
      have hx : InEdges edge n i x ↔ edge i ≤ x ∧ x < edge (i + 1) := by
        unfold InEdges
        constructor
        · rintro ⟨h1, h2 | ⟨h2, -⟩⟩
          · exact ⟨h1, h2⟩
          · exact absurd h2 hl
        · rintro ⟨h1, h2⟩; exact ⟨h1, .inl h2⟩
      by_cases a : x < edge (i + 1) <;> by_cases b : x < edge i
      · have c : ¬InEdges edge n i x := by rw [hx]; rintro ⟨h, -⟩; linarith
        simp only [a, b, c, decide_true, if_true, if_false]
        push_cast; linarith
      · have c : InEdges edge n i x := by rw [hx]; exact ⟨not_lt.1 b, a⟩
        simp only [a, b, c, decide_true, decide_false, if_true, if_false, Bool.false_eq_true]
        push_cast; linarith
      · exfalso; linarith
      · have c : ¬InEdges edge n i x := by rw [hx]; rintro ⟨-, h⟩; exact a h
        simp only [a, b, c, decide_false, if_false, Bool.false_eq_true]
        push_cast; linarith

/-- Each value of `np.histogram` is the number of elements in the bin. -/
theorem histogram_counts {edge : ℕ → ℝ} {n : ℕ} (h : ∀ i < n, edge i ≤ edge (i + 1)) (xs : List ℝ) :
    histogram edge n xs = (List.range n).map (fun i => (Spec.count (InEdges edge n i) xs : ℤ)) := by
  unfold histogram
  apply List.map_congr_left
  intro i hi
  exact cumCount_inEdges (List.mem_range.1 hi) (h i (List.mem_range.1 hi)) xs

/-- An element between the first and the last edge is in exactly one bin. -/
theorem inEdges_unique {edge : ℕ → ℝ} {n : ℕ} (hn : 0 < n) (h : ∀ i < n, edge i ≤ edge (i + 1)) {x : ℝ}
    (h0 : edge 0 ≤ x) (h1 : x ≤ edge n) : ∃! i : ℕ, i < n ∧ InEdges edge n i x := by
  by_cases hex : ∃ k, k < n ∧ x < edge (k + 1)
  · classical
    have hk := Nat.find_spec hex
    have hlow : edge (Nat.find hex) ≤ x := by
      rcases Nat.eq_zero_or_pos (Nat.find hex) with hz | hp
      · rw [hz]; exact h0
      · have := Nat.find_min hex (m := Nat.find hex - 1) (by omega)
        rw [show Nat.find hex - 1 + 1 = Nat.find hex by omega] at this
        by_contra hc
        exact this ⟨by omega, not_le.1 hc⟩
    refine ⟨Nat.find hex, ⟨hk.1, hlow, .inl hk.2⟩, ?_⟩
    rintro j ⟨hj, hj1, hj2⟩
    rcases hj2 with hj2 | ⟨hj2, hj3⟩
    · have := Nat.find_min' hex ⟨hj, hj2⟩
      rcases Nat.lt_or_ge (Nat.find hex) j with hlt | hge
      · exfalso
        have := mono_edges h (i := Nat.find hex + 1) (j := j) (by omega) (by omega)
        linarith [hk.2]
      · omega
    · rcases Nat.lt_or_ge (Nat.find hex) j with hlt | hge
      · exfalso
        have := mono_edges h (i := Nat.find hex + 1) (j := j) (by omega) (by omega)
        linarith [hk.2]
      · omega
  · push Not at hex
    have hlast := hex (n - 1) (by omega)
    have hl : n - 1 + 1 = n := by omega
    rw [hl] at hlast
    refine ⟨n - 1, ⟨by omega, ?_, .inr ⟨hl, by rw [hl]; exact h1⟩⟩, ?_⟩
    · exact (mono_edges h (by omega) le_rfl).trans hlast
    · rintro j ⟨hj, -, h2 | ⟨h2, -⟩⟩
      · exact absurd h2 (not_lt.2 (hex j hj))
      · omega

/-- The bins together count the elements between the first and the last edge, each once. -/
theorem histogram_total {edge : ℕ → ℝ} {n : ℕ} (hn : 0 < n) (h : ∀ i < n, edge i ≤ edge (i + 1)) (xs : List ℝ) :
    ∑ i ∈ Finset.range n, Spec.count (InEdges edge n i) xs = Spec.count (fun x => edge 0 ≤ x ∧ x ≤ edge n) xs := by
  classical
  induction xs with
  | nil => simp [Spec.count]
  | cons x xs ih =>
    simp only [count_cons]
    rw [Finset.sum_add_distrib, ih]
    congr 1
    by_cases hx : edge 0 ≤ x ∧ x ≤ edge n
    · obtain ⟨i, ⟨hi, hin⟩, hu⟩ := inEdges_unique hn h hx.1 hx.2
      rw [if_pos hx, Finset.sum_eq_single i]
      · rw [if_pos hin]
      · intro j hj hne
        rw [if_neg]
        intro hc
        exact hne (hu j ⟨Finset.mem_range.1 hj, hc⟩)
      · intro hc; exact absurd (Finset.mem_range.2 hi) hc
    · rw [if_neg hx]
      apply Finset.sum_eq_zero
      intro j hj
      rw [if_neg]
      rintro ⟨h1, h2⟩
      have hj := Finset.mem_range.1 hj
      apply hx
      refine ⟨(mono_edges h (Nat.zero_le j) (by omega)).trans h1, ?_⟩
      have h3 : x ≤ edge (j + 1) := by
        rcases h2 with h2 | ⟨-, h2⟩
        · exact h2.le
        · exact h2
      exact h3.trans (mono_edges h (by omega) le_rfl)

end Verif.Np
