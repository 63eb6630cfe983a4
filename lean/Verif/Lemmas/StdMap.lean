import Verif.Model.StdMap

namespace Verif
namespace StdMap

variable {β : Type}

theorem find?_eq_none_of_lt {m : StdMap β} {k : ℕ} (h : ∀ a ∈ m, k < a.1) : m.find? k = none := by
  induction m with
  | nil => rfl
  | cons a t ih =>
    have h1 := h a (by simp)
    simp only [find?]
    rw [if_neg (by omega)]
    exact ih (fun b hb => h b (by simp [hb]))

theorem mem_of_find? {m : StdMap β} {k : ℕ} {v : β} (h : m.find? k = some v) : (k, v) ∈ m := by
  induction m with
  | nil => simp [find?] at h
  | cons a t ih =>
    simp only [find?] at h
    split at h
    · rename_i hk; cases h; subst hk; simp
    · simp [ih h]

theorem find?_of_mem {m : StdMap β} (hs : m.Sorted) {k : ℕ} {v : β} (h : (k, v) ∈ m) :
    m.find? k = some v := by
  induction m with
  | nil => simp at h
  | cons a t ih =>
    rw [Sorted, List.pairwise_cons] at hs
    simp only [find?]
    rcases List.mem_cons.1 h with rfl | h
    · simp
    · have := hs.1 _ h
      rw [if_neg (by simp at this; omega)]
      exact ih hs.2 h

theorem mem_iff_find? {m : StdMap β} (hs : m.Sorted) {k : ℕ} {v : β} :
    (k, v) ∈ m ↔ m.find? k = some v := ⟨find?_of_mem hs, mem_of_find?⟩

theorem mem_assign {m : StdMap β} {k : ℕ} {v : β} {a : ℕ × β} (h : a ∈ m.assign k v) :
    a = (k, v) ∨ a ∈ m := by
  induction m with
  | nil => simpa [assign] using h
  | cons b t ih =>
    simp only [assign] at h
    split at h
    · simpa using h
    · split at h
      · simp only [List.mem_cons] at h ⊢; tauto
      · simp only [List.mem_cons] at h ⊢
        rcases h with h | h
        · tauto
        · rcases ih h with h | h <;> tauto

theorem mem_insertNew {m : StdMap β} {k : ℕ} {v : β} {a : ℕ × β} (h : a ∈ m.insertNew k v) :
    a = (k, v) ∨ a ∈ m := by
  induction m with
  | nil => simpa [insertNew] using h
  | cons b t ih =>
    simp only [insertNew] at h
    split at h
    · simpa using h
    · split at h
      · simp only [List.mem_cons] at h ⊢; tauto
      · simp only [List.mem_cons] at h ⊢
        rcases h with h | h
        · tauto
        · rcases ih h with h | h <;> tauto

theorem sorted_assign {m : StdMap β} (hs : m.Sorted) (k : ℕ) (v : β) : (m.assign k v).Sorted := by
  induction m with
  | nil => simp [assign, Sorted]
  | cons b t ih =>
    have hs' := hs
    rw [Sorted, List.pairwise_cons] at hs
    simp only [assign]
    split
    · rename_i hk
      refine List.pairwise_cons.2 ⟨?_, hs'⟩
      intro c hc
      rcases List.mem_cons.1 hc with rfl | hc
      · exact hk
      · exact lt_trans hk (hs.1 _ hc)
    · split
      · rename_i hk
        refine List.pairwise_cons.2 ⟨?_, hs.2⟩
        intro c hc; subst hk; exact hs.1 _ hc
      · refine List.pairwise_cons.2 ⟨?_, ih hs.2⟩
        intro c hc
        rcases mem_assign hc with rfl | hc
        · simp only; omega
        · exact hs.1 _ hc

theorem sorted_insertNew {m : StdMap β} (hs : m.Sorted) (k : ℕ) (v : β) : (m.insertNew k v).Sorted := by
  induction m with
  | nil => simp [insertNew, Sorted]
  | cons b t ih =>
    have hs' := hs
    rw [Sorted, List.pairwise_cons] at hs
    simp only [insertNew]
    split
    · rename_i hk
      refine List.pairwise_cons.2 ⟨?_, hs'⟩
      intro c hc
      rcases List.mem_cons.1 hc with rfl | hc
      · exact hk
      · exact lt_trans hk (hs.1 _ hc)
    · split
      · exact hs'
      · refine List.pairwise_cons.2 ⟨?_, ih hs.2⟩
        intro c hc
        rcases mem_insertNew hc with rfl | hc
        · simp only; omega
        · exact hs.1 _ hc

theorem find?_assign {m : StdMap β} (hs : m.Sorted) (k : ℕ) (v : β) (k' : ℕ) :
    (m.assign k v).find? k' = if k' = k then some v else m.find? k' := by
  induction m with
  | nil => simp [assign, find?]
  | cons b t ih =>
    rw [Sorted, List.pairwise_cons] at hs
    simp only [assign]
    split
    · simp only [find?]
    · split
      · rename_i hk; subst hk; simp only [find?]; split <;> rfl
      · rename_i h1 h2
        simp only [find?]
        rw [ih hs.2]
        by_cases hk : k' = b.1
        · rw [if_pos hk, if_neg (by omega), if_pos hk]
        · rw [if_neg hk, if_neg hk]

theorem find?_insertNew {m : StdMap β} (hs : m.Sorted) (k : ℕ) (v : β) (k' : ℕ) :
    (m.insertNew k v).find? k' = if k' = k then some ((m.find? k).getD v) else m.find? k' := by
  induction m with
  | nil => simp [insertNew, find?]
  | cons b t ih =>
    have hs' := hs
    rw [Sorted, List.pairwise_cons] at hs
    simp only [insertNew]
    split
    · rename_i hk
      have : find? (b :: t) k = none := by
        apply find?_eq_none_of_lt
        intro c hc
        rcases List.mem_cons.1 hc with rfl | hc
        · exact hk
        · exact lt_trans hk (hs.1 _ hc)
      rw [this]; simp [find?]
    · split
      · rename_i hk; subst hk; simp only [find?]; split <;> simp
      · rename_i h1 h2
        simp only [find?]
        rw [ih hs.2]
        by_cases hk : k' = b.1
        · rw [if_pos hk, if_neg (by omega), if_pos hk]
        · rw [if_neg hk, if_neg hk, if_neg h2]

/-- Sorted maps with the same lookups are the same list. -/
theorem ext_of_find? {m₁ m₂ : StdMap β} (h₁ : m₁.Sorted) (h₂ : m₂.Sorted)
    (h : ∀ k, m₁.find? k = m₂.find? k) : m₁ = m₂ := by
  induction m₁ generalizing m₂ with
  | nil =>
    cases m₂ with
    | nil => rfl
    | cons b t => have := h b.1; simp [find?] at this
  | cons a t ih =>
    cases m₂ with
    | nil => have := h a.1; simp [find?] at this
    | cons b t₂ =>
      have h₁' := h₁; have h₂' := h₂
      rw [Sorted, List.pairwise_cons] at h₁ h₂
      have hab : a.1 = b.1 := by
        rcases lt_trichotomy a.1 b.1 with hlt | heq | hgt
        · have hn : find? (b :: t₂) a.1 = none := by
            apply find?_eq_none_of_lt
            intro c hc
            rcases List.mem_cons.1 hc with rfl | hc
            · exact hlt
            · exact lt_trans hlt (h₂.1 _ hc)
          have := h a.1; rw [hn] at this; simp [find?] at this
        · exact heq
        · have hn : find? (a :: t) b.1 = none := by
            apply find?_eq_none_of_lt
            intro c hc
            rcases List.mem_cons.1 hc with rfl | hc
            · exact hgt
            · exact lt_trans hgt (h₁.1 _ hc)
          have := h b.1; rw [hn] at this; simp [find?] at this
      have hv : a.2 = b.2 := by
        have := h a.1; rw [show b = (b.1, b.2) from rfl] at this; simp [find?, hab] at this; exact this
      have hab' : a = b := Prod.ext hab hv
      subst hab'
      congr 1
      refine ih h₁.2 h₂.2 fun k => ?_
      by_cases hk : k = a.1
      · subst hk
        rw [find?_eq_none_of_lt h₁.1, find?_eq_none_of_lt h₂.1]
      · have := h k; simp only [find?, if_neg hk] at this; exact this

end StdMap

namespace StdSet

theorem mem_insert {s : List ℕ} {k x : ℕ} : x ∈ StdSet.insert s k ↔ x = k ∨ x ∈ s := by
  induction s with
  | nil => simp [insert]
  | cons b t ih =>
    simp only [insert]
    split
    · simp
    · split
      · rename_i h; subst h; simp
      · simp only [List.mem_cons, ih]; tauto

theorem sorted_insert {s : List ℕ} (hs : s.Pairwise (· < ·)) (k : ℕ) :
    (StdSet.insert s k).Pairwise (· < ·) := by
  induction s with
  | nil => simp [insert]
  | cons b t ih =>
    have hs' := hs
    rw [List.pairwise_cons] at hs
    simp only [insert]
    split
    · rename_i hk
      refine List.pairwise_cons.2 ⟨?_, hs'⟩
      intro c hc
      rcases List.mem_cons.1 hc with rfl | hc
      · exact hk
      · exact lt_trans hk (hs.1 _ hc)
    · split
      · exact hs'
      · refine List.pairwise_cons.2 ⟨?_, ih hs.2⟩
        intro c hc
        rcases mem_insert.1 hc with rfl | hc
        · omega
        · exact hs.1 _ hc

/-- Strictly increasing lists with the same elements are equal. -/
theorem ext_of_mem {s₁ s₂ : List ℕ} (h₁ : s₁.Pairwise (· < ·)) (h₂ : s₂.Pairwise (· < ·))
    (h : ∀ x, x ∈ s₁ ↔ x ∈ s₂) : s₁ = s₂ := by
  have n1 : s₁.Nodup := h₁.imp (fun h => ne_of_lt h)
  have n2 : s₂.Nodup := h₂.imp (fun h => ne_of_lt h)
  have hp : s₁.Perm s₂ := (List.perm_ext_iff_of_nodup n1 n2).2 h
  exact hp.eq_of_pairwise (fun a b _ _ hab hba => absurd hab (lt_asymm hba)) h₁ h₂

end StdSet

namespace MultiMap

/-- Keys do not decrease. -/
def Sorted (t : List (ℝ × ℕ)) : Prop := t.Pairwise (fun a b => a.1 ≤ b.1)

theorem mem_insert {t : List (ℝ × ℕ)} {k : ℝ} {v : ℕ} {a : ℝ × ℕ} :
    a ∈ MultiMap.insert t k v ↔ a = (k, v) ∨ a ∈ t := by
  induction t with
  | nil => simp [insert]
  | cons b t ih =>
    simp only [insert]
    split
    · simp
    · simp only [List.mem_cons, ih]; tauto

theorem sorted_insert {t : List (ℝ × ℕ)} (hs : Sorted t) (k : ℝ) (v : ℕ) :
    Sorted (MultiMap.insert t k v) := by
  induction t with
  | nil => simp [insert, Sorted]
  | cons b t ih =>
    have hs' := hs
    rw [Sorted, List.pairwise_cons] at hs
    simp only [insert]
    split
    · rename_i hk
      refine List.pairwise_cons.2 ⟨?_, hs'⟩
      intro c hc
      rcases List.mem_cons.1 hc with rfl | hc
      · exact hk.le
      · exact le_trans hk.le (hs.1 _ hc)
    · rename_i hk
      refine List.pairwise_cons.2 ⟨?_, ih hs.2⟩
      intro c hc
      rcases mem_insert.1 hc with rfl | hc
      · exact not_lt.1 hk
      · exact hs.1 _ hc

theorem lowerBound_le_length (t : List (ℝ × ℕ)) (x : ℝ) : lowerBound t x ≤ t.length := by
  induction t with
  | nil => simp [lowerBound]
  | cons b t ih => simp only [lowerBound, List.length_cons]; split <;> omega

/-- Elements from `lower_bound x` on are those with key at least `x`. -/
theorem mem_drop_lowerBound {t : List (ℝ × ℕ)} (hs : Sorted t) (x : ℝ) (a : ℝ × ℕ) :
    a ∈ t.drop (lowerBound t x) ↔ a ∈ t ∧ x ≤ a.1 := by
  induction t with
  | nil => simp [lowerBound]
  | cons b t ih =>
    rw [Sorted, List.pairwise_cons] at hs
    simp only [lowerBound]
    split
    · rename_i hb
      rw [List.drop_succ_cons, ih hs.2]
      constructor
      · rintro ⟨h1, h2⟩; exact ⟨by simp [h1], h2⟩
      · rintro ⟨h1, h2⟩
        rcases List.mem_cons.1 h1 with rfl | h1
        · exact absurd hb (not_lt.2 h2)
        · exact ⟨h1, h2⟩
    · rename_i hb
      simp only [List.drop_zero]
      constructor
      · intro h
        refine ⟨h, ?_⟩
        rcases List.mem_cons.1 h with rfl | h
        · exact not_lt.1 hb
        · exact le_trans (not_lt.1 hb) (hs.1 _ h)
      · exact fun h => h.1

/-- Elements before `lower_bound x` are those with key below `x`. -/
theorem mem_take_lowerBound {t : List (ℝ × ℕ)} (hs : Sorted t) (x : ℝ) (a : ℝ × ℕ) :
    a ∈ t.take (lowerBound t x) ↔ a ∈ t ∧ a.1 < x := by
  induction t with
  | nil => simp [lowerBound]
  | cons b t ih =>
    rw [Sorted, List.pairwise_cons] at hs
    simp only [lowerBound]
    split
    · rename_i hb
      rw [List.take_succ_cons, List.mem_cons, ih hs.2]
      constructor
      · rintro (rfl | ⟨h1, h2⟩)
        · exact ⟨by simp, hb⟩
        · exact ⟨by simp [h1], h2⟩
      · rintro ⟨h1, h2⟩
        rcases List.mem_cons.1 h1 with rfl | h1
        · exact Or.inl rfl
        · exact Or.inr ⟨h1, h2⟩
    · rename_i hb
      simp only [List.take_zero, List.not_mem_nil, false_iff, not_and, not_lt]
      intro h
      rcases List.mem_cons.1 h with rfl | h
      · exact not_lt.1 hb
      · exact le_trans (not_lt.1 hb) (hs.1 _ h)

theorem lowerBound_mono {t : List (ℝ × ℕ)} {x y : ℝ} (h : x ≤ y) :
    lowerBound t x ≤ lowerBound t y := by
  induction t with
  | nil => simp [lowerBound]
  | cons b t ih =>
    simp only [lowerBound]
    split
    · rename_i hb; rw [if_pos (lt_of_lt_of_le hb h)]; omega
    · omega

/-- The half-open iterator range `[lower_bound x, lower_bound y)`. -/
theorem mem_range {t : List (ℝ × ℕ)} (hs : Sorted t) {x y : ℝ} (hxy : x ≤ y) (a : ℝ × ℕ) :
    a ∈ MultiMap.range t (lowerBound t x) (lowerBound t y) ↔ a ∈ t ∧ x ≤ a.1 ∧ a.1 < y := by
  unfold MultiMap.range
  have hle := lowerBound_mono (t := t) hxy
  have hsd : Sorted (t.drop (lowerBound t x)) := List.Pairwise.sublist (List.drop_sublist _ _) hs
  have key : lowerBound (t.drop (lowerBound t x)) y = lowerBound t y - lowerBound t x := by
    clear hs hsd
    induction t with
    | nil => simp [lowerBound]
    | cons b t ih =>
      simp only [lowerBound]
      by_cases hb : b.1 < x
      · rw [if_pos hb, if_pos (lt_of_lt_of_le hb hxy), List.drop_succ_cons,
          ih (lowerBound_mono hxy)]
        omega
      · rw [if_neg hb]; simp [lowerBound]
  rw [← key, mem_take_lowerBound hsd, mem_drop_lowerBound hs]
  tauto

theorem mem_range_zero {t : List (ℝ × ℕ)} (hs : Sorted t) (y : ℝ) (a : ℝ × ℕ) :
    a ∈ MultiMap.range t 0 (lowerBound t y) ↔ a ∈ t ∧ a.1 < y := by
  unfold MultiMap.range
  simp only [List.drop_zero, Nat.sub_zero]
  exact mem_take_lowerBound hs y a

theorem mem_range_end {t : List (ℝ × ℕ)} (hs : Sorted t) (x : ℝ) (a : ℝ × ℕ) :
    a ∈ MultiMap.range t (lowerBound t x) t.length ↔ a ∈ t ∧ x ≤ a.1 := by
  unfold MultiMap.range
  rw [List.take_of_length_le (by simp), mem_drop_lowerBound hs]

end MultiMap
end Verif
