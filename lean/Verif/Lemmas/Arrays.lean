import Verif.Model.CRes

/-! Lemmas on checked array updates: a sequence of `a[i] += x` adds a fixed function to the array. -/

namespace Verif

/-- Add `f j` to element `j`. -/
noncomputable def arrAdd (a : List ℝ) (f : ℕ → ℝ) : List ℝ := a.mapIdx (fun j x => x + f j)

@[simp] theorem arrAdd_length (a : List ℝ) (f : ℕ → ℝ) : (arrAdd a f).length = a.length := by
  simp [arrAdd]

theorem arrAdd_getElem? (a : List ℝ) (f : ℕ → ℝ) (j : ℕ) :
    (arrAdd a f)[j]? = a[j]?.map (· + f j) := by simp [arrAdd]

theorem arrAdd_congr {a : List ℝ} {f g : ℕ → ℝ} (h : ∀ j < a.length, f j = g j) :
    arrAdd a f = arrAdd a g := by
  apply List.ext_getElem?
  intro j
  rw [arrAdd_getElem?, arrAdd_getElem?]
  by_cases hj : j < a.length
  · rw [h j hj]
  · rw [List.getElem?_eq_none (by omega)]; rfl

theorem arrAdd_zero (a : List ℝ) : arrAdd a (fun _ => 0) = a := by
  apply List.ext_getElem?
  intro j
  rw [arrAdd_getElem?]
  cases a[j]? <;> simp

theorem arrAdd_arrAdd (a : List ℝ) (f g : ℕ → ℝ) :
    arrAdd (arrAdd a f) g = arrAdd a (fun j => f j + g j) := by
  apply List.ext_getElem?
  intro j
  rw [arrAdd_getElem?, arrAdd_getElem?, arrAdd_getElem?]
  cases a[j]? <;> simp [add_assoc]

theorem arrAdd_sum (a : List ℝ) (f : ℕ → ℝ) :
    (arrAdd a f).sum = a.sum + ∑ j ∈ Finset.range a.length, f j := by
  induction a generalizing f with
  | nil => simp [arrAdd]
  | cons x a ih =>
    have : arrAdd (x :: a) f = (x + f 0) :: arrAdd a (fun j => f (j + 1)) := by
      simp [arrAdd, List.mapIdx_cons]
    rw [this, List.sum_cons, ih, List.sum_cons, List.length_cons, Finset.sum_range_succ']
    ring

theorem addAt_eq {a : List ℝ} {i : ℤ} (x : ℝ) (h0 : 0 ≤ i) (h1 : i < a.length) :
    addAt a i x = .ok (arrAdd a (fun j => if (j : ℤ) = i then x else 0)) := by
  unfold addAt
  rw [if_pos ⟨h0, h1⟩]
  congr 1
  apply List.ext_getElem?
  intro j
  rw [arrAdd_getElem?, List.getElem?_modify]
  by_cases hj : i.toNat = j
  · have : (j : ℤ) = i := by omega
    simp [hj, this]
  · have : ¬ (j : ℤ) = i := by omega
    simp [hj, this]

theorem ok_bind {α β : Type} (x : α) (f : α → CRes β) : (Except.ok x >>= f) = f x := rfl

/-- A loop whose every step adds a fixed function adds the sum. -/
theorem foldlM_arrAdd {α : Type} (step : List ℝ → α → CRes (List ℝ)) (g : α → ℕ → ℝ) (n : ℕ)
    (xs : List α) (h : ∀ x ∈ xs, ∀ a : List ℝ, a.length = n → step a x = .ok (arrAdd a (g x)))
    (a : List ℝ) (ha : a.length = n) :
    xs.foldlM step a = .ok (arrAdd a (fun j => (xs.map (fun x => g x j)).sum)) := by
  induction xs generalizing a with
  | nil => simp only [List.foldlM_nil, List.map_nil, List.sum_nil, arrAdd_zero]; rfl
  | cons x xs ih =>
    rw [List.foldlM_cons, h x (by simp) a ha, ok_bind, ih (fun y hy => h y (by simp [hy])) _ (by simpa),
      arrAdd_arrAdd]
    simp

/-- `readAt` inside the array. -/
theorem readAt_eq {α : Type} {a : List α} {i : ℕ} {x : α} (h : a[i]? = some x) :
    readAt a (i : ℤ) = .ok x := by
  unfold readAt; simp [h]

theorem readAt_none {α : Type} {a : List α} {i : ℕ} (h : a[i]? = none) :
    readAt a (i : ℤ) = .error .outOfBounds := by
  unfold readAt; simp [h]

end Verif
