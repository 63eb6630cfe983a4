import Verif.Model.Spline
import Verif.Lemmas.Curvature

/-! Helper lemmas on the breakpoints of `spline_fit`. -/

namespace Verif.Spline
open Verif Verif.Np Verif.Curvature

theorem midRound_bounds (a b : ℕ) : (a + b) / 2 ≤ midRound a b ∧ midRound a b ≤ (a + b) / 2 + 1 := by
  unfold midRound; split <;> [omega; (split <;> omega)]

theorem midRound_upper (a b : ℕ) (h : a ≤ b) : min ((a + b) / 2 - a) (b - (a + b) / 2) ≤ b - midRound a b := by
  unfold midRound; split <;> [omega; (split <;> omega)]

/-- A list with the midpoints put between its elements. -/
def interleave : List ℕ → List ℕ
  | [] => []
  | [a] => [a]
  | a :: b :: l => a :: (a + b) / 2 :: interleave (b :: l)

theorem interleave_length : ∀ l : List ℕ, l ≠ [] → (interleave l).length + 1 = 2 * l.length
  | [], h => absurd rfl h
  | [a], _ => rfl
  | a :: b :: l, _ => by
    have := interleave_length (b :: l) (by simp)
    rw [interleave]
    simp only [List.length_cons] at this ⊢
    omega

theorem interleave_perm : ∀ l : List ℕ, (interleave l).Perm (l ++ midInds l)
  | [] => by simp [interleave, midInds]
  | [a] => by simp [interleave, midInds]
  | a :: b :: l => by
    have ih := interleave_perm (b :: l)
    have hm : midInds (a :: b :: l) = (a + b) / 2 :: midInds (b :: l) := by simp [midInds]
    rw [interleave, hm, List.cons_append]
    refine List.Perm.cons _ ?_
    refine (List.Perm.cons _ ih).trans ?_
    exact (List.perm_middle (l₁ := b :: l) (l₂ := midInds (b :: l)) (a := (a + b) / 2)).symm

theorem interleave_ge : ∀ (l : List ℕ), l.Pairwise (· < ·) → ∀ a ∈ l.head?, ∀ x ∈ interleave l, a ≤ x
  | [], _ => by simp
  | [a], _ => by simp [interleave]
  | a :: b :: l, h => by
    intro a' ha' x hx
    have : a = a' := by simpa using ha'
    subst this
    rw [interleave] at hx
    have hab : a < b := (List.pairwise_cons.1 h).1 b (by simp)
    rcases List.mem_cons.1 hx with rfl | hx
    · exact le_rfl
    · rcases List.mem_cons.1 hx with rfl | hx
      · omega
      · have := interleave_ge (b :: l) (List.pairwise_cons.1 h).2 b (by simp) x hx
        omega

theorem interleave_sorted : ∀ (l : List ℕ), l.Pairwise (· < ·) → (interleave l).Pairwise (· ≤ ·)
  | [], _ => by simp [interleave]
  | [a], _ => by simp [interleave]
  | a :: b :: l, h => by
    have hab : a < b := (List.pairwise_cons.1 h).1 b (by simp)
    have h' := (List.pairwise_cons.1 h).2
    have hge := interleave_ge (b :: l) h' b (by simp)
    rw [interleave, List.pairwise_cons, List.pairwise_cons]
    refine ⟨?_, ?_, interleave_sorted (b :: l) h'⟩
    · intro x hx
      rcases List.mem_cons.1 hx with rfl | hx
      · omega
      · have := hge x hx; omega
    · intro x hx
      have := hge x hx
      omega

theorem interleave_get : ∀ (l : List ℕ) (i : ℕ) (h : i + 1 < l.length), (interleave l)[2 * i + 1]? = some ((l[i] + l[i + 1]) / 2)
  | [], i, h => by simp at h
  | [a], i, h => by simp at h
  | a :: b :: l, 0, _ => by simp [interleave]
  | a :: b :: l, i + 1, h => by
    have := interleave_get (b :: l) i (by simpa using h)
    rw [interleave, show 2 * (i + 1) + 1 = (2 * i + 1) + 2 by ring]
    simpa using this

theorem sort_interleave {l : List ℕ} (h : l.Pairwise (· < ·)) :
    (l ++ midInds l).mergeSort (fun a b => decide (a ≤ b)) = interleave l := by
  have hp : ((l ++ midInds l).mergeSort (fun a b => decide (a ≤ b))).Perm (interleave l) :=
    (List.mergeSort_perm _ _).trans (interleave_perm l).symm
  have hs : ((l ++ midInds l).mergeSort (fun a b => decide (a ≤ b))).Pairwise (· ≤ ·) := by
    have := List.pairwise_mergeSort (le := fun a b : ℕ => decide (a ≤ b)) (by intro a b c h1 h2; simp at *; omega)
      (by intro a b; simp; omega) (l ++ midInds l)
    simpa using this
  exact hp.eq_of_pairwise (fun a b _ _ hab hba => by omega) hs (interleave_sorted l h)

/-- The proposed breakpoint of segment `i` is its middle, rounded down. -/
theorem nextInds_get {l : List ℕ} (h : l.Pairwise (· < ·)) {i : ℕ} (hi : i + 1 < l.length) :
    (nextInds l)[2 * i]? = some ((l[i] + l[i + 1]) / 2) := by
  unfold nextInds
  rw [sort_interleave h]
  have hl := interleave_length l (by intro hc; rw [hc] at hi; simp at hi)
  rw [List.getElem?_dropLast, if_pos (by rw [List.length_tail]; omega), List.getElem?_tail]
  exact interleave_get l i hi

/-- Breakpoints in order, inside the spectrum. -/
def Good (size : ℕ) (inds : List ℕ) : Prop := (allInds size inds).Pairwise (· < ·)

theorem good_iff {size : ℕ} {inds : List ℕ} :
    Good size inds ↔ inds.Pairwise (· < ·) ∧ (∀ x ∈ inds, 0 < x ∧ x < size) ∧ 0 < size := by
  unfold Good allInds
  rw [List.append_assoc, List.singleton_append, List.pairwise_cons, List.pairwise_append]
  constructor
  · rintro ⟨h1, h2, -, h3⟩
    exact ⟨h2, fun x hx => ⟨h1 x (by simp [hx]), h3 x hx size (by simp)⟩, h1 size (by simp)⟩
  · rintro ⟨h1, h2, h3⟩
    refine ⟨?_, h1, by simp, ?_⟩
    · intro x hx
      rcases List.mem_append.1 hx with hx | hx
      · exact (h2 x hx).1
      · simp at hx; omega
    · intro x hx y hy
      simp at hy
      rw [hy]; exact (h2 x hx).2

theorem good_length {size : ℕ} {inds : List ℕ} (h : Good size inds) : inds.length < size := by
  obtain ⟨h1, h2, h3⟩ := good_iff.1 h
  have hn : inds.Nodup := h1.imp (fun h => h.ne)
  have hsub : inds.toFinset ⊆ Finset.Ico 1 size := by
    intro x hx
    have := h2 x (List.mem_toFinset.1 hx)
    rw [Finset.mem_Ico]; omega
  have := Finset.card_le_card hsub
  rw [List.toFinset_card_of_nodup hn, Nat.card_Ico] at this
  omega

theorem all_get_lt {size : ℕ} {inds : List ℕ} (h : Good size inds) {i j : ℕ} (hij : i < j)
    (hj : j < (allInds size inds).length) : (allInds size inds)[i] < (allInds size inds)[j] :=
  List.pairwise_iff_getElem.1 h i j (by omega) hj hij

theorem all_get_le {size : ℕ} {inds : List ℕ} (h : Good size inds) {j : ℕ}
    (hj : j < (allInds size inds).length) : (allInds size inds)[j] ≤ size := by
  obtain ⟨-, h2, h3⟩ := good_iff.1 h
  have := List.getElem_mem hj
  unfold allInds at this
  simp only [List.mem_append, List.mem_singleton] at this
  rcases this with (h | h) | h
  · unfold allInds; omega
  · have := h2 _ h; unfold allInds; omega
  · unfold allInds; omega

theorem foldl_max_sorted : ∀ (xs : List ℝ) (x : ℝ), (x :: xs).Pairwise (· < ·) → xs.foldl max x = (x :: xs).getLast (by simp) := by
  intro xs
  induction xs with
  | nil => intro x _; rfl
  | cons y ys ih =>
    intro x h
    have hxy : x < y := (List.pairwise_cons.1 h).1 y (by simp)
    rw [List.foldl_cons, max_eq_right hxy.le, ih y (List.pairwise_cons.1 h).2]
    exact (List.getLast_cons (a := x) (l := y :: ys) (by simp)).symm

theorem foldl_min_sorted : ∀ (xs : List ℝ) (x : ℝ), (x :: xs).Pairwise (· < ·) → xs.foldl min x = x := by
  intro xs
  induction xs with
  | nil => intro x _; rfl
  | cons y ys ih =>
    intro x h
    have hxy : x < y := (List.pairwise_cons.1 h).1 y (by simp)
    rw [List.foldl_cons, min_eq_left hxy.le]
    apply ih x
    rw [List.pairwise_cons] at h ⊢
    refine ⟨fun z hz => h.1 z (by simp [hz]), (List.pairwise_cons.1 h.2).2⟩

theorem linspace_sorted {vmax : ℝ} (hv : 0 < vmax) {n : ℕ} : (linspace vmax n).Pairwise (· < ·) := by
  rw [List.pairwise_iff_getElem]
  intro i j hi hj hij
  rw [linspace_length] at hi hj
  have e1 := linspace_get (vmax := vmax) hi
  have e2 := linspace_get (vmax := vmax) hj
  rw [List.getElem?_eq_getElem (by rw [linspace_length]; exact hi)] at e1
  rw [List.getElem?_eq_getElem (by rw [linspace_length]; exact hj)] at e2
  rw [Option.some.inj e1, Option.some.inj e2]
  have hs : 0 < vmax / ((n : ℝ) - 1) := by
    apply div_pos hv
    have : (2 : ℝ) ≤ n := by exact_mod_cast (by omega : 2 ≤ n)
    linarith
  have : (i : ℝ) < j := by exact_mod_cast hij
  exact mul_lt_mul_of_pos_right this hs

theorem seg_extremes {vmax : ℝ} (hv : 0 < vmax) {n lo hi : ℕ} (hlo : lo < hi) (hhi : hi ≤ n) :
    maxOf (slice (linspace vmax n) lo (hi + 1)) = .ok (((min hi (n - 1) : ℕ) : ℝ) * (vmax / ((n : ℝ) - 1))) ∧
      minOf (slice (linspace vmax n) lo (hi + 1)) = .ok ((lo : ℝ) * (vmax / ((n : ℝ) - 1))) := by
  set s := slice (linspace vmax n) lo (hi + 1) with hs
  have hlen : s.length = min (hi + 1) n - lo := by
    rw [hs]; unfold slice
    rw [List.length_drop, List.length_take, linspace_length]
  have hget : ∀ k, lo + k < min (hi + 1) n → s[k]? = some (((lo + k : ℕ) : ℝ) * (vmax / ((n : ℝ) - 1))) := by
    intro k hk
    rw [hs]; unfold slice
    rw [List.getElem?_drop, List.getElem?_take, if_pos (by omega), linspace_get (by omega)]
  have hsort : s.Pairwise (· < ·) := by
    rw [hs]; unfold slice
    exact ((linspace_sorted hv).sublist (List.take_sublist _ _)).sublist (List.drop_sublist _ _)
  cases hc : s with
  | nil => rw [hc] at hlen; simp at hlen; omega
  | cons x xs =>
    rw [hc] at hsort
    constructor
    · change Except.ok _ = Except.ok _
      rw [foldl_max_sorted xs x hsort]
      congr 1
      rw [List.getLast_eq_getElem]
      have h1 := hget (s.length - 1) (by rw [hlen]; omega)
      have h2 : (x :: xs)[(x :: xs).length - 1]? = s[s.length - 1]? := by rw [hc]
      rw [h1, List.getElem?_eq_getElem (by simp)] at h2
      rw [Option.some.inj h2]
      congr 2
      rw [hlen]; omega
    · change Except.ok _ = Except.ok _
      rw [foldl_min_sorted xs x hsort]
      have h1 := hget 0 (by omega)
      rw [hc] at h1
      simp only [List.getElem?_cons_zero, Nat.add_zero] at h1
      rw [Option.some.inj h1]

/-- The difference of `chi_squared` in the pixels of a segment: of the present spline and the proposed one. -/
noncomputable def gain (flux : List ℝ) (cur next : ℕ → ℝ) (lo hi : ℕ) : ℝ :=
  let seg := (List.range flux.length).filter (fun p => decide (lo ≤ p ∧ p < hi + 1))
  chi_squared (slice flux lo (hi + 1)) (seg.map cur) - chi_squared (slice flux lo (hi + 1)) (seg.map next)

theorem get_nat {α : Type} {l : List α} {i : ℕ} {x : α} (h : l[i]? = some x) : get l (i : ℤ) = .ok x := by
  obtain ⟨hi, -⟩ := List.getElem?_eq_some_iff.1 h
  refine get_eq (k := i) ?_ h
  rw [index_nonneg (by omega) (by exact_mod_cast hi)]
  simp

theorem splits_eq {vmax : ℝ} (hv : 0 < vmax) {n : ℕ} {inds : List ℕ} (hg : Good n inds) (flux : List ℝ)
    (chi_min seg_min : ℝ) (cur next : ℕ → ℝ) {i : ℕ} (hi : i + 1 < (allInds n inds).length) {lo hi' : ℕ}
    (hlo : (allInds n inds)[i] = lo) (hhi : (allInds n inds)[i + 1] = hi') :
    splits (linspace vmax n) flux chi_min seg_min cur next (allInds n inds) (nextInds (allInds n inds)) i =
      .ok (decide (variance (slice flux lo (hi' + 1)) ≠ 0 ∧ gain flux cur next lo hi' > chi_min ∧
        ((min hi' (n - 1) : ℕ) : ℝ) * (vmax / ((n : ℝ) - 1)) - (((lo + hi') / 2 : ℕ) : ℝ) * (vmax / ((n : ℝ) - 1)) ≥ seg_min ∧
        (((lo + hi') / 2 : ℕ) : ℝ) * (vmax / ((n : ℝ) - 1)) - (lo : ℝ) * (vmax / ((n : ℝ) - 1)) ≥ seg_min)) := by
  have hlt : lo < hi' := by rw [← hlo, ← hhi]; exact all_get_lt hg (by omega) hi
  have hle : hi' ≤ n := by rw [← hhi]; exact all_get_le hg hi
  obtain ⟨e1, e2⟩ := seg_extremes hv hlt hle
  unfold splits
  rw [get_nat (x := lo) (by rw [List.getElem?_eq_getElem (by omega), hlo])]
  have h2 : get (allInds n inds) ((i : ℤ) + 1) = .ok hi' := by
    have := get_nat (l := allInds n inds) (i := i + 1) (x := hi') (by rw [List.getElem?_eq_getElem hi, hhi])
    push_cast at this
    exact this
  have h3 : get (nextInds (allInds n inds)) (2 * (i : ℤ)) = .ok ((lo + hi') / 2) := by
    have := get_nat (l := nextInds (allInds n inds)) (i := 2 * i) (x := (lo + hi') / 2) (by
      rw [nextInds_get hg hi, hlo, hhi])
    push_cast at this
    exact this
  have h4 : get (linspace vmax n) (((lo + hi') / 2 : ℕ) : ℤ) = .ok ((((lo + hi') / 2 : ℕ) : ℝ) * (vmax / ((n : ℝ) - 1))) :=
    get_nat (linspace_get (by omega))
  simp only [bind, Except.bind, h2, h3, h4, e1, e2]
  rfl

/-- Is a breakpoint added between `lo` and `hi`? -/
noncomputable def wants (vmax : ℝ) (n : ℕ) (flux : List ℝ) (chi_min seg_min : ℝ) (cur next : ℕ → ℝ) (lo hi : ℕ) : Bool :=
  decide (variance (slice flux lo (hi + 1)) ≠ 0 ∧ gain flux cur next lo hi > chi_min ∧
    ((min hi (n - 1) : ℕ) : ℝ) * (vmax / ((n : ℝ) - 1)) - (((lo + hi) / 2 : ℕ) : ℝ) * (vmax / ((n : ℝ) - 1)) ≥ seg_min ∧
    (((lo + hi) / 2 : ℕ) : ℝ) * (vmax / ((n : ℝ) - 1)) - (lo : ℝ) * (vmax / ((n : ℝ) - 1)) ≥ seg_min)

/-- The breakpoints added in one pass. -/
noncomputable def added (vmax : ℝ) (n : ℕ) (flux : List ℝ) (chi_min seg_min : ℝ) (cur next : ℕ → ℝ) (all : List ℕ) : List ℕ :=
  (List.range (all.length - 1)).filterMap (fun i =>
    if wants vmax n flux chi_min seg_min cur next (all.getD i 0) (all.getD (i + 1) 0) then
      some (midRound (all.getD i 0) (all.getD (i + 1) 0)) else none)

theorem mapM_pure {α β : Type} {f : α → Py β} {g : α → β} {l : List α} (h : ∀ x ∈ l, f x = .ok (g x)) : l.mapM f = .ok (l.map g) := by
  induction l with
  | nil => rfl
  | cons x l ih =>
    rw [List.mapM_cons, h x (by simp), ih (fun y hy => h y (by simp [hy]))]
    rfl

theorem newBreaks_eq {vmax : ℝ} (hv : 0 < vmax) {n : ℕ} {inds : List ℕ} (hg : Good n inds) (flux : List ℝ)
    (chi_min seg_min : ℝ) (cur next : ℕ → ℝ) :
    newBreaks (linspace vmax n) flux chi_min seg_min cur next (allInds n inds) (nextInds (allInds n inds)) =
      .ok (added vmax n flux chi_min seg_min cur next (allInds n inds)) := by
  unfold newBreaks
  set all := allInds n inds with hall
  have h1 : (List.range (all.length - 1)).mapM (fun (i : ℕ) => splits (linspace vmax n) flux chi_min seg_min cur next all (nextInds all) i) =
      .ok ((List.range (all.length - 1)).map (fun i => wants vmax n flux chi_min seg_min cur next (all.getD i 0) (all.getD (i + 1) 0))) := by
    apply mapM_pure
    intro i hi
    have hi := List.mem_range.1 hi
    rw [splits_eq hv hg flux chi_min seg_min cur next (i := i) (by rw [← hall]; omega) rfl rfl]
    have e1 : all.getD i 0 = all[i] := by rw [List.getD_eq_getElem?_getD, List.getElem?_eq_getElem (by omega)]; rfl
    have e2 : all.getD (i + 1) 0 = all[i + 1] := by rw [List.getD_eq_getElem?_getD, List.getElem?_eq_getElem (by omega)]; rfl
    rw [e1, e2]
    rfl
  rw [h1]
  change Except.ok _ = Except.ok _
  congr 1
  unfold added
  apply List.filterMap_congr
  intro i hi
  have hi := List.mem_range.1 hi
  rw [List.getD_eq_getElem?_getD (l := List.map _ _), List.getElem?_map, List.getElem?_range hi]
  rfl

theorem added_mem {vmax : ℝ} {n : ℕ} {flux : List ℝ} {chi_min seg_min : ℝ} {cur next : ℕ → ℝ} {all : List ℕ} {x : ℕ}
    (h : x ∈ added vmax n flux chi_min seg_min cur next all) : ∃ (i : ℕ) (hi : i + 1 < all.length),
      wants vmax n flux chi_min seg_min cur next all[i] all[i + 1] = true ∧ x = midRound all[i] all[i + 1] := by
  unfold added at h
  obtain ⟨i, hi, hx⟩ := List.mem_filterMap.1 h
  have hi := List.mem_range.1 hi
  have e1 : all.getD i 0 = all[i] := by rw [List.getD_eq_getElem?_getD, List.getElem?_eq_getElem (by omega)]; rfl
  have e2 : all.getD (i + 1) 0 = all[i + 1] := by rw [List.getD_eq_getElem?_getD, List.getElem?_eq_getElem (by omega)]; rfl
  rw [e1, e2] at hx
  refine ⟨i, by omega, ?_⟩
  by_cases hw : wants vmax n flux chi_min seg_min cur next all[i] all[i + 1] = true
  · rw [if_pos hw] at hx
    exact ⟨hw, (Option.some.inj hx).symm⟩
  · rw [if_neg hw] at hx; cases hx

/-- A breakpoint is only added in the inside of a segment. -/
theorem wants_gap {vmax : ℝ} (hv : 0 < vmax) {n : ℕ} (hn : 2 ≤ n) {flux : List ℝ} {chi_min seg_min : ℝ}
    (hs : vmax / ((n : ℝ) - 1) < seg_min) {cur next : ℕ → ℝ} {lo hi : ℕ}
    (h : wants vmax n flux chi_min seg_min cur next lo hi = true) :
    lo + 2 ≤ (lo + hi) / 2 ∧ (lo + hi) / 2 + 2 ≤ min hi (n - 1) := by
  unfold wants at h
  rw [decide_eq_true_eq] at h
  obtain ⟨-, -, h1, h2⟩ := h
  set s := vmax / ((n : ℝ) - 1) with hsd
  have hs0 : 0 < s := by
    apply div_pos hv
    have : (2 : ℝ) ≤ n := by exact_mod_cast hn
    linarith
  have key : ∀ a b : ℕ, (b : ℝ) * s - (a : ℝ) * s ≥ seg_min → a + 2 ≤ b := by
    intro a b hab
    have : s < ((b : ℝ) - a) * s := by linarith
    have h1 : (1 : ℝ) < (b : ℝ) - a := by
      by_contra hc
      have := mul_le_mul_of_nonneg_right (not_lt.1 hc) hs0.le
      linarith
    have : (a : ℝ) + 1 < b := by linarith
    have : a + 1 < b := by exact_mod_cast this
    omega
  exact ⟨key _ _ h2, key _ _ h1⟩

theorem added_between {vmax : ℝ} (hv : 0 < vmax) {n : ℕ} (hn : 2 ≤ n) {flux : List ℝ} {chi_min seg_min : ℝ}
    (hs : vmax / ((n : ℝ) - 1) < seg_min) {cur next : ℕ → ℝ} {lo hi : ℕ}
    (h : wants vmax n flux chi_min seg_min cur next lo hi = true) : lo < midRound lo hi ∧ midRound lo hi < min hi (n - 1) := by
  obtain ⟨h1, h2⟩ := wants_gap hv hn hs h
  have := midRound_bounds lo hi
  omega

theorem mono_get {l : List ℕ} (h : l.Pairwise (· < ·)) {i j : ℕ} (hij : i ≤ j) (hj : j < l.length) : l[i] ≤ l[j] := by
  rcases Nat.lt_or_ge i j with hlt | hge
  · exact (List.pairwise_iff_getElem.1 h i j (by omega) hj hlt).le
  · have : i = j := by omega
    subst this; exact le_rfl

theorem added_sorted {vmax : ℝ} (hv : 0 < vmax) {n : ℕ} (hn : 2 ≤ n) {flux : List ℝ} {chi_min seg_min : ℝ}
    (hs : vmax / ((n : ℝ) - 1) < seg_min) {cur next : ℕ → ℝ} {all : List ℕ} (hall : all.Pairwise (· < ·)) :
    (added vmax n flux chi_min seg_min cur next all).Pairwise (· < ·) := by
  unfold added
  rw [List.pairwise_filterMap]
  rw [List.pairwise_iff_getElem]
  intro i j hi hj hij b hb c hc
  rw [List.getElem_range] at hb hc
  rw [List.length_range] at hi hj
  have e : ∀ k, k < all.length → all.getD k 0 = all.getD k 0 := fun _ _ => rfl
  have e1 : ∀ k (hk : k < all.length), all.getD k 0 = all[k] := by
    intro k hk; rw [List.getD_eq_getElem?_getD, List.getElem?_eq_getElem hk]; rfl
  rw [e1 i (by omega), e1 (i + 1) (by omega)] at hb
  rw [e1 j (by omega), e1 (j + 1) (by omega)] at hc
  by_cases h1 : wants vmax n flux chi_min seg_min cur next all[i] all[i + 1] = true
  · rw [if_pos h1] at hb
    by_cases h2 : wants vmax n flux chi_min seg_min cur next all[j] all[j + 1] = true
    · rw [if_pos h2] at hc
      rw [← Option.some.inj hb, ← Option.some.inj hc]
      have a1 := added_between hv hn hs h1
      have a2 := added_between hv hn hs h2
      have a3 := mono_get hall (i := i + 1) (j := j) (by omega) (by omega)
      omega
    · rw [if_neg h2] at hc; cases hc
  · rw [if_neg h1] at hb; cases hb

/-- An element of an increasing list is not strictly between two neighbours. -/
theorem not_between {l : List ℕ} (h : l.Pairwise (· < ·)) {i : ℕ} (hi : i + 1 < l.length) {x : ℕ} (hx : x ∈ l) :
    x ≤ l[i] ∨ l[i + 1] ≤ x := by
  obtain ⟨k, hk, rfl⟩ := List.getElem_of_mem hx
  rcases Nat.lt_or_ge i k with hlt | hge
  · exact Or.inr (mono_get h (by omega) hk)
  · exact Or.inl (mono_get h hge (by omega))

/-- The breakpoints after one pass. -/
def merged (inds new_bp : List ℕ) : List ℕ := (inds ++ new_bp).mergeSort (fun a b => decide (a ≤ b))

theorem merged_mem {inds new_bp : List ℕ} {x : ℕ} : x ∈ merged inds new_bp ↔ x ∈ inds ∨ x ∈ new_bp := by
  unfold merged
  rw [List.mem_mergeSort, List.mem_append]

theorem merged_length (inds new_bp : List ℕ) : (merged inds new_bp).length = inds.length + new_bp.length := by
  unfold merged
  rw [List.length_mergeSort, List.length_append]

theorem merged_good {vmax : ℝ} (hv : 0 < vmax) {n : ℕ} (hn : 2 ≤ n) {flux : List ℝ} {chi_min seg_min : ℝ}
    (hs : vmax / ((n : ℝ) - 1) < seg_min) {cur next : ℕ → ℝ} {inds : List ℕ} (hg : Good n inds) :
    Good n (merged inds (added vmax n flux chi_min seg_min cur next (allInds n inds))) := by
  obtain ⟨h1, h2, h3⟩ := good_iff.1 hg
  set new := added vmax n flux chi_min seg_min cur next (allInds n inds) with hnew
  have hnewb : ∀ x ∈ new, ∃ (i : ℕ) (hi : i + 1 < (allInds n inds).length),
      (allInds n inds)[i] < x ∧ x < min (allInds n inds)[i + 1] (n - 1) := by
    intro x hx
    obtain ⟨i, hi, hw, rfl⟩ := added_mem hx
    exact ⟨i, hi, added_between hv hn hs hw⟩
  have hnodup : (inds ++ new).Nodup := by
    rw [List.nodup_append]
    refine ⟨h1.imp (fun h => h.ne), (added_sorted hv hn hs hg).imp (fun h => h.ne), ?_⟩
    intro x hx y hy hxy
    subst hxy
    obtain ⟨i, hi, a1, a2⟩ := hnewb x hy
    rcases not_between hg hi (x := x) (by unfold allInds; simp [hx]) with h | h <;> omega
  rw [good_iff]
  refine ⟨?_, ?_, h3⟩
  · have hsort : (merged inds new).Pairwise (· ≤ ·) := by
      have := List.pairwise_mergeSort (le := fun a b : ℕ => decide (a ≤ b)) (by intro a b c h1 h2; simp at *; omega)
        (by intro a b; simp; omega) (inds ++ new)
      unfold merged
      simpa using this
    have hnd : (merged inds new).Nodup := (List.mergeSort_perm _ _).nodup_iff.2 hnodup
    exact (hsort.and hnd).imp (fun h => lt_of_le_of_ne h.1 h.2)
  · intro x hx
    rcases merged_mem.1 hx with hx | hx
    · exact h2 x hx
    · obtain ⟨i, hi, a1, a2⟩ := hnewb x hx
      omega

end Verif.Spline
