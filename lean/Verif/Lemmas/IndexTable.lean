import Verif.Model.IndexTable
import Verif.Lemmas.StdMap
import Verif.Spec.Geometry

/-! Helper lemmas on the index table (used by `Verif.Props.NearLines`). -/

namespace Verif
namespace IndexTable

open Spec

/-! ### Construction -/

theorem buildFrom_lines (t : Table) (n : ℕ) (ls : List Line) :
    (buildFrom t n ls).lines = t.lines ∧ (buildFrom t n ls).boxsize = t.boxsize := by
  induction ls generalizing t n with
  | nil => simp [buildFrom]
  | cons l ls ih =>
    simp only [buildFrom]
    rw [(ih _ _).1, (ih _ _).2]
    unfold addLine; split <;> simp

theorem build_lines (lines : List Line) (box : ℝ) : (build lines box).lines = lines :=
  (buildFrom_lines _ _ _).1

theorem build_boxsize (lines : List Line) (box : ℝ) : (build lines box).boxsize = box :=
  (buildFrom_lines _ _ _).2

theorem buildFrom_sorted (t : Table) (n : ℕ) (ls : List Line)
    (h1 : MultiMap.Sorted t.index_table) (h2 : MultiMap.Sorted t.index_table_xx) :
    MultiMap.Sorted (buildFrom t n ls).index_table ∧
      MultiMap.Sorted (buildFrom t n ls).index_table_xx := by
  induction ls generalizing t n with
  | nil => exact ⟨h1, h2⟩
  | cons l ls ih =>
    simp only [buildFrom]
    apply ih <;> unfold addLine <;> split
    · exact h1
    · exact MultiMap.sorted_insert h1 _ _
    · exact MultiMap.sorted_insert h2 _ _
    · exact h2

theorem build_sorted (lines : List Line) (box : ℝ) :
    MultiMap.Sorted (build lines box).index_table ∧
      MultiMap.Sorted (build lines box).index_table_xx :=
  buildFrom_sorted _ _ _ (by simp [MultiMap.Sorted]) (by simp [MultiMap.Sorted])

theorem buildFrom_mem (t : Table) (n : ℕ) (ls : List Line) (a : ℝ × ℕ) :
    (a ∈ (buildFrom t n ls).index_table ↔ a ∈ t.index_table ∨
      ∃ j l, ls[j]? = some l ∧ a.2 = n + j ∧ l.axis ≠ 1 ∧ a.1 = l.cofm 0) ∧
    (a ∈ (buildFrom t n ls).index_table_xx ↔ a ∈ t.index_table_xx ∨
      ∃ j l, ls[j]? = some l ∧ a.2 = n + j ∧ l.axis = 1 ∧ a.1 = l.cofm 1) := by
  induction ls generalizing t n with
  | nil => simp [buildFrom]
  | cons l ls ih =>
    simp only [buildFrom]
    have e : ∀ P : Line → Prop,
        (∃ j l', (l :: ls)[j]? = some l' ∧ a.2 = n + j ∧ P l') ↔
        (a.2 = n ∧ P l) ∨ ∃ j l', ls[j]? = some l' ∧ a.2 = n + 1 + j ∧ P l' := by
      intro P
      constructor
      · rintro ⟨j, l', h1, h2, h3⟩
        cases j with
        | zero => simp at h1; subst h1; left; exact ⟨by omega, h3⟩
        | succ j => right; exact ⟨j, l', by simpa using h1, by omega, h3⟩
      · rintro (⟨h1, h2⟩ | ⟨j, l', h1, h2, h3⟩)
        · exact ⟨0, l, by simp, by omega, h2⟩
        · exact ⟨j + 1, l', by simpa using h1, by omega, h3⟩
    rw [(ih (addLine t n l) (n + 1)).1, (ih (addLine t n l) (n + 1)).2,
      e (fun l' => l'.axis ≠ 1 ∧ a.1 = l'.cofm 0), e (fun l' => l'.axis = 1 ∧ a.1 = l'.cofm 1)]
    unfold addLine
    by_cases hax : l.axis = 1
    · simp only [hax, if_true, MultiMap.mem_insert]
      have : a = (l.cofm 1, n) ↔ a.2 = n ∧ a.1 = l.cofm 1 := by
        rw [Prod.ext_iff]; simp; tauto
      rw [this]
      simp only [ne_eq, not_true, false_and, and_false, false_or, true_and]
      tauto
    · simp only [hax, if_false, MultiMap.mem_insert]
      have : a = (l.cofm 0, n) ↔ a.2 = n ∧ a.1 = l.cofm 0 := by
        rw [Prod.ext_iff]; simp; tauto
      rw [this]
      simp only [ne_eq, hax, not_false_eq_true, false_and, and_false, false_or, true_and]
      tauto

/-- Every line is in exactly one of the two tables, under its own number and coordinate. -/
theorem build_mem (lines : List Line) (box : ℝ) (a : ℝ × ℕ) :
    (a ∈ (build lines box).index_table ↔
      ∃ l, lines[a.2]? = some l ∧ l.axis ≠ 1 ∧ a.1 = l.cofm 0) ∧
    (a ∈ (build lines box).index_table_xx ↔
      ∃ l, lines[a.2]? = some l ∧ l.axis = 1 ∧ a.1 = l.cofm 1) := by
  have h := buildFrom_mem { index_table := [], index_table_xx := [], lines := lines, boxsize := box }
    0 lines a
  unfold build
  rw [h.1, h.2]
  constructor <;> constructor
  · rintro (h | ⟨j, l, h1, h2, h3⟩)
    · simp at h
    · exact ⟨l, by rw [h2, Nat.zero_add]; exact h1, h3⟩
  · rintro ⟨l, h1, h2⟩; exact Or.inr ⟨a.2, l, h1, by omega, h2⟩
  · rintro (h | ⟨j, l, h1, h2, h3⟩)
    · simp at h
    · exact ⟨l, by rw [h2, Nat.zero_add]; exact h1, h3⟩
  · rintro ⟨l, h1, h2⟩; exact Or.inr ⟨a.2, l, h1, by omega, h2⟩

/-! ### The search -/

/-- What the loop body of `get_nearby_from_range` stores for an element, if anything. -/
noncomputable def accept (t : Table) (pos : Vec3) (hh first : ℝ) (it : ℝ × ℕ) : Option ℝ :=
  match t.lines[it.2]? with
  | none => none
  | some line =>
    let second := if line.axis = 3 then pos 1 else pos 2
    let lproj2 := if line.axis = 3 then line.cofm 1 else line.cofm 2
    if second_close t.boxsize second lproj2 hh then
      let dr2 := calc_dr2 t.boxsize (first - it.1) (second - lproj2)
      if dr2 ≤ hh * hh then some dr2 else none
    else none

theorem get_nearby_from_range_cons (t : Table) (it : ℝ × ℕ) (elems : List (ℝ × ℕ))
    (m : StdMap ℝ) (pos : Vec3) (hh first : ℝ) :
    get_nearby_from_range t (it :: elems) m pos hh first =
      get_nearby_from_range t elems (match accept t pos hh first it with
        | none => m
        | some d => m.assign it.2 d) pos hh first := by
  unfold get_nearby_from_range accept
  simp only [List.foldl_cons]
  congr 1
  cases t.lines[it.2]? with
  | none => rfl
  | some line =>
    dsimp only
    generalize (if line.axis = 3 then pos 1 else pos 2) = s
    generalize (if line.axis = 3 then line.cofm 1 else line.cofm 2) = c
    by_cases h1 : second_close t.boxsize s c hh = true <;>
      by_cases h2 : calc_dr2 t.boxsize (first - it.1) (s - c) ≤ hh * hh <;> simp [h1, h2]

theorem get_nearby_from_range_sorted (t : Table) (elems : List (ℝ × ℕ)) (m : StdMap ℝ)
    (hm : m.Sorted) (pos : Vec3) (hh first : ℝ) :
    StdMap.Sorted (get_nearby_from_range t elems m pos hh first) := by
  induction elems generalizing m with
  | nil => exact hm
  | cons it elems ih =>
    rw [get_nearby_from_range_cons]
    apply ih
    split
    · exact hm
    · exact StdMap.sorted_assign hm _ _

/-- Lookup after the loop, when equal line numbers always carry the same value. -/
theorem find?_get_nearby_from_range (t : Table) (elems : List (ℝ × ℕ)) (m : StdMap ℝ)
    (hm : m.Sorted) (pos : Vec3) (hh first : ℝ) (v : ℕ → Option ℝ)
    (hv : ∀ it ∈ elems, accept t pos hh first it = v it.2) (k : ℕ) (d : ℝ) :
    StdMap.find? (get_nearby_from_range t elems m pos hh first) k = some d ↔
      ((∃ it ∈ elems, it.2 = k) ∧ v k = some d) ∨
      (¬ ((∃ it ∈ elems, it.2 = k) ∧ v k ≠ none) ∧ m.find? k = some d) := by
  induction elems generalizing m with
  | nil => simp [get_nearby_from_range]
  | cons it elems ih =>
    rw [get_nearby_from_range_cons]
    have hv0 := hv it (by simp)
    have hv' : ∀ x ∈ elems, accept t pos hh first x = v x.2 := fun x hx => hv x (by simp [hx])
    rw [hv0]
    cases hvi : v it.2 with
    | none =>
      simp only
      rw [ih m hm hv']
      by_cases hk : it.2 = k
      · subst hk; simp [hvi]
      · simp [hk]
    | some d' =>
      simp only
      rw [ih _ (StdMap.sorted_assign hm _ _) hv', StdMap.find?_assign hm]
      by_cases hk : it.2 = k
      · subst hk
        by_cases he : ∃ x ∈ elems, x.2 = it.2
        · simp [he, hvi]
        · simp [he, hvi]
      · simp [hk, Ne.symm hk]

/-- The window test of `get_nearby` on the sorted coordinate. -/
def inWindow (box first hh key : ℝ) : Prop :=
  let ffp := if first + hh > box then first + hh - box else first + hh
  let ffm := if first - hh < 0 then first - hh + box else first - hh
  if ffm ≤ ffp then ffm ≤ key ∧ key < ffp else key < ffp ∨ ffm ≤ key

theorem get_nearby_sorted (t : Table) (first : ℝ) (s : List (ℝ × ℕ)) (m : StdMap ℝ)
    (hm : m.Sorted) (pos : Vec3) (hh : ℝ) : StdMap.Sorted (get_nearby t first s m pos hh) := by
  unfold get_nearby
  dsimp only
  generalize (if first + hh > t.boxsize then first + hh - t.boxsize else first + hh) = ffp
  generalize (if first - hh < 0 then first - hh + t.boxsize else first - hh) = ffm
  split
  · exact get_nearby_from_range_sorted _ _ _ hm _ _ _
  · exact get_nearby_from_range_sorted _ _ _ (get_nearby_from_range_sorted _ _ _ hm _ _ _) _ _ _

theorem find?_get_nearby (t : Table) (first : ℝ) (s : List (ℝ × ℕ)) (hs : MultiMap.Sorted s)
    (m : StdMap ℝ) (hm : m.Sorted) (pos : Vec3) (hh : ℝ) (v : ℕ → Option ℝ)
    (hv : ∀ it ∈ s, accept t pos hh first it = v it.2) (k : ℕ) (d : ℝ) :
    StdMap.find? (get_nearby t first s m pos hh) k = some d ↔
      ((∃ it ∈ s, it.2 = k ∧ inWindow t.boxsize first hh it.1) ∧ v k = some d) ∨
      (¬ ((∃ it ∈ s, it.2 = k ∧ inWindow t.boxsize first hh it.1) ∧ v k ≠ none) ∧
        m.find? k = some d) := by
  unfold get_nearby inWindow
  dsimp only
  generalize (if first + hh > t.boxsize then first + hh - t.boxsize else first + hh) = ffp
  generalize (if first - hh < 0 then first - hh + t.boxsize else first - hh) = ffm
  split
  · rename_i hle
    rw [find?_get_nearby_from_range t _ m hm pos hh first v
      (fun it hit => hv it ((MultiMap.mem_range hs hle it).1 hit).1)]
    have : (∃ it ∈ MultiMap.range s (MultiMap.lowerBound s ffm) (MultiMap.lowerBound s ffp),
        it.2 = k) ↔ (∃ it ∈ s, it.2 = k ∧ (ffm ≤ it.1 ∧ it.1 < ffp)) := by
      constructor
      · rintro ⟨it, h1, h2⟩
        rw [MultiMap.mem_range hs hle] at h1
        exact ⟨it, h1.1, h2, h1.2⟩
      · rintro ⟨it, h1, h2, h3⟩
        exact ⟨it, (MultiMap.mem_range hs hle it).2 ⟨h1, h3⟩, h2⟩
    rw [this]
  · rename_i hle
    rw [find?_get_nearby_from_range t _ _ (get_nearby_from_range_sorted _ _ _ hm _ _ _) pos hh first v
      (fun it hit => hv it ((MultiMap.mem_range_end hs _ it).1 hit).1),
      find?_get_nearby_from_range t _ m hm pos hh first v
      (fun it hit => hv it ((MultiMap.mem_range_zero hs _ it).1 hit).1)]
    have e1 : (∃ it ∈ MultiMap.range s 0 (MultiMap.lowerBound s ffp), it.2 = k) ↔
        (∃ it ∈ s, it.2 = k ∧ it.1 < ffp) := by
      constructor
      · rintro ⟨it, h1, h2⟩
        rw [MultiMap.mem_range_zero hs] at h1
        exact ⟨it, h1.1, h2, h1.2⟩
      · rintro ⟨it, h1, h2, h3⟩
        exact ⟨it, (MultiMap.mem_range_zero hs _ it).2 ⟨h1, h3⟩, h2⟩
    have e2 : (∃ it ∈ MultiMap.range s (MultiMap.lowerBound s ffm) s.length, it.2 = k) ↔
        (∃ it ∈ s, it.2 = k ∧ ffm ≤ it.1) := by
      constructor
      · rintro ⟨it, h1, h2⟩
        rw [MultiMap.mem_range_end hs] at h1
        exact ⟨it, h1.1, h2, h1.2⟩
      · rintro ⟨it, h1, h2, h3⟩
        exact ⟨it, (MultiMap.mem_range_end hs _ it).2 ⟨h1, h3⟩, h2⟩
    have e3 : (∃ it ∈ s, it.2 = k ∧ (it.1 < ffp ∨ ffm ≤ it.1)) ↔
        (∃ it ∈ s, it.2 = k ∧ it.1 < ffp) ∨ (∃ it ∈ s, it.2 = k ∧ ffm ≤ it.1) := by
      constructor
      · rintro ⟨it, h1, h2, h3 | h3⟩
        · exact Or.inl ⟨it, h1, h2, h3⟩
        · exact Or.inr ⟨it, h1, h2, h3⟩
      · rintro (⟨it, h1, h2, h3⟩ | ⟨it, h1, h2, h3⟩)
        · exact ⟨it, h1, h2, Or.inl h3⟩
        · exact ⟨it, h1, h2, Or.inr h3⟩
    rw [e1, e2, e3]
    generalize (∃ it ∈ s, it.2 = k ∧ it.1 < ffp) = A
    generalize (∃ it ∈ s, it.2 = k ∧ ffm ≤ it.1) = B
    by_cases hA : A <;> by_cases hB : B <;> by_cases hvk : v k = none <;> simp [hA, hB, hvk]

theorem get_near_lines_sorted (t : Table) (pos : Vec3) (hh : ℝ) :
    StdMap.Sorted (get_near_lines t pos hh) := by
  unfold get_near_lines
  dsimp only
  have h0 : StdMap.Sorted ([] : StdMap ℝ) := by simp [StdMap.Sorted]
  split <;> split
  · exact get_nearby_sorted _ _ _ _ (get_nearby_sorted _ _ _ _ h0 _ _) _ _
  · exact get_nearby_sorted _ _ _ _ h0 _ _
  · exact get_nearby_sorted _ _ _ _ h0 _ _
  · exact h0

/-- First (sorted) coordinate number of a line. -/
def c1 (l : Line) : Fin 3 := if l.axis = 1 then 1 else 0
/-- Second coordinate number of a line. -/
def c2 (l : Line) : Fin 3 := if l.axis = 3 then 1 else 2

/-- The result of the search, line by line, before any geometry. -/
theorem find?_get_near_lines (lines : List Line) (box : ℝ) (pos : Vec3) (hh : ℝ) (k : ℕ) (d : ℝ) :
    StdMap.find? (get_near_lines (build lines box) pos hh) k = some d ↔
      ∃ l, lines[k]? = some l ∧ inWindow box (pos (c1 l)) hh (l.cofm (c1 l)) ∧
        second_close box (pos (c2 l)) (l.cofm (c2 l)) hh = true ∧
        d = calc_dr2 box (pos (c1 l) - l.cofm (c1 l)) (pos (c2 l) - l.cofm (c2 l)) ∧
        d ≤ hh * hh := by
  have hbox := build_boxsize lines box
  have hlines := build_lines lines box
  have hsort := build_sorted lines box
  have hmem := build_mem lines box
  generalize build lines box = t at *
  -- the guards on the table sizes make no difference
  have hguard : get_near_lines t pos hh =
      get_nearby t (pos 1) t.index_table_xx (get_nearby t (pos 0) t.index_table [] pos hh) pos hh := by
    have hn : ∀ (f : ℝ) (m : StdMap ℝ), get_nearby t f [] m pos hh = m := by
      intro f m
      unfold get_nearby
      simp [MultiMap.range, get_nearby_from_range]
    unfold get_near_lines
    dsimp only
    have e1 : (if t.index_table.length > 0 then get_nearby t (pos 0) t.index_table [] pos hh else [])
        = get_nearby t (pos 0) t.index_table [] pos hh := by
      split
      · rfl
      · rename_i h
        have : t.index_table = [] := List.eq_nil_of_length_eq_zero (by omega)
        rw [this, hn]
    rw [e1]
    split
    · rfl
    · rename_i h
      have : t.index_table_xx = [] := List.eq_nil_of_length_eq_zero (by omega)
      rw [this, hn]
  rw [hguard]
  set v0 : ℕ → Option ℝ := fun k => match lines[k]? with
    | none => none
    | some l => accept t pos hh (pos 0) (l.cofm 0, k) with hv0
  set v1 : ℕ → Option ℝ := fun k => match lines[k]? with
    | none => none
    | some l => accept t pos hh (pos 1) (l.cofm 1, k) with hv1
  have h0 : ∀ it ∈ t.index_table, accept t pos hh (pos 0) it = v0 it.2 := by
    intro it hit
    obtain ⟨l, h1, -, h3⟩ := ((hmem it).1).1 hit
    simp only [hv0, h1]; rw [← h3]
  have h1 : ∀ it ∈ t.index_table_xx, accept t pos hh (pos 1) it = v1 it.2 := by
    intro it hit
    obtain ⟨l, h1, -, h3⟩ := ((hmem it).2).1 hit
    simp only [hv1, h1]; rw [← h3]
  have hnil : StdMap.Sorted ([] : StdMap ℝ) := by simp [StdMap.Sorted]
  rw [find?_get_nearby t (pos 1) _ hsort.2 _ (get_nearby_sorted _ _ _ _ hnil _ _) pos hh v1 h1,
    find?_get_nearby t (pos 0) _ hsort.1 _ hnil pos hh v0 h0]
  have w1 : (∃ it ∈ t.index_table_xx, it.2 = k ∧ inWindow t.boxsize (pos 1) hh it.1) ↔
      ∃ l, lines[k]? = some l ∧ l.axis = 1 ∧ inWindow box (pos 1) hh (l.cofm 1) := by
    rw [hbox]
    constructor
    · rintro ⟨it, h, rfl, hw⟩
      obtain ⟨l, a, b, c⟩ := ((hmem it).2).1 h
      exact ⟨l, a, b, c ▸ hw⟩
    · rintro ⟨l, a, b, c⟩
      exact ⟨(l.cofm 1, k), ((hmem _).2).2 ⟨l, a, b, rfl⟩, rfl, c⟩
  have w0 : (∃ it ∈ t.index_table, it.2 = k ∧ inWindow t.boxsize (pos 0) hh it.1) ↔
      ∃ l, lines[k]? = some l ∧ l.axis ≠ 1 ∧ inWindow box (pos 0) hh (l.cofm 0) := by
    rw [hbox]
    constructor
    · rintro ⟨it, h, rfl, hw⟩
      obtain ⟨l, a, b, c⟩ := ((hmem it).1).1 h
      exact ⟨l, a, b, c ▸ hw⟩
    · rintro ⟨l, a, b, c⟩
      exact ⟨(l.cofm 0, k), ((hmem _).1).2 ⟨l, a, b, rfl⟩, rfl, c⟩
  rw [w0, w1]
  cases hk : lines[k]? with
  | none => simp [StdMap.find?]
  | some l =>
    have ea : ∀ (f c : ℝ), accept t pos hh f (c, k) = some d ↔
        second_close box (pos (c2 l)) (l.cofm (c2 l)) hh = true ∧
        d = calc_dr2 box (f - c) (pos (c2 l) - l.cofm (c2 l)) ∧ d ≤ hh * hh := by
      intro f c
      have key : accept t pos hh f (c, k) =
          if second_close box (pos (c2 l)) (l.cofm (c2 l)) hh = true then
            if calc_dr2 box (f - c) (pos (c2 l) - l.cofm (c2 l)) ≤ hh * hh then
              some (calc_dr2 box (f - c) (pos (c2 l) - l.cofm (c2 l))) else none
          else none := by
        unfold accept c2
        rw [hlines, hbox]
        simp only [hk]
        by_cases h3 : l.axis = 3
        · simp only [h3, if_true]
        · simp only [h3, if_false]
      rw [key]
      generalize second_close box (pos (c2 l)) (l.cofm (c2 l)) hh = sc
      generalize calc_dr2 box (f - c) (pos (c2 l) - l.cofm (c2 l)) = dd
      cases sc
      · simp
      · by_cases hle : dd ≤ hh * hh
        · simp only [if_true, hle, Option.some.injEq, true_and]
          constructor
          · rintro rfl; exact ⟨rfl, hle⟩
          · rintro ⟨h, -⟩; exact h.symm
        · simp only [if_true, hle, if_false, true_and, reduceCtorEq, false_iff, not_and]
          rintro rfl; exact hle
    by_cases hax : l.axis = 1
    · simp only [Option.some.injEq, exists_eq_left', hax, ne_eq, not_true, false_and, false_or,
        true_and, StdMap.find?, and_false, or_false, reduceCtorEq, hv1, hk, c1, if_true]
      rw [ea]
    · simp only [Option.some.injEq, exists_eq_left', hax, ne_eq, not_false_eq_true, false_and, false_or,
        true_and, StdMap.find?, and_false, or_false, reduceCtorEq, hv0, hk, c1, if_false, not_true]
      rw [ea]

/-! ### Geometry -/

/-- One coordinate of `calc_dr2`. -/
noncomputable def wrapDist (box d : ℝ) : ℝ := if |d| > 0.5 * box then box - |d| else |d|

theorem wrapDist_eq_perDist {box d : ℝ} (hbox : 0 < box) (hd : |d| ≤ box) :
    wrapDist box d = perDist box d := by
  apply (perDist_isLeast hbox d).unique ?_ |>.symm
  constructor
  · unfold wrapDist
    split
    · rcases le_or_gt 0 d with h | h
      · refine ⟨-1, ?_⟩
        rw [abs_of_nonneg h] at *
        simp only
        rw [abs_of_nonpos] <;> push_cast <;> linarith
      · refine ⟨1, ?_⟩
        rw [abs_of_neg h] at *
        simp only
        rw [abs_of_nonneg] <;> push_cast <;> linarith
    · exact ⟨0, by simp⟩
  · rintro _ ⟨k, rfl⟩
    simp only
    have h1 : wrapDist box d ≤ box / 2 := by unfold wrapDist; split <;> linarith
    have h2 : wrapDist box d ≤ |d| := by unfold wrapDist; split <;> linarith
    have h3 : wrapDist box d ≤ box - |d| := by unfold wrapDist; split <;> linarith
    rcases lt_trichotomy k 0 with h | h | h
    · have : (k : ℝ) ≤ -1 := by exact_mod_cast (by omega : k ≤ -1)
      have : k * box ≤ -1 * box := by gcongr
      have := neg_abs_le (d + k * box)
      have := le_abs_self d
      linarith
    · subst h; simpa using h2
    · have : (1 : ℝ) ≤ k := by exact_mod_cast (by omega : 1 ≤ k)
      have : 1 * box ≤ k * box := by gcongr
      have := le_abs_self (d + k * box)
      have := neg_abs_le d
      linarith

theorem calc_dr2_eq (box d1 d2 : ℝ) :
    calc_dr2 box d1 d2 = wrapDist box d1 ^ 2 + wrapDist box d2 ^ 2 := by
  simp only [calc_dr2, wrapDist]; ring

theorem transDist2_eq {box : ℝ} {l : Line} (hax : l.axis = 1 ∨ l.axis = 2 ∨ l.axis = 3) (pos : Vec3) :
    transDist2 box l.axis pos l.cofm =
      perDist box (pos (c1 l) - l.cofm (c1 l)) ^ 2 + perDist box (pos (c2 l) - l.cofm (c2 l)) ^ 2 := by
  unfold transDist2 c1 c2
  rw [Fin.sum_univ_three]
  rcases hax with h | h | h <;> rw [h] <;> simp

theorem inWindow_of_lt {box f h c : ℝ} (hh : 2 * h < box) (hf : 0 ≤ f ∧ f ≤ box)
    (hc : 0 ≤ c ∧ c ≤ box) (hd : wrapDist box (f - c) < h) : inWindow box f h c := by
  have hpos : 0 < h := by
    refine lt_of_le_of_lt ?_ hd
    unfold wrapDist
    have : |f - c| ≤ box := abs_le.2 ⟨by linarith, by linarith⟩
    split
    · linarith
    · exact abs_nonneg _
  have hcases : |f - c| < h ∨ (box - |f - c| < h) := by
    unfold wrapDist at hd; split at hd
    · exact Or.inr hd
    · exact Or.inl hd
  simp only [inWindow]
  rcases hcases with hl | hr
  · rw [abs_lt] at hl
    split_ifs <;> first
      | (constructor <;> linarith)
      | (exfalso; linarith)
      | skip
    all_goals first
      | (left; linarith)
      | (right; linarith)
  · have : f - c ≤ |f - c| := le_abs_self _
    rcases abs_cases (f - c) with ⟨h1, h2⟩ | ⟨h1, h2⟩ <;> rw [h1] at hr <;>
    split_ifs <;> first
      | (constructor <;> linarith)
      | (exfalso; linarith)
      | (left; linarith)
      | (right; linarith)

theorem second_close_of_lt {box f h c : ℝ} (hf : 0 ≤ f ∧ f ≤ box)
    (hc : 0 ≤ c ∧ c ≤ box) (hd : wrapDist box (f - c) < h) : second_close box f c h = true := by
  have hcases : |f - c| < h ∨ (box - |f - c| < h) := by
    unfold wrapDist at hd; split at hd
    · exact Or.inr hd
    · exact Or.inl hd
  simp only [second_close]
  split
  · rfl
  · rename_i n1
    split
    · rfl
    · rename_i n2
      rw [if_pos]
      rcases hcases with hl | hr
      · rw [abs_lt] at hl; constructor <;> linarith
      · exfalso
        rcases abs_cases (f - c) with ⟨h1, h2⟩ | ⟨h1, h2⟩ <;> rw [h1] at hr
        · exact n1 ⟨by linarith, by linarith⟩
        · exact n2 ⟨by linarith, by linarith⟩

end IndexTable
end Verif
