import Verif.Model.NearRounding
import Verif.Lemmas.NearParticles

/-! Helper lemmas on the search in single precision: those of `Verif.Lemmas.IndexTable` and `Verif.Lemmas.NearParticles`, with rounded limits. -/

namespace Verif.NearRounding
open Verif Verif.IndexTable

variable {fl : ℝ → ℝ}

/-! ### The search -/

/-- What the loop body of `get_nearby_from_range` stores for an element, if anything. -/
noncomputable def accept (fl : ℝ → ℝ) (t : Table) (pos : Vec3) (hh first : ℝ) (it : ℝ × ℕ) : Option ℝ :=
  match t.lines[it.2]? with
  | none => none
  | some line =>
    let second := if line.axis = 3 then pos 1 else pos 2
    let lproj2 := if line.axis = 3 then line.cofm 1 else line.cofm 2
    if second_close fl t.boxsize second lproj2 hh then
      let dr2 := calc_dr2 t.boxsize (first - it.1) (second - lproj2)
      if dr2 ≤ fl (hh * hh) then some dr2 else none
    else none

theorem get_nearby_from_range_cons (t : Table) (it : ℝ × ℕ) (elems : List (ℝ × ℕ))
    (m : StdMap ℝ) (pos : Vec3) (hh first : ℝ) :
    get_nearby_from_range fl t (it :: elems) m pos hh first =
      get_nearby_from_range fl t elems (match accept fl t pos hh first it with
        | none => m
        | some d => m.assign it.2 d) pos hh first := by
  unfold get_nearby_from_range accept
  simp only [List.foldl_cons]
  congr 1
  cases t.lines[it.2]? with
  | none => rfl
  | some line =>
    dsimp only
    generalize (if line.axis = 3 then pos 1 else pos 2) = s
    generalize (if line.axis = 3 then line.cofm 1 else line.cofm 2) = c
    by_cases h1 : second_close fl t.boxsize s c hh = true <;>
      by_cases h2 : calc_dr2 t.boxsize (first - it.1) (s - c) ≤ fl (hh * hh) <;> simp [h1, h2]

theorem get_nearby_from_range_sorted (t : Table) (elems : List (ℝ × ℕ)) (m : StdMap ℝ)
    (hm : m.Sorted) (pos : Vec3) (hh first : ℝ) :
    StdMap.Sorted (get_nearby_from_range fl t elems m pos hh first) := by
  induction elems generalizing m with
  | nil => exact hm
  | cons it elems ih =>
    rw [get_nearby_from_range_cons]
    apply ih
    split
    · exact hm
    · exact StdMap.sorted_assign hm _ _

/-- Lookup after the loop, when equal line numbers always carry the same value. -/
theorem find?_get_nearby_from_range (t : Table) (elems : List (ℝ × ℕ)) (m : StdMap ℝ)
    (hm : m.Sorted) (pos : Vec3) (hh first : ℝ) (v : ℕ → Option ℝ)
    (hv : ∀ it ∈ elems, accept fl t pos hh first it = v it.2) (k : ℕ) (d : ℝ) :
    StdMap.find? (get_nearby_from_range fl t elems m pos hh first) k = some d ↔
      ((∃ it ∈ elems, it.2 = k) ∧ v k = some d) ∨
      (¬ ((∃ it ∈ elems, it.2 = k) ∧ v k ≠ none) ∧ m.find? k = some d) := by
  induction elems generalizing m with
  | nil => simp [get_nearby_from_range]
  | cons it elems ih =>
    rw [get_nearby_from_range_cons]
    have hv0 := hv it (by simp)
    have hv' : ∀ x ∈ elems, accept fl t pos hh first x = v x.2 := fun x hx => hv x (by simp [hx])
    rw [hv0]
    cases hvi : v it.2 with
    | none =>
      simp only
      rw [ih m hm hv']
      by_cases hk : it.2 = k
      · subst hk; simp [hvi]
      · simp [hk]
    | some d' =>
      simp only
      rw [ih _ (StdMap.sorted_assign hm _ _) hv', StdMap.find?_assign hm]
      by_cases hk : it.2 = k
      · subst hk
        by_cases he : ∃ x ∈ elems, x.2 = it.2
        · simp [he, hvi]
        · simp [he, hvi]
      · simp [hk, Ne.symm hk]

/-- The window test of `get_nearby` on the sorted coordinate. -/
def inWindow (fl : ℝ → ℝ) (box first hh key : ℝ) : Prop :=
  let ffp := if fl (first + hh) > box then fl (fl (first + hh) - box) else fl (first + hh)
  let ffm := if fl (first - hh) < 0 then fl (fl (first - hh) + box) else fl (first - hh)
  if ffm ≤ ffp then ffm ≤ key ∧ key < ffp else key < ffp ∨ ffm ≤ key

theorem get_nearby_sorted (t : Table) (first : ℝ) (s : List (ℝ × ℕ)) (m : StdMap ℝ)
    (hm : m.Sorted) (pos : Vec3) (hh : ℝ) : StdMap.Sorted (get_nearby fl t first s m pos hh) := by
  unfold get_nearby
  dsimp only
  generalize (if fl (first + hh) > t.boxsize then fl (fl (first + hh) - t.boxsize) else fl (first + hh)) = ffp
  generalize (if fl (first - hh) < 0 then fl (fl (first - hh) + t.boxsize) else fl (first - hh)) = ffm
  split
  · exact get_nearby_from_range_sorted _ _ _ hm _ _ _
  · exact get_nearby_from_range_sorted _ _ _ (get_nearby_from_range_sorted _ _ _ hm _ _ _) _ _ _

theorem find?_get_nearby (t : Table) (first : ℝ) (s : List (ℝ × ℕ)) (hs : MultiMap.Sorted s)
    (m : StdMap ℝ) (hm : m.Sorted) (pos : Vec3) (hh : ℝ) (v : ℕ → Option ℝ)
    (hv : ∀ it ∈ s, accept fl t pos hh first it = v it.2) (k : ℕ) (d : ℝ) :
    StdMap.find? (get_nearby fl t first s m pos hh) k = some d ↔
      ((∃ it ∈ s, it.2 = k ∧ inWindow fl t.boxsize first hh it.1) ∧ v k = some d) ∨
      (¬ ((∃ it ∈ s, it.2 = k ∧ inWindow fl t.boxsize first hh it.1) ∧ v k ≠ none) ∧
        m.find? k = some d) := by
  unfold get_nearby inWindow
  dsimp only
  generalize (if fl (first + hh) > t.boxsize then fl (fl (first + hh) - t.boxsize) else fl (first + hh)) = ffp
  generalize (if fl (first - hh) < 0 then fl (fl (first - hh) + t.boxsize) else fl (first - hh)) = ffm
  split
  · rename_i hle
    rw [find?_get_nearby_from_range t _ m hm pos hh first v
      (fun it hit => hv it ((MultiMap.mem_range hs hle it).1 hit).1)]
    have : (∃ it ∈ MultiMap.range s (MultiMap.lowerBound s ffm) (MultiMap.lowerBound s ffp),
        it.2 = k) ↔ (∃ it ∈ s, it.2 = k ∧ (ffm ≤ it.1 ∧ it.1 < ffp)) := by
      constructor
      · rintro ⟨it, h1, h2⟩
        rw [MultiMap.mem_range hs hle] at h1
        exact ⟨it, h1.1, h2, h1.2⟩
      · rintro ⟨it, h1, h2, h3⟩
        exact ⟨it, (MultiMap.mem_range hs hle it).2 ⟨h1, h3⟩, h2⟩
    rw [this]
  · rename_i hle
    rw [find?_get_nearby_from_range t _ _ (get_nearby_from_range_sorted _ _ _ hm _ _ _) pos hh first v
      (fun it hit => hv it ((MultiMap.mem_range_end hs _ it).1 hit).1),
      find?_get_nearby_from_range t _ m hm pos hh first v
      (fun it hit => hv it ((MultiMap.mem_range_zero hs _ it).1 hit).1)]
    have e1 : (∃ it ∈ MultiMap.range s 0 (MultiMap.lowerBound s ffp), it.2 = k) ↔
        (∃ it ∈ s, it.2 = k ∧ it.1 < ffp) := by
      constructor
      · rintro ⟨it, h1, h2⟩
        rw [MultiMap.mem_range_zero hs] at h1
        exact ⟨it, h1.1, h2, h1.2⟩
      · rintro ⟨it, h1, h2, h3⟩
        exact ⟨it, (MultiMap.mem_range_zero hs _ it).2 ⟨h1, h3⟩, h2⟩
    have e2 : (∃ it ∈ MultiMap.range s (MultiMap.lowerBound s ffm) s.length, it.2 = k) ↔
        (∃ it ∈ s, it.2 = k ∧ ffm ≤ it.1) := by
      constructor
      · rintro ⟨it, h1, h2⟩
        rw [MultiMap.mem_range_end hs] at h1
        exact ⟨it, h1.1, h2, h1.2⟩
      · rintro ⟨it, h1, h2, h3⟩
        exact ⟨it, (MultiMap.mem_range_end hs _ it).2 ⟨h1, h3⟩, h2⟩
    have e3 : (∃ it ∈ s, it.2 = k ∧ (it.1 < ffp ∨ ffm ≤ it.1)) ↔
        (∃ it ∈ s, it.2 = k ∧ it.1 < ffp) ∨ (∃ it ∈ s, it.2 = k ∧ ffm ≤ it.1) := by
      constructor
      · rintro ⟨it, h1, h2, h3 | h3⟩
        · exact Or.inl ⟨it, h1, h2, h3⟩
        · exact Or.inr ⟨it, h1, h2, h3⟩
      · rintro (⟨it, h1, h2, h3⟩ | ⟨it, h1, h2, h3⟩)
        · exact ⟨it, h1, h2, Or.inl h3⟩
        · exact ⟨it, h1, h2, Or.inr h3⟩
    rw [e1, e2, e3]
    generalize (∃ it ∈ s, it.2 = k ∧ it.1 < ffp) = A
    generalize (∃ it ∈ s, it.2 = k ∧ ffm ≤ it.1) = B
    by_cases hA : A <;> by_cases hB : B <;> by_cases hvk : v k = none <;> simp [hA, hB, hvk]

theorem get_near_lines_sorted (t : Table) (pos : Vec3) (hh : ℝ) :
    StdMap.Sorted (get_near_lines fl t pos hh) := by
  unfold get_near_lines
  dsimp only
  have h0 : StdMap.Sorted ([] : StdMap ℝ) := by simp [StdMap.Sorted]
  split <;> split
  · exact get_nearby_sorted _ _ _ _ (get_nearby_sorted _ _ _ _ h0 _ _) _ _
  · exact get_nearby_sorted _ _ _ _ h0 _ _
  · exact get_nearby_sorted _ _ _ _ h0 _ _
  · exact h0


/-- The result of the search, line by line, before any geometry. -/
theorem find?_get_near_lines (lines : List Line) (box : ℝ) (pos : Vec3) (hh : ℝ) (k : ℕ) (d : ℝ) :
    StdMap.find? (get_near_lines fl (build lines box) pos hh) k = some d ↔
      ∃ l, lines[k]? = some l ∧ inWindow fl box (pos (c1 l)) hh (l.cofm (c1 l)) ∧
        second_close fl box (pos (c2 l)) (l.cofm (c2 l)) hh = true ∧
        d = calc_dr2 box (pos (c1 l) - l.cofm (c1 l)) (pos (c2 l) - l.cofm (c2 l)) ∧
        d ≤ fl (hh * hh) := by
  have hbox := build_boxsize lines box
  have hlines := build_lines lines box
  have hsort := build_sorted lines box
  have hmem := build_mem lines box
  generalize build lines box = t at *
  -- the guards on the table sizes make no difference
  have hguard : get_near_lines fl t pos hh =
      get_nearby fl t (pos 1) t.index_table_xx (get_nearby fl t (pos 0) t.index_table [] pos hh) pos hh := by
    have hn : ∀ (f : ℝ) (m : StdMap ℝ), get_nearby fl t f [] m pos hh = m := by
      intro f m
      unfold get_nearby
      simp [MultiMap.range, get_nearby_from_range]
    unfold get_near_lines
    dsimp only
    have e1 : (if t.index_table.length > 0 then get_nearby fl t (pos 0) t.index_table [] pos hh else [])
        = get_nearby fl t (pos 0) t.index_table [] pos hh := by
      split
      · rfl
      · rename_i h
        have : t.index_table = [] := List.eq_nil_of_length_eq_zero (by omega)
        rw [this, hn]
    rw [e1]
    split
    · rfl
    · rename_i h
      have : t.index_table_xx = [] := List.eq_nil_of_length_eq_zero (by omega)
      rw [this, hn]
  rw [hguard]
  set v0 : ℕ → Option ℝ := fun k => match lines[k]? with
    | none => none
    | some l => accept fl t pos hh (pos 0) (l.cofm 0, k) with hv0
  set v1 : ℕ → Option ℝ := fun k => match lines[k]? with
    | none => none
    | some l => accept fl t pos hh (pos 1) (l.cofm 1, k) with hv1
  have h0 : ∀ it ∈ t.index_table, accept fl t pos hh (pos 0) it = v0 it.2 := by
    intro it hit
    obtain ⟨l, h1, -, h3⟩ := ((hmem it).1).1 hit
    simp only [hv0, h1]; rw [← h3]
  have h1 : ∀ it ∈ t.index_table_xx, accept fl t pos hh (pos 1) it = v1 it.2 := by
    intro it hit
    obtain ⟨l, h1, -, h3⟩ := ((hmem it).2).1 hit
    simp only [hv1, h1]; rw [← h3]
  have hnil : StdMap.Sorted ([] : StdMap ℝ) := by simp [StdMap.Sorted]
  rw [find?_get_nearby t (pos 1) _ hsort.2 _ (get_nearby_sorted _ _ _ _ hnil _ _) pos hh v1 h1,
    find?_get_nearby t (pos 0) _ hsort.1 _ hnil pos hh v0 h0]
  have w1 : (∃ it ∈ t.index_table_xx, it.2 = k ∧ inWindow fl t.boxsize (pos 1) hh it.1) ↔
      ∃ l, lines[k]? = some l ∧ l.axis = 1 ∧ inWindow fl box (pos 1) hh (l.cofm 1) := by
    rw [hbox]
    constructor
    · rintro ⟨it, h, rfl, hw⟩
      obtain ⟨l, a, b, c⟩ := ((hmem it).2).1 h
      exact ⟨l, a, b, c ▸ hw⟩
    · rintro ⟨l, a, b, c⟩
      exact ⟨(l.cofm 1, k), ((hmem _).2).2 ⟨l, a, b, rfl⟩, rfl, c⟩
  have w0 : (∃ it ∈ t.index_table, it.2 = k ∧ inWindow fl t.boxsize (pos 0) hh it.1) ↔
      ∃ l, lines[k]? = some l ∧ l.axis ≠ 1 ∧ inWindow fl box (pos 0) hh (l.cofm 0) := by
    rw [hbox]
    constructor
    · rintro ⟨it, h, rfl, hw⟩
      obtain ⟨l, a, b, c⟩ := ((hmem it).1).1 h
      exact ⟨l, a, b, c ▸ hw⟩
    · rintro ⟨l, a, b, c⟩
      exact ⟨(l.cofm 0, k), ((hmem _).1).2 ⟨l, a, b, rfl⟩, rfl, c⟩
  rw [w0, w1]
  cases hk : lines[k]? with
  | none => simp [StdMap.find?]
  | some l =>
    have ea : ∀ (f c : ℝ), accept fl t pos hh f (c, k) = some d ↔
        second_close fl box (pos (c2 l)) (l.cofm (c2 l)) hh = true ∧
        d = calc_dr2 box (f - c) (pos (c2 l) - l.cofm (c2 l)) ∧ d ≤ fl (hh * hh) := by
      intro f c
      have key : accept fl t pos hh f (c, k) =
          if second_close fl box (pos (c2 l)) (l.cofm (c2 l)) hh = true then
            if calc_dr2 box (f - c) (pos (c2 l) - l.cofm (c2 l)) ≤ fl (hh * hh) then
              some (calc_dr2 box (f - c) (pos (c2 l) - l.cofm (c2 l))) else none
          else none := by
        unfold accept c2
        rw [hlines, hbox]
        simp only [hk]
        by_cases h3 : l.axis = 3
        · simp only [h3, if_true]
        · simp only [h3, if_false]
      rw [key]
      generalize second_close fl box (pos (c2 l)) (l.cofm (c2 l)) hh = sc
      generalize calc_dr2 box (f - c) (pos (c2 l) - l.cofm (c2 l)) = dd
      cases sc
      · simp
      · by_cases hle : dd ≤ fl (hh * hh)
        · simp only [if_true, hle, Option.some.injEq, true_and]
          constructor
          · rintro rfl; exact ⟨rfl, hle⟩
          · rintro ⟨h, -⟩; exact h.symm
        · simp only [if_true, hle, if_false, true_and, reduceCtorEq, false_iff, not_and]
          rintro rfl; exact hle
    by_cases hax : l.axis = 1
    · simp only [Option.some.injEq, exists_eq_left', hax, ne_eq, not_true, false_and, false_or,
        true_and, StdMap.find?, and_false, or_false, reduceCtorEq, hv1, hk, c1, if_true]
      rw [ea]
    · simp only [Option.some.injEq, exists_eq_left', hax, ne_eq, not_false_eq_true, false_and, false_or,
        true_and, StdMap.find?, and_false, or_false, reduceCtorEq, hv0, hk, c1, if_false, not_true]
      rw [ea]



/-- State of the particle lists after the critical sections in `sched` have run. -/
theorem sched_state (t : Table) (parts : List (Vec3 × ℝ)) (sched : List ℕ) (hnd : sched.Nodup)
    (k : ℕ) (hk : k < t.lines.length) :
    ∃ m, (get_near_particles_sched fl t parts sched)[k]? = some m ∧ m.Sorted ∧
      ∀ i, m.find? i = if i ∈ sched then
        (parts[i]?).bind (fun p => StdMap.find? (get_near_lines fl t p.1 p.2) k) else none := by
  unfold get_near_particles_sched
  induction sched using List.reverseRecOn with
  | nil =>
    refine ⟨[], by simp [hk], by simp [StdMap.Sorted], by simp [StdMap.find?]⟩
  | append_singleton s j ih =>
    rw [List.nodup_append] at hnd
    have hj : j ∉ s := fun h => hnd.2.2 j h j (by simp) rfl
    obtain ⟨m, hm, hs, hf⟩ := ih hnd.1
    rw [List.foldl_append, List.foldl_cons, List.foldl_nil]
    generalize List.foldl (nearParticlesStep fl t parts) (List.replicate t.lines.length []) s = F at *
    unfold nearParticlesStep
    cases hp : parts[j]? with
    | none =>
      refine ⟨m, hm, hs, fun i => ?_⟩
      rw [hf i]
      by_cases hi : i = j
      · subst hi; simp [hj, hp]
      · simp [hi]
    | some p =>
      simp only
      rw [critical_getElem? j _ (get_near_lines_sorted _ _ _), hm]
      cases hd : StdMap.find? (get_near_lines fl t p.1 p.2) k with
      | none =>
        refine ⟨m, rfl, hs, fun i => ?_⟩
        rw [hf i]
        by_cases hi : i = j
        · subst hi; simp [hj, hp, hd]
        · simp [hi]
      | some d =>
        refine ⟨m.insertNew j d, rfl, StdMap.sorted_insertNew hs _ _, fun i => ?_⟩
        rw [StdMap.find?_insertNew hs, hf j, hf i]
        by_cases hi : i = j
        · subst hi; simp [hj, hp, hd]
        · simp [hi]

theorem sched_length (t : Table) (parts : List (Vec3 × ℝ)) (sched : List ℕ) :
    (get_near_particles_sched fl t parts sched).length = t.lines.length := by
  unfold get_near_particles_sched
  induction sched using List.reverseRecOn with
  | nil => simp
  | append_singleton s j ih =>
    rw [List.foldl_append, List.foldl_cons, List.foldl_nil]
    unfold nearParticlesStep
    split
    · exact ih
    · rw [critical_length]; exact ih

/-- The particle list of a line in closed form: the particles in order, with the distance of those
whose search finds the line. -/
noncomputable def nearList (fl : ℝ → ℝ) (t : Table) (parts : List (Vec3 × ℝ)) (k : ℕ) : StdMap ℝ :=
  (List.range parts.length).filterMap fun i =>
    (parts[i]?).bind fun p => (StdMap.find? (get_near_lines fl t p.1 p.2) k).map fun d => (i, d)

theorem nearList_sorted (t : Table) (parts : List (Vec3 × ℝ)) (k : ℕ) :
    (nearList fl t parts k).Sorted := by
  unfold nearList StdMap.Sorted
  apply List.Pairwise.filterMap (R := (· < ·))
  · intro a a' h b hb b' hb'
    simp only [Option.mem_def, Option.bind_eq_some_iff, Option.map_eq_some_iff] at hb hb'
    obtain ⟨_, -, _, -, rfl⟩ := hb
    obtain ⟨_, -, _, -, rfl⟩ := hb'
    exact h
  · exact List.pairwise_lt_range

theorem find?_nearList (t : Table) (parts : List (Vec3 × ℝ)) (k i : ℕ) :
    (nearList fl t parts k).find? i =
      (parts[i]?).bind (fun p => StdMap.find? (get_near_lines fl t p.1 p.2) k) := by
  apply Option.ext
  intro d
  rw [← StdMap.mem_iff_find? (nearList_sorted t parts k)]
  unfold nearList
  simp only [List.mem_filterMap, List.mem_range, Option.bind_eq_some_iff, Option.map_eq_some_iff,
    Prod.mk.injEq]
  constructor
  · rintro ⟨a, ha, p, hp, d', hd', rfl, rfl⟩
    exact ⟨p, hp, hd'⟩
  · rintro ⟨p, hp, hd⟩
    refine ⟨i, ?_, p, hp, d, hd, rfl, rfl⟩
    by_contra hc
    rw [List.getElem?_eq_none (by omega)] at hp; cases hp

/-- For any schedule that runs every particle once the lists are the closed form. -/
theorem get_near_particles_sched_eq (t : Table) (parts : List (Vec3 × ℝ)) (sched : List ℕ)
    (h : sched.Perm (List.range parts.length)) :
    get_near_particles_sched fl t parts sched =
      (List.range t.lines.length).map (nearList fl t parts) := by
  apply List.ext_getElem?
  intro k
  by_cases hk : k < t.lines.length
  · obtain ⟨m, hm, hs, hf⟩ := sched_state t parts sched (h.nodup_iff.2 List.nodup_range) k hk
    rw [hm]
    rw [List.getElem?_map, List.getElem?_range hk]
    simp only [Option.map_some, Option.some.injEq]
    refine StdMap.ext_of_find? hs (nearList_sorted t parts k) fun i => ?_
    rw [hf, find?_nearList]
    split
    · rfl
    · rename_i hi
      rw [h.mem_iff, List.mem_range] at hi
      rw [List.getElem?_eq_none (by omega)]; rfl
  · rw [List.getElem?_eq_none (by rw [sched_length]; omega),
      List.getElem?_eq_none (by simp; omega)]

theorem near_lines_sched_sorted (box : ℝ) (parts : List (Vec3 × ℝ)) (lines : List Line)
    (sched : List ℕ) : (near_lines_sched fl box parts lines sched).Pairwise (· < ·) := by
  unfold near_lines_sched
  induction sched using List.reverseRecOn with
  | nil => simp
  | append_singleton s j ih =>
    rw [List.foldl_append, List.foldl_cons, List.foldl_nil]
    unfold nearLinesStep
    split
    · exact ih
    · split
      · exact StdSet.sorted_insert ih _
      · exact ih

theorem mem_near_lines_sched (box : ℝ) (parts : List (Vec3 × ℝ)) (lines : List Line)
    (sched : List ℕ) (i : ℕ) :
    i ∈ near_lines_sched fl box parts lines sched ↔ i ∈ sched ∧ ∃ p, parts[i]? = some p ∧
      get_near_lines fl (build lines box) p.1 p.2 ≠ [] := by
  unfold near_lines_sched
  induction sched using List.reverseRecOn with
  | nil => simp
  | append_singleton s j ih =>
    rw [List.foldl_append, List.foldl_cons, List.foldl_nil]
    generalize List.foldl (nearLinesStep fl (build lines box) parts) [] s = F at *
    unfold nearLinesStep
    cases hp : parts[j]? with
    | none =>
      simp only
      rw [ih]
      simp only [List.mem_append, List.mem_singleton]
      constructor
      · rintro ⟨h1, h2⟩; exact ⟨Or.inl h1, h2⟩
      · rintro ⟨h1 | rfl, p, h2, h3⟩
        · exact ⟨h1, p, h2, h3⟩
        · rw [hp] at h2; cases h2
    | some p =>
      simp only
      by_cases hn : get_near_lines fl (build lines box) p.1 p.2 = []
      · rw [if_neg (by simp [hn]), ih]
        simp only [List.mem_append, List.mem_singleton]
        constructor
        · rintro ⟨h1, h2⟩; exact ⟨Or.inl h1, h2⟩
        · rintro ⟨h1 | rfl, p', h2, h3⟩
          · exact ⟨h1, p', h2, h3⟩
          · rw [hp] at h2; cases h2; exact absurd hn h3
      · rw [if_pos (List.length_pos_iff.2 hn), StdSet.mem_insert, ih]
        simp only [List.mem_append, List.mem_singleton]
        constructor
        · rintro (rfl | ⟨h1, h2⟩)
          · exact ⟨Or.inr rfl, p, hp, hn⟩
          · exact ⟨Or.inl h1, h2⟩
        · rintro ⟨h1 | rfl, h2⟩
          · exact Or.inr ⟨h1, h2⟩
          · exact Or.inl rfl

end Verif.NearRounding
