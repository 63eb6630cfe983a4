import Verif.Lemmas.IndexTable
import Verif.Model.OpenMP

/-! Helper lemmas on the particle lists and on schedules. -/

namespace Verif

/-- The trace of a run is a rearrangement of all the queued iterations. -/
theorem Interleaving.perm {queues : List (List ℕ)} {trace : List ℕ} (h : Interleaving queues trace) :
    trace.Perm queues.flatten := by
  induction h with
  | done queues h =>
    have : queues.flatten = [] := by
      rw [List.flatten_eq_nil_iff]; exact h
    rw [this]
  | step before i rest after trace h ih =>
    have : (before ++ (i :: rest) :: after).flatten.Perm (i :: (before ++ rest :: after).flatten) := by
      simp only [List.flatten_append, List.flatten_cons, List.cons_append]
      exact List.perm_middle
    exact (ih.cons i).trans this.symm

/-- Some interleaving exists for every set of queues. -/
theorem Interleaving.exists (queues : List (List ℕ)) : ∃ trace, Interleaving queues trace := by
  induction hn : queues.flatten.length generalizing queues with
  | zero =>
    refine ⟨[], .done _ ?_⟩
    have : queues.flatten = [] := List.eq_nil_of_length_eq_zero hn
    exact List.flatten_eq_nil_iff.1 this
  | succ n ih =>
    have : ∃ q ∈ queues, q ≠ [] := by
      by_contra hc
      push Not at hc
      rw [List.flatten_eq_nil_iff.2 hc] at hn; simp at hn
    obtain ⟨q, hq, hne⟩ := this
    obtain ⟨before, after, rfl⟩ := List.append_of_mem hq
    obtain ⟨i, rest, rfl⟩ := List.exists_cons_of_ne_nil hne
    obtain ⟨tr, htr⟩ := ih (before ++ rest :: after) (by simp at hn ⊢; omega)
    exact ⟨i :: tr, .step _ _ _ _ _ htr⟩

namespace IndexTable

theorem critical_length (i : ℕ) (nearby : StdMap ℝ) (acc : List (StdMap ℝ)) :
    (critical i nearby acc).length = acc.length := by
  unfold critical
  induction nearby generalizing acc with
  | nil => rfl
  | cons a t ih => simp only [List.foldl_cons]; rw [ih]; simp

theorem critical_getElem? (i : ℕ) (nearby : StdMap ℝ) (hs : nearby.Sorted) (acc : List (StdMap ℝ))
    (k : ℕ) :
    (critical i nearby acc)[k]? = acc[k]?.map (fun m => match nearby.find? k with
      | none => m
      | some d => m.insertNew i d) := by
  unfold critical
  induction nearby generalizing acc with
  | nil => simp [StdMap.find?]
  | cons a t ih =>
    rw [StdMap.Sorted, List.pairwise_cons] at hs
    simp only [List.foldl_cons]
    rw [ih hs.2, List.getElem?_modify]
    simp only [StdMap.find?]
    by_cases hk : k = a.1
    · subst hk
      have : StdMap.find? t a.1 = none := StdMap.find?_eq_none_of_lt hs.1
      simp [this, Function.comp_def]
    · simp [hk, Ne.symm hk]

/-- State of the particle lists after the critical sections in `sched` have run. -/
theorem sched_state (t : Table) (parts : List (Vec3 × ℝ)) (sched : List ℕ) (hnd : sched.Nodup)
    (k : ℕ) (hk : k < t.lines.length) :
    ∃ m, (get_near_particles_sched t parts sched)[k]? = some m ∧ m.Sorted ∧
      ∀ i, m.find? i = if i ∈ sched then
        (parts[i]?).bind (fun p => StdMap.find? (get_near_lines t p.1 p.2) k) else none := by
  unfold get_near_particles_sched
  induction sched using List.reverseRecOn with
  | nil =>
    refine ⟨[], by simp [hk], by simp [StdMap.Sorted], by simp [StdMap.find?]⟩
  | append_singleton s j ih =>
    rw [List.nodup_append] at hnd
    have hj : j ∉ s := fun h => hnd.2.2 j h j (by simp) rfl
    obtain ⟨m, hm, hs, hf⟩ := ih hnd.1
    rw [List.foldl_append, List.foldl_cons, List.foldl_nil]
    generalize List.foldl (nearParticlesStep t parts) (List.replicate t.lines.length []) s = F at *
    unfold nearParticlesStep
    cases hp : parts[j]? with
    | none =>
      refine ⟨m, hm, hs, fun i => ?_⟩
      rw [hf i]
      by_cases hi : i = j
      · subst hi; simp [hj, hp]
      · simp [hi]
    | some p =>
      simp only
      rw [critical_getElem? j _ (get_near_lines_sorted _ _ _), hm]
      cases hd : StdMap.find? (get_near_lines t p.1 p.2) k with
      | none =>
        refine ⟨m, rfl, hs, fun i => ?_⟩
        rw [hf i]
        by_cases hi : i = j
        · subst hi; simp [hj, hp, hd]
        · simp [hi]
      | some d =>
        refine ⟨m.insertNew j d, rfl, StdMap.sorted_insertNew hs _ _, fun i => ?_⟩
        rw [StdMap.find?_insertNew hs, hf j, hf i]
        by_cases hi : i = j
        · subst hi; simp [hj, hp, hd]
        · simp [hi]

theorem sched_length (t : Table) (parts : List (Vec3 × ℝ)) (sched : List ℕ) :
    (get_near_particles_sched t parts sched).length = t.lines.length := by
  unfold get_near_particles_sched
  induction sched using List.reverseRecOn with
  | nil => simp
  | append_singleton s j ih =>
    rw [List.foldl_append, List.foldl_cons, List.foldl_nil]
    unfold nearParticlesStep
    split
    · exact ih
    · rw [critical_length]; exact ih

/-- The particle list of a line in closed form: the particles in order, with the distance of those
whose search finds the line. -/
noncomputable def nearList (t : Table) (parts : List (Vec3 × ℝ)) (k : ℕ) : StdMap ℝ :=
  (List.range parts.length).filterMap fun i =>
    (parts[i]?).bind fun p => (StdMap.find? (get_near_lines t p.1 p.2) k).map fun d => (i, d)

theorem nearList_sorted (t : Table) (parts : List (Vec3 × ℝ)) (k : ℕ) :
    (nearList t parts k).Sorted := by
  unfold nearList StdMap.Sorted
  apply List.Pairwise.filterMap (R := (· < ·))
  · intro a a' h b hb b' hb'
    simp only [Option.mem_def, Option.bind_eq_some_iff, Option.map_eq_some_iff] at hb hb'
    obtain ⟨_, -, _, -, rfl⟩ := hb
    obtain ⟨_, -, _, -, rfl⟩ := hb'
    exact h
  · exact List.pairwise_lt_range

theorem find?_nearList (t : Table) (parts : List (Vec3 × ℝ)) (k i : ℕ) :
    (nearList t parts k).find? i =
      (parts[i]?).bind (fun p => StdMap.find? (get_near_lines t p.1 p.2) k) := by
  apply Option.ext
  intro d
  rw [← StdMap.mem_iff_find? (nearList_sorted t parts k)]
  unfold nearList
  simp only [List.mem_filterMap, List.mem_range, Option.bind_eq_some_iff, Option.map_eq_some_iff,
    Prod.mk.injEq]
  constructor
  · rintro ⟨a, ha, p, hp, d', hd', rfl, rfl⟩
    exact ⟨p, hp, hd'⟩
  · rintro ⟨p, hp, hd⟩
    refine ⟨i, ?_, p, hp, d, hd, rfl, rfl⟩
    by_contra hc
    rw [List.getElem?_eq_none (by omega)] at hp; cases hp

/-- For any schedule that runs every particle once the lists are the closed form. -/
theorem get_near_particles_sched_eq (t : Table) (parts : List (Vec3 × ℝ)) (sched : List ℕ)
    (h : sched.Perm (List.range parts.length)) :
    get_near_particles_sched t parts sched =
      (List.range t.lines.length).map (nearList t parts) := by
  apply List.ext_getElem?
  intro k
  by_cases hk : k < t.lines.length
  · obtain ⟨m, hm, hs, hf⟩ := sched_state t parts sched (h.nodup_iff.2 List.nodup_range) k hk
    rw [hm]
    rw [List.getElem?_map, List.getElem?_range hk]
    simp only [Option.map_some, Option.some.injEq]
    refine StdMap.ext_of_find? hs (nearList_sorted t parts k) fun i => ?_
    rw [hf, find?_nearList]
    split
    · rfl
    · rename_i hi
      rw [h.mem_iff, List.mem_range] at hi
      rw [List.getElem?_eq_none (by omega)]; rfl
  · rw [List.getElem?_eq_none (by rw [sched_length]; omega),
      List.getElem?_eq_none (by simp; omega)]

theorem near_lines_sched_sorted (box : ℝ) (parts : List (Vec3 × ℝ)) (lines : List Line)
    (sched : List ℕ) : (near_lines_sched box parts lines sched).Pairwise (· < ·) := by
  unfold near_lines_sched
  induction sched using List.reverseRecOn with
  | nil => simp
  | append_singleton s j ih =>
    rw [List.foldl_append, List.foldl_cons, List.foldl_nil]
    unfold nearLinesStep
    split
    · exact ih
    · split
      · exact StdSet.sorted_insert ih _
      · exact ih

theorem mem_near_lines_sched (box : ℝ) (parts : List (Vec3 × ℝ)) (lines : List Line)
    (sched : List ℕ) (i : ℕ) :
    i ∈ near_lines_sched box parts lines sched ↔ i ∈ sched ∧ ∃ p, parts[i]? = some p ∧
      get_near_lines (build lines box) p.1 p.2 ≠ [] := by
  unfold near_lines_sched
  induction sched using List.reverseRecOn with
  | nil => simp
  | append_singleton s j ih =>
    rw [List.foldl_append, List.foldl_cons, List.foldl_nil]
    generalize List.foldl (nearLinesStep (build lines box) parts) [] s = F at *
    unfold nearLinesStep
    cases hp : parts[j]? with
    | none =>
      simp only
      rw [ih]
      simp only [List.mem_append, List.mem_singleton]
      constructor
      · rintro ⟨h1, h2⟩; exact ⟨Or.inl h1, h2⟩
      · rintro ⟨h1 | rfl, p, h2, h3⟩
        · exact ⟨h1, p, h2, h3⟩
        · rw [hp] at h2; cases h2
    | some p =>
      simp only
      by_cases hn : get_near_lines (build lines box) p.1 p.2 = []
      · rw [if_neg (by simp [hn]), ih]
        simp only [List.mem_append, List.mem_singleton]
        constructor
        · rintro ⟨h1, h2⟩; exact ⟨Or.inl h1, h2⟩
        · rintro ⟨h1 | rfl, p', h2, h3⟩
          · exact ⟨h1, p', h2, h3⟩
          · rw [hp] at h2; cases h2; exact absurd hn h3
      · rw [if_pos (List.length_pos_iff.2 hn), StdSet.mem_insert, ih]
        simp only [List.mem_append, List.mem_singleton]
        constructor
        · rintro (rfl | ⟨h1, h2⟩)
          · exact ⟨Or.inr rfl, p, hp, hn⟩
          · exact ⟨Or.inl h1, h2⟩
        · rintro ⟨h1 | rfl, h2⟩
          · exact Or.inr ⟨h1, h2⟩
          · exact Or.inl rfl

theorem find?_exists_iff {m : StdMap ℝ} (hs : m.Sorted) : m ≠ [] ↔ ∃ k d, m.find? k = some d := by
  constructor
  · intro h
    obtain ⟨a, t, rfl⟩ := List.exists_cons_of_ne_nil h
    exact ⟨a.1, a.2, StdMap.find?_of_mem hs (by simp)⟩
  · rintro ⟨k, d, h⟩ rfl
    simp [StdMap.find?] at h

end IndexTable
end Verif
