import Verif.Model.Race
import Verif.Lemmas.PartInt
import Mathlib.Algebra.BigOperators.Fin

/-! Threads that update disjoint sets of elements do not interfere. -/

namespace Verif
namespace Race

open PartInt IndexTable Absorption

/-- Total added to element `m` by a list of updates. -/
noncomputable def opsSum (ops : List (ℕ × ℝ)) (m : ℕ) : ℝ :=
  (ops.map (fun o => if m = o.1 then o.2 else 0)).sum

@[simp] theorem opsSum_nil (m : ℕ) : opsSum [] m = 0 := rfl

theorem opsSum_cons (j : ℕ) (x : ℝ) (rest : List (ℕ × ℝ)) (m : ℕ) :
    opsSum ((j, x) :: rest) m = (if m = j then x else 0) + opsSum rest m := by simp [opsSum]

theorem opsSum_append (a b : List (ℕ × ℝ)) (m : ℕ) : opsSum (a ++ b) m = opsSum a m + opsSum b m := by
  simp [opsSum]

/-- The threads touch pairwise disjoint elements. -/
def DisjointOps {n : ℕ} (ts : Fin n → Thread) : Prop :=
  ∀ k k', k ≠ k' → ∀ o ∈ (ts k).todo, ∀ o' ∈ (ts k').todo, o.1 ≠ o'.1

/-- A loaded register still agrees with memory. -/
def RegsOk {n : ℕ} (a : List ℝ) (ts : Fin n → Thread) : Prop :=
  ∀ k r, (ts k).reg = some r → ∃ j x rest, (ts k).todo = (j, x) :: rest ∧ a[j]? = some r

theorem step_invariant {n : ℕ} {s s' : List ℝ × (Fin n → Thread)} (h : Step s s')
    (hd : DisjointOps s.2) (hr : RegsOk s.1 s.2) :
    DisjointOps s'.2 ∧ RegsOk s'.1 s'.2 ∧
      arrAdd s'.1 (fun m => ∑ k, opsSum (s'.2 k).todo m) =
        arrAdd s.1 (fun m => ∑ k, opsSum (s.2 k).todo m) := by
  cases h with
  | load a ts k j x r rest hk hj =>
    change DisjointOps ts at hd
    change RegsOk a ts at hr
    have htodo : ∀ k', (Function.update ts k ⟨(j, x) :: rest, some r⟩ k').todo = (ts k').todo := by
      intro k'
      by_cases h : k' = k
      · subst h; simp [hk]
      · simp [h]
    refine ⟨?_, ?_, ?_⟩
    · intro k1 k2 hne o ho o' ho'
      rw [htodo] at ho ho'
      exact hd k1 k2 hne o ho o' ho'
    · intro k' r' hr'
      by_cases h : k' = k
      · subst h
        simp only [Function.update_self, Option.some.injEq] at hr'
        subst hr'
        exact ⟨j, x, rest, by simp, hj⟩
      · simp only [Function.update_of_ne h] at hr' ⊢
        exact hr k' r' hr'
    · simp only [htodo]
  | store a ts k j x r rest hk hj =>
    change DisjointOps ts at hd
    change RegsOk a ts at hr
    have hdis : ∀ k', k' ≠ k → ∀ o ∈ (ts k').todo, o.1 ≠ j := by
      intro k' hne o ho
      exact hd k' k hne o ho (j, x) (by rw [hk]; simp)
    refine ⟨?_, ?_, ?_⟩
    · intro k1 k2 hne o ho o' ho'
      have hsub : ∀ k' o, o ∈ (Function.update ts k ⟨rest, none⟩ k').todo → o ∈ (ts k').todo := by
        intro k' o ho
        by_cases h : k' = k
        · subst h; simp only [Function.update_self] at ho; rw [hk]; exact List.mem_cons_of_mem _ ho
        · rwa [Function.update_of_ne h] at ho
      exact hd k1 k2 hne o (hsub _ _ ho) o' (hsub _ _ ho')
    · intro k' r' hr'
      by_cases h : k' = k
      · subst h; simp at hr'
      · simp only [Function.update_of_ne h] at hr' ⊢
        obtain ⟨j', x', rest', h1, h2⟩ := hr k' r' hr'
        have hne := hdis k' h (j', x') (by rw [h1]; simp)
        refine ⟨j', x', rest', h1, ?_⟩
        rw [List.getElem?_set_ne (fun h => hne h.symm)]
        exact h2
    · obtain ⟨j', x', rest', h1, h2⟩ := hr k r (by rw [hk])
      rw [hk] at h1
      simp only [List.cons.injEq, Prod.mk.injEq] at h1
      obtain ⟨⟨rfl, rfl⟩, rfl⟩ := h1
      have hs : ∀ m, ∑ k', opsSum (Function.update ts k ⟨rest, none⟩ k').todo m +
          (if m = j then x else 0) = ∑ k', opsSum (ts k').todo m := by
        intro m
        rw [← Finset.add_sum_erase _ _ (Finset.mem_univ k), ← Finset.add_sum_erase _ (fun k' =>
          opsSum (ts k').todo m) (Finset.mem_univ k)]
        have h1 : ∑ k' ∈ Finset.univ.erase k, opsSum (Function.update ts k ⟨rest, none⟩ k').todo m =
            ∑ k' ∈ Finset.univ.erase k, opsSum (ts k').todo m := by
          apply Finset.sum_congr rfl
          intro k' hk'
          rw [Function.update_of_ne (Finset.ne_of_mem_erase hk')]
        rw [h1, Function.update_self, hk, opsSum_cons]
        ring
      have hset : a.set j (r + x) = arrAdd a (fun m => if m = j then x else 0) := by
        apply List.ext_getElem?
        intro m
        rw [arrAdd_getElem?, List.getElem?_set]
        by_cases hm : j = m
        · subst hm
          rw [if_pos rfl, if_pos hj, h2]; simp
        · simp [hm, Ne.symm hm]
      simp only
      rw [hset, arrAdd_arrAdd]
      congr 1
      funext m
      rw [← hs m]; ring

theorem exec_result {n : ℕ} {a a' : List ℝ} {ts ts' : Fin n → Thread} (h : Exec (a, ts) (a', ts'))
    (hstart : ∀ k, (ts k).reg = none) (hd : DisjointOps ts) (hdone : Done ts') :
    a' = arrAdd a (fun m => ∑ k, opsSum (ts k).todo m) := by
  have key : ∀ s' : List ℝ × (Fin n → Thread), Exec (a, ts) s' → DisjointOps s'.2 ∧ RegsOk s'.1 s'.2 ∧
      arrAdd s'.1 (fun m => ∑ k, opsSum (s'.2 k).todo m) =
        arrAdd a (fun m => ∑ k, opsSum (ts k).todo m) := by
    intro s' hs
    induction hs with
    | refl =>
      refine ⟨hd, ?_, rfl⟩
      intro k r hr
      change (ts k).reg = some r at hr
      rw [hstart] at hr; cases hr
    | tail _ hstep ih =>
      obtain ⟨h1, h2, h3⟩ := step_invariant hstep ih.1 ih.2.1
      exact ⟨h1, h2, h3.trans ih.2.2⟩
  obtain ⟨-, -, h3⟩ := key _ h
  rw [← h3]
  simp only [hdone _, opsSum_nil, Finset.sum_const_zero, arrAdd_zero]

/-- Unless all the threads are done, one of them can go on, as long as all the indices are valid. -/
theorem exec_progress {n : ℕ} {a : List ℝ} {ts : Fin n → Thread}
    (hb : ∀ k, ∀ o ∈ (ts k).todo, o.1 < a.length) (h : ¬ Done ts) : ∃ s', Step (a, ts) s' := by
  unfold Done at h
  push Not at h
  obtain ⟨k, hk⟩ := h
  obtain ⟨⟨j, x⟩, rest, ht⟩ := List.exists_cons_of_ne_nil hk
  have hj : j < a.length := hb k (j, x) (by rw [ht]; simp)
  cases hr : (ts k).reg with
  | none =>
    exact ⟨_, .load a ts k j x a[j] rest (by cases hts : ts k; simp_all) (List.getElem?_eq_getElem hj)⟩
  | some r =>
    exact ⟨_, .store a ts k j x r rest (by cases hts : ts k; simp_all) hj⟩

/-! ### The updates of the interpolator -/

theorem opsSum_pixels {off nbins : ℕ} (hn : 0 < nbins) (val : ℤ → ℝ) (zs : List ℤ) (m : ℕ) :
    opsSum (zs.map (fun z => (off + (wrapIndex z nbins).toNat, val z))) m = pixelSum off nbins val zs m := by
  unfold opsSum pixelSum
  rw [List.map_map]
  congr 1
  apply List.map_congr_left
  intro z _
  have h := wrapIndex_range hn z
  simp only [Function.comp]
  rw [wrapIndex_eq hn] at h ⊢
  have : (m = off + (z % nbins).toNat) ↔ ((m : ℤ) = off + z % nbins) := by omega
  simp only [this]

theorem coldenOps_sum (L : LineAbsorption) {off nbins : ℕ} (hn : 0 < nbins) (dr2 dens pos smooth : ℝ)
    (m : ℕ) : opsSum (coldenOps L off nbins dr2 dens pos smooth) m =
      coldenF L off nbins dr2 dens pos smooth m := by
  unfold coldenOps coldenF
  split_ifs
  · rfl
  · rfl
  all_goals exact opsSum_pixels hn _ _ m

theorem tauLoopOps_eq (tauAt : ℤ → ℝ) (tautail : ℝ) (off nbins : ℕ) (dir : ℤ) (n : ℕ) (z : ℤ) :
    tauLoopOps tauAt tautail off nbins dir n z =
      (visited tauAt tautail dir n z).map (fun z => (off + (wrapIndex z nbins).toNat, tauAt z)) := by
  induction n generalizing z with
  | zero => rfl
  | succ n ih =>
    simp only [tauLoopOps, visited, List.map_cons]
    split
    · rfl
    · rw [ih]

theorem tauOps_sum (L : LineAbsorption) {off nbins : ℕ} (hn : 0 < nbins)
    (dr2 dens ppos pvel temp smooth : ℝ) (m : ℕ) :
    opsSum (tauOps L off nbins dr2 dens ppos pvel temp smooth) m =
      tauF L off nbins dr2 dens ppos pvel temp smooth m := by
  unfold tauOps tauF
  split_ifs
  · rfl
  · rfl
  all_goals
    simp only [tauLoopOps_eq, ← List.map_append]
    exact opsSum_pixels hn _ _ m

/-- Every update of iteration `i` is in the slice of line `i`. -/
def InSlice (nbins i : ℕ) (ops : List (ℕ × ℝ)) : Prop :=
  ∀ o ∈ ops, i * nbins ≤ o.1 ∧ o.1 < i * nbins + nbins

theorem pixels_inSlice {nbins i : ℕ} (hn : 0 < nbins) (val : ℤ → ℝ) (zs : List ℤ) :
    InSlice nbins i (zs.map (fun z => (i * nbins + (wrapIndex z nbins).toNat, val z))) := by
  intro o ho
  obtain ⟨z, -, rfl⟩ := List.mem_map.1 ho
  have h := wrapIndex_range hn z
  simp only
  omega

theorem coldenOps_inSlice (L : LineAbsorption) {nbins i : ℕ} (hn : 0 < nbins) (dr2 dens pos smooth : ℝ) :
    InSlice nbins i (coldenOps L (i * nbins) nbins dr2 dens pos smooth) := by
  unfold coldenOps
  split_ifs
  · intro o ho; cases ho
  · intro o ho; cases ho
  all_goals exact pixels_inSlice hn _ _

theorem tauOps_inSlice (L : LineAbsorption) {nbins i : ℕ} (hn : 0 < nbins)
    (dr2 dens ppos pvel temp smooth : ℝ) :
    InSlice nbins i (tauOps L (i * nbins) nbins dr2 dens ppos pvel temp smooth) := by
  unfold tauOps
  split_ifs
  · intro o ho; cases ho
  · intro o ho; cases ho
  all_goals
    simp only [tauLoopOps_eq, ← List.map_append]
    exact pixels_inSlice hn _ _

/-- The value added for one particle on one line. -/
noncomputable def onLine (get_tau : Bool) (L : LineAbsorption) (nbins : ℕ) :
    ℕ → Line → Part → ℝ → ℕ → ℝ := if get_tau then tauOn L nbins else coldenOn L nbins

theorem lineOps_eq (get_tau : Bool) (L : LineAbsorption) {nbins : ℕ} (hn : 0 < nbins)
    (lines : List Line) (hax : ∀ l ∈ lines, l.axis = 1 ∨ l.axis = 2 ∨ l.axis = 3) (parts : List Part)
    (nearby : List (StdMap ℝ)) {i : ℕ} {near : StdMap ℝ} {l : Line} (hi : nearby[i]? = some near)
    (hl : lines[i]? = some l) (hp : ∀ e ∈ near, ∃ p, parts[e.1]? = some p) :
    ∃ ops, lineOps get_tau L nbins lines parts nearby i = .ok ops ∧ InSlice nbins i ops ∧
      ∀ m, opsSum ops m = (near.map (fun e => (parts[e.1]?).elim 0
        (fun p => onLine get_tau L nbins i l p e.2 m))).sum := by
  unfold lineOps
  rw [readAt_eq hi, ok_bind, readAt_eq hl, ok_bind]
  have hax' := hax l (List.mem_of_getElem? hl)
  suffices h : ∀ (es : StdMap ℝ) (ops0 : List (ℕ × ℝ)), (∀ e ∈ es, ∃ p, parts[e.1]? = some p) →
      InSlice nbins i ops0 →
      ∃ ops, es.foldlM (fun ops e => do
        let p ← readAt parts e.1
        let ppos ← coord p.pos l.axis
        if get_tau then
          let pvel ← coord p.vel l.axis
          .ok (ops ++ tauOps L (i * nbins) nbins e.2 p.dens ppos pvel p.temp p.h)
        else .ok (ops ++ coldenOps L (i * nbins) nbins e.2 p.dens ppos p.h)) ops0 =
          (.ok ops : CRes (List (ℕ × ℝ))) ∧ InSlice nbins i ops ∧
        ∀ m, opsSum ops m = opsSum ops0 m + (es.map (fun e => (parts[e.1]?).elim 0
          (fun p => onLine get_tau L nbins i l p e.2 m))).sum by
    obtain ⟨ops, h1, h2, h3⟩ := h near [] hp (by intro o ho; cases ho)
    exact ⟨ops, h1, h2, fun m => by rw [h3]; simp⟩
  intro es
  induction es with
  | nil => intro ops0 _ h0; exact ⟨ops0, rfl, h0, by simp⟩
  | cons e es ih =>
    intro ops0 hes h0
    obtain ⟨p, hpe⟩ := hes e (by simp)
    obtain ⟨ops', hs, hsum⟩ : ∃ ops', InSlice nbins i ops' ∧
        ((do
          let p ← readAt parts e.1
          let ppos ← coord p.pos l.axis
          if get_tau then
            let pvel ← coord p.vel l.axis
            .ok (ops0 ++ tauOps L (i * nbins) nbins e.2 p.dens ppos pvel p.temp p.h)
          else .ok (ops0 ++ coldenOps L (i * nbins) nbins e.2 p.dens ppos p.h)) =
            (.ok (ops0 ++ ops') : CRes (List (ℕ × ℝ))) ∧
          ∀ m, opsSum ops' m = onLine get_tau L nbins i l p e.2 m) := by
      rw [readAt_eq hpe, ok_bind, coord_eq hax', ok_bind]
      cases get_tau
      · simp only [Bool.false_eq_true, if_false, onLine]
        exact ⟨_, coldenOps_inSlice L hn _ _ _ _, rfl, fun m => coldenOps_sum L hn _ _ _ _ m⟩
      · simp only [if_true, coord_eq hax', onLine]
        exact ⟨_, tauOps_inSlice L hn _ _ _ _ _ _, rfl, fun m => tauOps_sum L hn _ _ _ _ _ _ m⟩
    rw [List.foldlM_cons, hsum.1, ok_bind]
    obtain ⟨ops, h1, h2, h3⟩ := ih (ops0 ++ ops') (fun e he => hes e (by simp [he])) (by
      intro o ho
      rcases List.mem_append.1 ho with ho | ho
      · exact h0 o ho
      · exact hs o ho)
    refine ⟨ops, h1, h2, fun m => ?_⟩
    rw [h3, opsSum_append, hsum.2, List.map_cons, List.sum_cons, hpe]
    simp only [Option.elim_some]
    ring

/-- What iteration `i` adds to element `m`. -/
noncomputable def lineSum (get_tau : Bool) (L : LineAbsorption) (nbins : ℕ) (t : Table)
    (lines : List Line) (parts : List Part) (i m : ℕ) : ℝ :=
  (parts.map (fun (p : Part) => (lines[i]?).elim 0 (fun l =>
    (StdMap.find? (get_near_lines t p.pos p.h) i).elim 0
      (fun d => onLine get_tau L nbins i l p d m)))).sum

theorem lineOps_near (get_tau : Bool) (L : LineAbsorption) {nbins : ℕ} (hn : 0 < nbins) (box : ℝ)
    (lines : List Line) (hax : ∀ l ∈ lines, l.axis = 1 ∨ l.axis = 2 ∨ l.axis = 3) (parts : List Part)
    {i : ℕ} (hi : i < lines.length) :
    ∃ ops, lineOps get_tau L nbins lines parts
        (get_near_particles (build lines box) (posH parts)) i = .ok ops ∧ InSlice nbins i ops ∧
      ∀ m, opsSum ops m = lineSum get_tau L nbins (build lines box) lines parts i m := by
  have hnp : get_near_particles (build lines box) (posH parts) =
      (List.range lines.length).map (nearList (build lines box) (posH parts)) := by
    unfold get_near_particles
    rw [get_near_particles_sched_eq _ _ _ (List.Perm.refl _), build_lines]
  have hl : lines[i]? = some lines[i] := List.getElem?_eq_getElem hi
  obtain ⟨ops, h1, h2, h3⟩ := lineOps_eq get_tau L hn lines hax parts
    (get_near_particles (build lines box) (posH parts)) (i := i)
    (near := nearList (build lines box) (posH parts) i) (l := lines[i])
    (by rw [hnp, List.getElem?_map, List.getElem?_range hi]; rfl) hl (by
      intro e he
      unfold nearList at he
      obtain ⟨j, hj, he⟩ := List.mem_filterMap.1 he
      simp only [Option.bind_eq_some_iff, Option.map_eq_some_iff] at he
      obtain ⟨q, hq, _, _, rfl⟩ := he
      unfold posH at hq
      rw [List.getElem?_map, Option.map_eq_some_iff] at hq
      obtain ⟨p, hp, -⟩ := hq
      exact ⟨p, hp⟩)
  refine ⟨ops, h1, h2, fun m => ?_⟩
  rw [h3]
  unfold lineSum
  simp only [hl, Option.elim_some]
  exact nearList_sum _ _ _ (fun p d => onLine get_tau L nbins i lines[i] p d m)

theorem threadOps_eq (get_tau : Bool) (L : LineAbsorption) {nbins : ℕ} (hn : 0 < nbins) (box : ℝ)
    (lines : List Line) (hax : ∀ l ∈ lines, l.axis = 1 ∨ l.axis = 2 ∨ l.axis = 3) (parts : List Part)
    (queue : List ℕ) (hq : ∀ i ∈ queue, i < lines.length) :
    ∃ ops, threadOps get_tau L nbins lines parts
        (get_near_particles (build lines box) (posH parts)) queue = .ok ops ∧
      (∀ o ∈ ops, ∃ i ∈ queue, i * nbins ≤ o.1 ∧ o.1 < i * nbins + nbins) ∧
      ∀ m, opsSum ops m =
        (queue.map (fun i => lineSum get_tau L nbins (build lines box) lines parts i m)).sum := by
  unfold threadOps
  suffices h : ∀ (qs : List ℕ) (ops0 : List (ℕ × ℝ)), (∀ i ∈ qs, i < lines.length) →
      ∃ ops, qs.foldlM (fun ops i => do
          let o ← lineOps get_tau L nbins lines parts
            (get_near_particles (build lines box) (posH parts)) i
          .ok (ops ++ o)) ops0 = (.ok (ops0 ++ ops) : CRes (List (ℕ × ℝ))) ∧
        (∀ o ∈ ops, ∃ i ∈ qs, i * nbins ≤ o.1 ∧ o.1 < i * nbins + nbins) ∧
        ∀ m, opsSum ops m =
          (qs.map (fun i => lineSum get_tau L nbins (build lines box) lines parts i m)).sum by
    obtain ⟨ops, h1, h2⟩ := h queue [] hq
    exact ⟨ops, by simpa using h1, h2⟩
  intro qs
  induction qs with
  | nil => intro ops0 _; exact ⟨[], by simp; rfl, by simp, by simp⟩
  | cons i qs ih =>
    intro ops0 hqs
    obtain ⟨ops', g1, g2, g3⟩ := lineOps_near get_tau L hn box lines hax parts (hqs i (by simp))
    obtain ⟨ops, h1, h2, h3⟩ := ih (ops0 ++ ops') (fun j hj => hqs j (by simp [hj]))
    refine ⟨ops' ++ ops, ?_, ?_, ?_⟩
    · rw [List.foldlM_cons, g1, ok_bind, ok_bind, h1, List.append_assoc]
    · intro o ho
      rcases List.mem_append.1 ho with ho | ho
      · exact ⟨i, by simp, g2 o ho⟩
      · obtain ⟨j, hj, h⟩ := h2 o ho
        exact ⟨j, by simp [hj], h⟩
    · intro m
      rw [opsSum_append, g3, h3, List.map_cons, List.sum_cons]

end Race
end Verif
