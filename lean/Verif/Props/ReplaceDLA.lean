import Verif.Model.ReplaceDLA
import Verif.Lemmas.Numpy

/-!
C17: replacing sightlines without a strong absorber. The specification is `accepted`: the sightlines over the
threshold among the first `n` batches, in order, each with its row of column densities.
-/

namespace Verif.Props.ReplaceDLA
open Verif Verif.Np Verif.ReplaceDLA

variable {P : Type}

/-- A total column density over the threshold, or within the range, in words of the documentation. -/
def Over : Thresh → ℝ → Prop
  | .above x, c => x < c
  | .between lo hi, c => lo < c ∧ c < hi

/-- The `k`-th batch of sightlines: those of the object first, then those drawn one after the other. -/
def batch (w : World P) (s : St P) : ℕ → Option (List P)
  | 0 => some s.cofm
  | k + 1 => (w.next (s.calls + k)).toOption

/-- The row of column densities of every sightline of a batch, from the particles near these sightlines. -/
def rowsOf (w : World P) (elem : String) (ion : ℤ) (s : St P) (b : List P) : List (List ℝ) :=
  w.interp elem ion (w.near s.axis b) s.axis b

/-- The sightlines of a batch over the threshold, with their rows. -/
noncomputable def kept (w : World P) (elem : String) (ion : ℤ) (t : Thresh) (s : St P) (b : List P) :
    List (P × List ℝ) :=
  (b.zip (rowsOf w elem ion s b)).filter (fun p => t.test p.2.sum)

/-- The sightlines over the threshold among the first `n` batches. -/
noncomputable def accepted (w : World P) (elem : String) (ion : ℤ) (t : Thresh) (s : St P) (n : ℕ) :
    List (P × List ℝ) :=
  (List.range n).flatMap (fun k => kept w elem ion t s ((batch w s k).getD []))

/-- The calls the loop makes behave: the object is new, every batch has as many sightlines as the object, and
the interpolator returns a row for each. -/
structure Sound (w : World P) (elem : String) (ion : ℤ) (s : St P) : Prop where
  new : s.cofmFinal = false
  size : s.cofm.length = s.numLos
  batches : ∀ k, ∃ b, w.next k = .ok b ∧ b.length = s.numLos
  rows : ∀ b : List P, b.length = s.numLos → (rowsOf w elem ion s b).length = s.numLos

theorem filter_indices {α : Type} (q : α → Bool) (d : α) (l : List α) :
    l.filter q = ((List.range l.length).filter (fun i => q (l[i]?.getD d))).filterMap (fun i => l[i]?) := by
  induction l using List.reverseRecOn with
  | nil => rfl
  | append_singleton l a ih =>
    have h1 : ((List.range l.length).filter (fun i => q ((l ++ [a])[i]?.getD d))) =
        (List.range l.length).filter (fun i => q (l[i]?.getD d)) := by
      apply List.filter_congr
      intro i hi
      rw [List.getElem?_append_left (List.mem_range.mp hi)]
    have h2 : ((List.range l.length).filter (fun i => q (l[i]?.getD d))).filterMap (fun i => (l ++ [a])[i]?) =
        ((List.range l.length).filter (fun i => q (l[i]?.getD d))).filterMap (fun i => l[i]?) := by
      apply List.filterMap_congr
      intro i hi
      rw [List.getElem?_append_left (List.mem_range.mp (List.mem_of_mem_filter hi))]
    rw [List.filter_append, List.length_append, List.length_singleton, List.range_succ, List.filter_append,
      List.filterMap_append, h1, h2, ← ih]
    congr 1
    by_cases hq : q a
    · simp [hq]
    · simp [hq]

theorem pick_ok {α : Type} (a : List α) (ind : List ℕ) (h : ∀ i ∈ ind, i < a.length) :
    pick a ind = .ok (ind.filterMap (fun i => a[i]?)) := by
  induction ind with
  | nil => rfl
  | cons i ind ih =>
    have hi : i < a.length := h i (by simp)
    have hg : Np.get a (i : ℤ) = .ok a[i] := by
      apply get_eq (k := i)
      · rw [index_nonneg (by omega) (by omega)]; rfl
      · simp [hi]
    unfold pick at ih ⊢
    rw [List.mapM_cons, hg, ih (fun j hj => h j (by simp [hj]))]
    simp [hi, pure, Except.pure, bind, Except.bind]

/-- Indexing positions and rows with the result of `filter_DLA` keeps them matched. -/
theorem pick_kept (b : List P) (r : List (List ℝ)) (t : Thresh) (h : r.length = b.length) :
    pick b (filter_DLA r t) = .ok (((b.zip r).filter (fun p => t.test p.2.sum)).map Prod.fst) ∧
    pick r (filter_DLA r t) = .ok (((b.zip r).filter (fun p => t.test p.2.sum)).map Prod.snd) ∧
    (filter_DLA r t).length = ((b.zip r).filter (fun p => t.test p.2.sum)).length := by
  have hmem : ∀ i ∈ filter_DLA r t, i < r.length := fun i hi =>
    List.mem_range.mp (List.mem_of_mem_filter hi)
  have hr : r = (b.zip r).map Prod.snd := by rw [List.map_snd_zip (by omega)]
  have hb : b = (b.zip r).map Prod.fst := by rw [List.map_fst_zip (by omega)]
  have hpick : pick r (filter_DLA r t) = .ok (r.filter (fun x => t.test x.sum)) := by
    rw [pick_ok _ _ hmem, filter_indices (fun x : List ℝ => t.test x.sum) [] r]
    rfl
  have h2 : (((b.zip r).filter (fun p => t.test p.2.sum)).map Prod.snd) = r.filter (fun x => t.test x.sum) := by
    conv_rhs => rw [hr]
    rw [List.filter_map]
    rfl
  have hlen : ((filter_DLA r t).filterMap (fun i => r[i]?)).length = (filter_DLA r t).length := by
    rw [List.length_filterMap_eq_countP, List.countP_eq_length]
    intro i hi
    simp [hmem i hi]
  refine ⟨?_, by rw [hpick, h2], ?_⟩
  · rw [pick_ok _ _ (fun i hi => by rw [← h]; exact hmem i hi)]
    by_cases hz : b = []
    · subst hz
      have : r = [] := List.length_eq_zero_iff.mp (by simpa using h)
      subst this
      rfl
    · obtain ⟨x, xs, rfl⟩ := List.exists_cons_of_ne_nil hz
      rw [filter_indices (fun p : P × List ℝ => t.test p.2.sum) (x, []) ((x :: xs).zip r), List.map_filterMap]
      have hl : ((x :: xs).zip r).length = r.length := by rw [List.length_zip, h]; simp
      rw [hl]
      have hf : filter_DLA r t = (List.range r.length).filter (fun i => t.test ((((x :: xs).zip r)[i]?.getD (x, [])).2).sum) := by
        unfold filter_DLA
        apply List.filter_congr
        intro i hi
        have hi := List.mem_range.mp hi
        have hi' : i < (x :: xs).length := by omega
        rw [List.getElem?_eq_getElem hi, List.getElem?_eq_getElem (l := (x :: xs).zip r) (by omega)]
        simp
      rw [← hf]
      congr 1
      apply List.filterMap_congr
      intro i hi
      have hi := hmem i hi
      have hi' : i < (x :: xs).length := by omega
      rw [List.getElem?_eq_getElem hi', List.getElem?_eq_getElem (l := (x :: xs).zip r) (by omega)]
      simp
  · rw [← hlen]
    have h3 : (filter_DLA r t).filterMap (fun i => r[i]?) = r.filter (fun x => t.test x.sum) := by
      have := pick_ok _ _ hmem
      rw [hpick] at this
      exact (Except.ok.inj this).symm
    rw [h3, ← h2, List.length_map]

theorem setSlice_ok {α : Type} (a rows : List α) (lo hi : ℕ) (h1 : lo ≤ hi) (h2 : hi ≤ a.length)
    (h3 : rows.length = hi - lo) :
    ∃ a', setSlice a lo hi rows = .ok a' ∧ a'.length = a.length ∧ a'.take hi = a.take lo ++ rows := by
  have hn : (Np.slice a lo hi).length = hi - lo := slice_length a h2
  refine ⟨a.take lo ++ rows ++ a.drop (lo + (hi - lo)), ?_, ?_, ?_⟩
  · unfold setSlice
    dsimp only
    rw [hn, if_pos h3]
  · simp only [List.length_append, List.length_take, List.length_drop, h3]
    omega
  · rw [List.take_append_of_le_length (by simp; omega), List.take_of_length_le (by simp; omega)]

/-- What holds after `n` batches. -/
structure Inv (w : World P) (elem : String) (ion : ℤ) (t : Thresh) (ndla : ℕ) (s : St P) (n : ℕ) (l : Loop P) : Prop where
  pos : 1 ≤ n
  found : l.found = (accepted w elem ion t s n).length
  top : l.top = min ndla l.found
  lenC : l.cofmDLA.length = ndla
  lenR : l.h1DLA.length = s.numLos
  keepC : l.cofmDLA.take l.top = ((accepted w elem ion t s n).take ndla).map Prod.fst
  keepR : l.h1DLA.take l.top = ((accepted w elem ion t s n).take ndla).map Prod.snd
  disc : l.st.discarded = n * s.numLos - (accepted w elem ion t s n).length
  calls : l.st.calls + 1 = s.calls + n
  axis : l.st.axis = s.axis
  numLos : l.st.numLos = s.numLos
  new : l.st.cofmFinal = false
  cache : l.st.partInd = s.partInd
  colden : l.st.colden = s.colden

theorem accepted_succ (w : World P) (elem : String) (ion : ℤ) (t : Thresh) (s : St P) (n : ℕ) :
    accepted w elem ion t s (n + 1) = accepted w elem ion t s n ++ kept w elem ion t s ((batch w s n).getD []) := by
  unfold accepted
  rw [List.range_succ, List.flatMap_append]
  simp

theorem kept_le {w : World P} {elem : String} {ion : ℤ} {s : St P} (h : Sound w elem ion s) (t : Thresh) (b : List P)
    (hb : b.length = s.numLos) : (kept w elem ion t s b).length ≤ s.numLos := by
  unfold kept
  refine le_trans (List.length_filter_le _ _) ?_
  rw [List.length_zip, h.rows b hb, hb, min_self]

theorem start_inv {w : World P} {elem : String} {ion : ℤ} {s : St P} (h : Sound w elem ion s) (t : Thresh) (ndla : ℕ)
    (hn : ndla ≤ s.numLos) (junkC : List P) (junkR : List (List ℝ)) (hC : junkC.length = s.numLos)
    (hR : junkR.length = s.numLos) :
    ∃ l, start w elem ion t ndla junkC junkR s = .ok l ∧ Inv w elem ion t ndla s 1 l := by
  have hrows := h.rows s.cofm h.size
  have hc : compute w elem ion s = (rowsOf w elem ion s s.cofm, s) := by
    unfold compute rowsOf
    rw [h.new]
    rfl
  obtain ⟨p1, p2, p3⟩ := pick_kept s.cofm (rowsOf w elem ion s s.cofm) t (by rw [hrows, h.size])
  have hacc : accepted w elem ion t s 1 = kept w elem ion t s s.cofm := by
    rw [accepted_succ]
    rfl
  have hk : (s.cofm.zip (rowsOf w elem ion s s.cofm)).filter (fun p => t.test p.2.sum) = kept w elem ion t s s.cofm := rfl
  rw [hk] at p1 p2 p3
  have hle := kept_le h t s.cofm h.size
  set K := kept w elem ion t s s.cofm with hK
  obtain ⟨a1, q1, q2, q3⟩ := setSlice_ok (junkC.take ndla) ((K.map Prod.fst).take (min ndla K.length)) 0 (min ndla K.length)
    (Nat.zero_le _) (by rw [List.length_take]; omega) (by simp)
  obtain ⟨a2, r1, r2, r3⟩ := setSlice_ok junkR ((K.map Prod.snd).take (min ndla K.length)) 0 (min ndla K.length)
    (Nat.zero_le _) (by omega) (by simp)
  refine ⟨⟨{ s with discarded := (s.numLos : ℤ) - K.length }, a1, a2, K.length, min ndla K.length⟩, ?_, ?_⟩
  · unfold start
    rw [hc]
    dsimp only
    rw [p1, p2, p3]
    simp only [bind, Except.bind, pure, Except.pure, q1, r1]
  · have htk : ∀ {β : Type} (f : P × List ℝ → β), (K.map f).take (min ndla K.length) = (K.take ndla).map f := by
      intro β f
      rw [← List.map_take]
      congr 1
      rcases Nat.le_total ndla K.length with h1 | h1
      · rw [min_eq_left h1]
      · rw [min_eq_right h1, List.take_of_length_le h1, List.take_length]
    exact {
      pos := le_refl 1
      found := by rw [hacc]
      top := rfl
      lenC := by rw [q2, List.length_take]; omega
      lenR := by rw [r2, hR]
      keepC := by rw [hacc]; dsimp only; rw [q3, htk]; simp
      keepR := by rw [hacc]; dsimp only; rw [r3, htk]; simp
      disc := by rw [hacc]; push_cast; ring
      calls := rfl
      axis := rfl
      numLos := rfl
      new := h.new
      cache := rfl
      colden := rfl }

theorem step_inv {w : World P} {elem : String} {ion : ℤ} {s : St P} (h : Sound w elem ion s) (t : Thresh) (ndla : ℕ)
    (hn : ndla ≤ s.numLos) {n : ℕ} {l : Loop P} (hl : Inv w elem ion t ndla s n l) (hlt : l.found < ndla) :
    ∃ l', step w elem ion t ndla l = .ok l' ∧ Inv w elem ion t ndla s (n + 1) l' := by
  obtain ⟨b, hb, hbl⟩ := h.batches l.st.calls
  have hbatch : batch w s n = some b := by
    have hp := hl.pos
    have hcl := hl.calls
    obtain ⟨m, rfl⟩ : ∃ m, n = m + 1 := ⟨n - 1, by omega⟩
    change (w.next (s.calls + m)).toOption = some b
    have : s.calls + m = l.st.calls := by omega
    rw [this, hb]
    rfl
  have hrows := h.rows b hbl
  have hc : compute w elem ion ({ l.st with cofm := b, calls := l.st.calls + 1 } : St P) =
      (rowsOf w elem ion s b, { l.st with cofm := b, calls := l.st.calls + 1 }) := by
    unfold compute rowsOf
    dsimp only
    rw [hl.new, hl.axis]
    rfl
  obtain ⟨p1, p2, p3⟩ := pick_kept b (rowsOf w elem ion s b) t (by rw [hrows, hbl])
  have hacc : accepted w elem ion t s (n + 1) = accepted w elem ion t s n ++ kept w elem ion t s b := by
    rw [accepted_succ, hbatch]
    rfl
  have hk : (b.zip (rowsOf w elem ion s b)).filter (fun p => t.test p.2.sum) = kept w elem ion t s b := rfl
  rw [hk] at p1 p2 p3
  set K := kept w elem ion t s b with hK
  have hf := hl.found
  set A := accepted w elem ion t s n with hA
  set T := min ndla (l.found + K.length) with hT
  have hlT : l.found ≤ T := by omega
  obtain ⟨a1, q1, q2, q3⟩ := setSlice_ok l.cofmDLA ((K.map Prod.fst).take (T - l.found)) l.found T
    hlT (by rw [hl.lenC]; omega) (by simp; omega)
  obtain ⟨a2, r1, r2, r3⟩ := setSlice_ok l.h1DLA ((K.map Prod.snd).take (T - l.found)) l.found T
    hlT (by rw [hl.lenR]; omega) (by simp; omega)
  have htop : l.top = l.found := by rw [hl.top]; omega
  have htk : ∀ {β : Type} (f : P × List ℝ → β), (A.take ndla).map f ++ (K.map f).take (T - l.found) = ((A ++ K).take ndla).map f := by
    intro β f
    have h1 : A.take ndla = A := List.take_of_length_le (by omega)
    rw [h1, List.take_append, h1, List.map_append, ← List.map_take]
    congr 2
    rcases Nat.le_total (ndla - A.length) K.length with h2 | h2
    · congr 1; omega
    · rw [List.take_of_length_le h2, List.take_of_length_le (by omega)]
  refine ⟨⟨{ l.st with cofm := b, calls := l.st.calls + 1, discarded := l.st.discarded + ((l.st.numLos : ℤ) - K.length) },
    a1, a2, l.found + K.length, T⟩, ?_, ?_⟩
  · unfold step
    simp only [hb, bind, Except.bind, hc, p3]
    rw [← hT]
    simp only [p1, p2, q1, r1, pure, Except.pure]
  · exact {
      pos := by omega
      found := by rw [hacc, List.length_append, ← hf]
      top := rfl
      lenC := by rw [q2, hl.lenC]
      lenR := by rw [r2, hl.lenR]
      keepC := by
        rw [hacc]; dsimp only; rw [q3, ← htop, hl.keepC, htop, htk]
      keepR := by
        rw [hacc]; dsimp only; rw [r3, ← htop, hl.keepR, htop, htk]
      disc := by
        rw [hacc, List.length_append]
        dsimp only
        rw [hl.disc, hl.numLos]
        push_cast
        ring
      calls := by have := hl.calls; dsimp only; omega
      axis := hl.axis
      numLos := hl.numLos
      new := hl.new
      cache := hl.cache
      colden := hl.colden }

theorem accepted_mono (w : World P) (elem : String) (ion : ℤ) (t : Thresh) (s : St P) {m n : ℕ} (h : m ≤ n) :
    accepted w elem ion t s m <+: accepted w elem ion t s n := by
  induction n, h using Nat.le_induction with
  | base => exact List.prefix_rfl
  | succ k _ ih =>
    rw [accepted_succ]
    exact ih.trans (List.prefix_append _ _)

theorem accepted_le {w : World P} {elem : String} {ion : ℤ} {s : St P} (h : Sound w elem ion s) (t : Thresh) (n : ℕ) :
    (accepted w elem ion t s n).length ≤ n * s.numLos := by
  induction n with
  | zero => simp [accepted]
  | succ n ih =>
    rw [accepted_succ, List.length_append]
    have hb : ∃ b, batch w s n = some b ∧ b.length = s.numLos := by
      cases n with
      | zero => exact ⟨s.cofm, rfl, h.size⟩
      | succ k =>
        obtain ⟨b, h1, h2⟩ := h.batches (s.calls + k)
        exact ⟨b, by change (w.next (s.calls + k)).toOption = some b; rw [h1]; rfl, h2⟩
    obtain ⟨b, h1, h2⟩ := hb
    rw [h1]
    have := kept_le h t b h2
    simp only [Option.getD_some]
    have e : (n + 1) * s.numLos = n * s.numLos + s.numLos := by ring
    omega

theorem loop_spec {w : World P} {elem : String} {ion : ℤ} {s : St P} (h : Sound w elem ion s) (t : Thresh) (ndla : ℕ)
    (hn : ndla ≤ s.numLos) : ∀ (fuel n : ℕ) (l : Loop P), Inv w elem ion t ndla s n l →
    (∃ l' m, n ≤ m ∧ whileRun (fun l : Loop P => .ok (decide (l.found < ndla)))
        (fun l => some (step w elem ion t ndla l)) fuel l = some (.ok l') ∧ Inv w elem ion t ndla s m l' ∧
        ndla ≤ l'.found ∧ ∀ j, n ≤ j → j < m → (accepted w elem ion t s j).length < ndla) ∨
    (whileRun (fun l : Loop P => .ok (decide (l.found < ndla))) (fun l => some (step w elem ion t ndla l)) fuel l = none ∧
      ∀ j, n ≤ j → j < n + fuel → (accepted w elem ion t s j).length < ndla) := by
  intro fuel
  induction fuel with
  | zero => intro n l _; exact Or.inr ⟨rfl, fun j h1 h2 => by omega⟩
  | succ fuel ih =>
    intro n l hl
    by_cases hlt : l.found < ndla
    · obtain ⟨l1, h1, h2⟩ := step_inv h t ndla hn hl hlt
      have hrun : whileRun (fun l : Loop P => .ok (decide (l.found < ndla)))
          (fun l => some (step w elem ion t ndla l)) (fuel + 1) l =
          whileRun (fun l : Loop P => .ok (decide (l.found < ndla))) (fun l => some (step w elem ion t ndla l)) fuel l1 := by
        rw [whileRun]
        rw [decide_eq_true hlt]
        dsimp only
        rw [h1]
        rfl
      rw [hrun]
      have hnow : (accepted w elem ion t s n).length < ndla := by rw [← hl.found]; exact hlt
      rcases ih (n + 1) l1 h2 with ⟨l', m, g1, g2, g3, g4, g5⟩ | ⟨g1, g2⟩
      · refine Or.inl ⟨l', m, by omega, g2, g3, g4, fun j j1 j2 => ?_⟩
        rcases Nat.eq_or_lt_of_le j1 with e | e
        · rw [← e]; exact hnow
        · exact g5 j e j2
      · refine Or.inr ⟨g1, fun j j1 j2 => ?_⟩
        rcases Nat.eq_or_lt_of_le j1 with e | e
        · rw [← e]; exact hnow
        · exact g2 j e (by omega)
    · refine Or.inl ⟨l, n, le_refl n, ?_, hl, by omega, fun j j1 j2 => by omega⟩
      rw [whileRun, decide_eq_false hlt]

theorem floor_tdiv (a b : ℤ) (ha : 0 ≤ a) (hb : 0 < b) : a.tdiv b = ⌊(a : ℝ) / b⌋ := by
  rw [Int.tdiv_eq_ediv_of_nonneg ha, eq_comm, Int.floor_eq_iff]
  have hb' : (0 : ℝ) < b := by exact_mod_cast hb
  constructor
  · rw [le_div_iff₀ hb']
    exact_mod_cast Int.ediv_mul_le a hb.ne'
  · rw [div_lt_iff₀ hb']
    exact_mod_cast Int.lt_ediv_add_one_mul_self a hb

/-- What a call returns: exactly `ndla` sightlines, the first ones over the threshold in the order they were
drawn, with their own column densities, after the smallest number of batches which holds enough of them; and the
number discarded is scaled to the number kept. -/
def Replaced (w : World P) (elem : String) (ion : ℤ) (t : Thresh) (ndla : ℕ) (s s' : St P) : Prop :=
  ∃ n, 1 ≤ n ∧ ndla ≤ (accepted w elem ion t s n).length ∧
    (∀ m, 1 ≤ m → m < n → (accepted w elem ion t s m).length < ndla) ∧
    s'.cofm = ((accepted w elem ion t s n).take ndla).map Prod.fst ∧
    s'.colden.lookup ("H", 1) = some (((accepted w elem ion t s n).take ndla).map Prod.snd) ∧
    s'.discarded = ⌊(n * s.numLos - (accepted w elem ion t s n).length : ℝ) * ndla / (accepted w elem ion t s n).length⌋ ∧
    s'.numLos = ndla ∧ s'.axis = s.axis.take ndla ∧ s'.cofmFinal = true ∧ s'.partInd = s.partInd ∧
    ∀ k, k ≠ ("H", 1) → s'.colden.lookup k = s.colden.lookup k

theorem lookup_filter_ne {β : Type} (l : List ((String × ℤ) × β)) (k k' : String × ℤ) (h : k' ≠ k) :
    (l.filter (fun p => decide (p.1 ≠ k))).lookup k' = l.lookup k' := by
  induction l with
  | nil => rfl
  | cons p l ih =>
    obtain ⟨a, v⟩ := p
    by_cases ha : a = k
    · subst ha
      rw [List.filter_cons_of_neg (by simp), ih, List.lookup_cons, beq_eq_false_iff_ne.mpr h]
    · rw [List.filter_cons_of_pos (by simp [ha]), List.lookup_cons, List.lookup_cons, ih]

/-- C17. For every sequence of batches: a call which returns has found the requested number of sightlines; it
returns as soon as there are enough sightlines over the threshold; and it does not return otherwise. -/
theorem replace_not_DLA_spec {w : World P} {elem : String} {ion : ℤ} {s : St P} (h : Sound w elem ion s) (t : Thresh)
    {ndla : ℕ} (h0 : 0 < ndla) (hn : ndla ≤ s.numLos) {junkC : List P} {junkR : List (List ℝ)}
    (hC : junkC.length = s.numLos) (hR : junkR.length = s.numLos) :
    (∀ fuel r, replace_not_DLA w ndla t elem ion junkC junkR fuel s = some r →
      ∃ s', r = .ok s' ∧ Replaced w elem ion t ndla s s') ∧
    (∀ n, ndla ≤ (accepted w elem ion t s n).length → ∀ fuel, n < fuel →
      ∃ s', replace_not_DLA w ndla t elem ion junkC junkR fuel s = some (.ok s')) ∧
    ((∀ n, (accepted w elem ion t s n).length < ndla) →
      ∀ fuel, replace_not_DLA w ndla t elem ion junkC junkR fuel s = none) := by
  obtain ⟨l0, hl0, hinv0⟩ := start_inv h t ndla hn junkC junkR hC hR
  have key : ∀ fuel, (∃ s', replace_not_DLA w ndla t elem ion junkC junkR fuel s = some (.ok s') ∧
        Replaced w elem ion t ndla s s') ∨
      (replace_not_DLA w ndla t elem ion junkC junkR fuel s = none ∧
        ∀ j, 1 ≤ j → j < 1 + fuel → (accepted w elem ion t s j).length < ndla) := by
    intro fuel
    rcases loop_spec h t ndla hn fuel 1 l0 hinv0 with ⟨l', m, g1, g2, g3, g4, g5⟩ | ⟨g1, g2⟩
    · left
      have hf : l'.found ≠ 0 := by omega
      have htop : l'.top = ndla := by rw [g3.top]; omega
      refine ⟨{ l'.st with
          discarded := (l'.st.discarded * ndla).tdiv l'.found
          cofm := l'.cofmDLA
          axis := l'.st.axis.take ndla
          colden := (("H", 1), l'.h1DLA.take l'.top) :: l'.st.colden.filter (fun p => decide (p.1 ≠ ("H", 1)))
          cofmFinal := true
          numLos := ndla }, ?_, ?_⟩
      · unfold replace_not_DLA
        rw [hl0]
        dsimp only [Run.andThen]
        rw [g2]
        dsimp only
        unfold finish
        rw [if_neg hf]
      · refine ⟨m, g1, by rw [← g3.found]; exact g4, g5, ?_, ?_, ?_, rfl, by dsimp only; rw [g3.axis], rfl, g3.cache, ?_⟩
        · dsimp only
          rw [← g3.keepC, htop, List.take_of_length_le (by rw [g3.lenC])]
        · dsimp only
          rw [List.lookup_cons, beq_self_eq_true, g3.keepR]
        · dsimp only
          rw [g3.disc, g3.found, floor_tdiv]
          · push_cast
            rfl
          · apply mul_nonneg _ (by omega)
            have := accepted_le h t m
            have h2 : ((accepted w elem ion t s m).length : ℤ) ≤ (m * s.numLos : ℕ) := by exact_mod_cast this
            push_cast at h2
            omega
          · rw [← g3.found]; omega
        · intro k hk
          dsimp only
          rw [List.lookup_cons, beq_eq_false_iff_ne.mpr hk, lookup_filter_ne _ _ _ hk, g3.colden]
    · right
      refine ⟨?_, g2⟩
      unfold replace_not_DLA
      rw [hl0]
      dsimp only [Run.andThen]
      rw [g1]
  refine ⟨?_, ?_, ?_⟩
  · intro fuel r hr
    rcases key fuel with ⟨s', h1, h2⟩ | ⟨h1, _⟩
    · rw [h1] at hr
      cases hr
      exact ⟨s', rfl, h2⟩
    · rw [h1] at hr; cases hr
  · intro n hacc fuel hfuel
    rcases key fuel with ⟨s', h1, _⟩ | ⟨_, h2⟩
    · exact ⟨s', h1⟩
    · have hpos : 1 ≤ n := by
        rcases Nat.eq_zero_or_pos n with e | e
        · subst e; simp [accepted] at hacc; omega
        · exact e
      have := h2 n hpos (by omega)
      omega
  · intro hnev fuel
    rcases key fuel with ⟨s', _, n, _, h2, _⟩ | ⟨h1, _⟩
    · have := hnev n; omega
    · exact h1

/-- C17. The object holds `ndla` sightlines and `ndla` rows, and the sum of every row is over the threshold. -/
theorem replaced_over_threshold {w : World P} {elem : String} {ion : ℤ} {t : Thresh} {ndla : ℕ} {s s' : St P}
    (h : Replaced w elem ion t ndla s s') :
    ∃ rows, s'.colden.lookup ("H", 1) = some rows ∧ s'.cofm.length = ndla ∧ rows.length = ndla ∧ s'.numLos = ndla ∧
      ∀ r ∈ rows, Over t r.sum := by
  obtain ⟨n, _, h2, _, h4, h5, _, h7, _⟩ := h
  refine ⟨_, h5, ?_, ?_, h7, ?_⟩
  · rw [h4, List.length_map, List.length_take]; omega
  · rw [List.length_map, List.length_take]; omega
  · intro r hr
    obtain ⟨p, hp, rfl⟩ := List.mem_map.mp hr
    have hp := List.mem_of_mem_take hp
    unfold accepted at hp
    obtain ⟨k, _, hk⟩ := List.mem_flatMap.mp hp
    unfold kept at hk
    have := (List.mem_filter.mp hk).2
    cases t with
    | above x => simpa [Thresh.test, Over] using this
    | between lo hi => simpa [Thresh.test, Over] using this

/-- C17. When every sightline has the same axis, the stored rows are the ones the kept sightlines have. `f` is the
row of one sightline (C03: a sightline does not depend on the others). -/
theorem replaced_consistent {w : World P} {elem : String} {ion : ℤ} {t : Thresh} {ndla : ℕ} {s s' : St P}
    (f : ℤ → P → List ℝ) (hf : ∀ b : List P, rowsOf w elem ion s b = List.zipWith f s.axis b)
    (a : ℤ) (N : ℕ) (ha : s.axis = List.replicate N a) (hN : ndla ≤ N) (h : Replaced w elem ion t ndla s s') :
    s'.colden.lookup ("H", 1) = some (List.zipWith f s'.axis s'.cofm) ∧ s'.axis.length = s'.cofm.length := by
  have hpair : ∀ n, ∀ p ∈ accepted w elem ion t s n, p.2 = f a p.1 := by
    intro n p hp
    unfold accepted at hp
    obtain ⟨k, _, hk⟩ := List.mem_flatMap.mp hp
    have := List.mem_of_mem_filter hk
    rw [hf, ha] at this
    obtain ⟨i, hi, rfl⟩ := List.mem_iff_getElem.mp this
    simp
  obtain ⟨n, _, h2, _, h4, h5, _, _, h8, _⟩ := h
  have hl : s'.axis.length = s'.cofm.length := by
    rw [h8, h4, ha]
    simp
    omega
  refine ⟨?_, hl⟩
  rw [h5, h4, h8, ha]
  congr 1
  apply List.ext_getElem
  · simp; omega
  · intro i h1 h2
    have hi : i < ((accepted w elem ion t s n).take ndla).length := by simpa using h1
    have := hpair n ((accepted w elem ion t s n).take ndla)[i] (List.mem_of_mem_take (List.getElem_mem hi))
    simp only [List.getElem_map, List.getElem_zipWith, List.getElem_take, List.getElem_replicate]
    simpa using this

/-- C17, `RandSpectra`: for every sequence of random batches and every positive threshold, an object which is
built holds exactly `ndla` sightlines, all along the first axis, all over the threshold, and the stored column
densities are those of the sightlines it holds. -/
theorem randSpectra_spec {w : World P} {elem : String} {ion : ℤ} {ndla numlos : ℕ} (h0 : 0 < ndla) (hn : ndla ≤ numlos)
    (hb : ∀ k, ∃ b, w.next k = .ok b ∧ b.length = numlos) (f : ℤ → P → List ℝ)
    (hf : ∀ ax b, w.interp elem ion (w.near ax b) ax b = List.zipWith f ax b) (t : Thresh) (ht : ∀ x, t = .above x → 0 < x)
    {junkC : List P} {junkR : List (List ℝ)} (hC : junkC.length = numlos) (hR : junkR.length = numlos)
    {fuel : ℕ} {r : Py (St P)} (hr : randSpectra w ndla numlos t elem ion junkC junkR fuel = some r) :
    ∃ s' rows, r = .ok s' ∧ s'.colden.lookup ("H", 1) = some rows ∧ s'.numLos = ndla ∧ s'.cofm.length = ndla ∧
      s'.axis = List.replicate ndla 1 ∧ rows = s'.cofm.map (f 1) ∧
      ∀ r ∈ rows, Over t r.sum := by
  obtain ⟨b0, hb0, hbl⟩ := hb 0
  have hgo : t.asked = true := by
    cases t with
    | above x => simpa [Thresh.asked] using ht x rfl
    | between lo hi => rfl
  unfold randSpectra at hr
  simp only [hb0, Run.andThen] at hr
  rw [if_pos hgo] at hr
  set s : St P := ⟨b0, List.replicate numlos 1, numlos, [], false, none, 0, 1⟩ with hs
  have hsound : Sound w elem ion s := {
    new := rfl
    size := hbl
    batches := hb
    rows := by
      intro b hbl'
      unfold rowsOf
      rw [hf, List.length_zipWith, hbl']
      simp [hs] }
  obtain ⟨s', rfl, hrep⟩ := (replace_not_DLA_spec hsound t h0 hn hC hR).1 fuel r hr
  obtain ⟨rows, h1, h2, h3, h4, h5⟩ := replaced_over_threshold hrep
  obtain ⟨g1, g2⟩ := replaced_consistent f (fun b => hf _ b) 1 numlos rfl hn hrep
  have hax : s'.axis = List.replicate ndla 1 := by
    obtain ⟨_, _, _, _, _, _, _, _, h8, _⟩ := hrep
    rw [h8]
    simp [hs, hn]
  refine ⟨s', rows, rfl, h1, h4, h2, hax, ?_, h5⟩
  rw [h1] at g1
  have e := Option.some.inj g1
  rw [e, hax]
  apply List.ext_getElem
  · simp [h2]
  · intro i _ _
    simp

/-- A world for the examples: positions are numbers, the column density of a sightline is its position, and the
`k`-th batch is `[5, k]`. -/
noncomputable def toy : World ℝ where
  near _ _ := []
  interp _ _ _ ax b := List.zipWith (fun _ x => [x]) ax b
  next k := .ok [5, k]

/-- The hypotheses of `randSpectra_spec` hold for a sequence of batches. -/
example : ∃ (w : World ℝ) (f : ℤ → ℝ → List ℝ), (∀ k, ∃ b, w.next k = .ok b ∧ b.length = 2) ∧
    (∀ ax b, w.interp "H" 1 (w.near ax b) ax b = List.zipWith f ax b) ∧
    ∃ s', randSpectra w 2 2 (.above 3) "H" 1 [0, 0] [[], []] 3 = some (.ok s') ∧ s'.cofm = [5, 5] := by
  refine ⟨toy, fun _ x => [x], fun k => ⟨_, rfl, rfl⟩, fun ax b => rfl, ?_⟩
  have hsound : Sound toy "H" 1 (⟨[5, 0], List.replicate 2 1, 2, [], false, none, 0, 1⟩ : St ℝ) :=
    { new := rfl, size := rfl, batches := fun k => ⟨_, rfl, rfl⟩,
      rows := fun b hb => by unfold rowsOf toy; simp [hb] }
  have hacc1 : (accepted toy "H" 1 (.above 3) (⟨[5, 0], List.replicate 2 1, 2, [], false, none, 0, 1⟩ : St ℝ) 1) =
      [(5, [5])] := by
    unfold accepted
    simp [kept, batch, rowsOf, toy, Thresh.test, List.range_succ]
    norm_num
  have hacc : (accepted toy "H" 1 (.above 3) (⟨[5, 0], List.replicate 2 1, 2, [], false, none, 0, 1⟩ : St ℝ) 2) =
      [(5, [5]), (5, [5])] := by
    unfold accepted
    simp [kept, batch, rowsOf, toy, Thresh.test, List.range_succ, Except.toOption]
    norm_num
  obtain ⟨s', hs'⟩ := (replace_not_DLA_spec hsound (.above 3) (ndla := 2) (by norm_num) (le_refl _)
    (junkC := [0, 0]) (junkR := [[], []]) rfl rfl).2.1 2 (by rw [hacc]; simp) 3 (by norm_num)
  obtain ⟨s2, h2, hrep⟩ := (replace_not_DLA_spec hsound (.above 3) (ndla := 2) (by norm_num) (le_refl _)
    (junkC := [0, 0]) (junkR := [[], []]) rfl rfl).1 3 _ hs'
  cases h2
  refine ⟨s', ?_, ?_⟩
  · unfold randSpectra
    have : toy.next 0 = .ok [5, 0] := by simp [toy]
    simp only [this, Run.andThen]
    rw [if_pos (by simp [Thresh.asked])]
    exact hs'
  · obtain ⟨n, h1, h2, h3, h4, _⟩ := hrep
    have hn : 2 ≤ n := by
      by_contra hc
      have : n = 1 := by omega
      rw [this, hacc1] at h2
      simp at h2
    have hn' : n ≤ 2 := by
      by_contra hc
      have := h3 2 (by norm_num) (by omega)
      rw [hacc] at this
      simp at this
    have : n = 2 := by omega
    rw [h4, this, hacc]
    rfl

theorem setSlice_length {α : Type} {a rows a' : List α} {lo hi : ℕ} (h : setSlice a lo hi rows = .ok a') :
    a'.length = a.length := by
  have hn : (Np.slice a lo hi).length = min hi a.length - lo := by
    unfold Np.slice
    rw [List.length_drop, List.length_take]
  unfold setSlice at h
  dsimp only at h
  split at h
  · rename_i he
    cases h
    simp only [List.length_append, List.length_take, List.length_drop]
    omega
  · split at h
    · cases h
      simp only [List.length_append, List.length_take, List.length_drop, List.length_replicate]
      omega
    · cases h

/-- The full statement fails when more sightlines are asked for than the object has: whatever the batches are, an
object which results has fewer sightlines than it says. -/
theorem replace_too_many {w : World P} {elem : String} {ion : ℤ} {t : Thresh} {ndla : ℕ} {junkC : List P}
    {junkR : List (List ℝ)} (hj : junkC.length < ndla) {fuel : ℕ} {s s' : St P}
    (h : replace_not_DLA w ndla t elem ion junkC junkR fuel s = some (.ok s')) :
    s'.cofm.length = junkC.length ∧ s'.numLos = ndla ∧ s'.cofm.length < s'.numLos := by
  have hstart : ∀ l, start w elem ion t ndla junkC junkR s = .ok l → l.cofmDLA.length = junkC.length := by
    intro l hl
    unfold start at hl
    simp only [bind, Except.bind, pure, Except.pure] at hl
    split at hl
    · cases hl
    · split at hl
      · cases hl
      · rename_i c hc
        split at hl
        · cases hl
        · split at hl
          · cases hl
          · cases hl
            rw [setSlice_length hc, List.length_take]
            omega
  have hstep : ∀ l l', step w elem ion t ndla l = .ok l' → l'.cofmDLA.length = l.cofmDLA.length := by
    intro l l' hl
    unfold step at hl
    simp only [bind, Except.bind, pure, Except.pure] at hl
    split at hl
    · cases hl
    · split at hl
      · cases hl
      · split at hl
        · cases hl
        · rename_i c hc
          split at hl
          · cases hl
          · split at hl
            · cases hl
            · cases hl
              exact setSlice_length hc
  unfold replace_not_DLA at h
  unfold Run.andThen at h
  split at h
  · cases h
  · cases h
  · rename_i l hl
    dsimp only at h
    split at h
    · cases h
    · cases h
    · rename_i l' hl'
      have hinv := whileRun_inv (fun l : Loop P => l.cofmDLA.length = junkC.length)
        (fun a b ha _ hb => by rw [hstep a b (Option.some.inj hb), ha]) fuel l l' (hstart l (Option.some.inj hl)) hl'
      unfold finish at h
      split at h
      · cases h
      · cases h
        exact ⟨hinv.1, rfl, by dsimp only; rw [hinv.1]; exact hj⟩

/-- One sightline per batch, two asked for: the call returns an object with one sightline which says it has two. -/
theorem replace_silently_short : ∃ (w : World ℝ) (s s' : St ℝ), Sound w "H" 1 s ∧
    replace_not_DLA w 2 (.above 3) "H" 1 [0] [[0]] 2 s = some (.ok s') ∧ s'.cofm = [5] ∧ s'.numLos = 2 := by
  let w : World ℝ := ⟨fun _ _ => [], fun _ _ _ ax b => List.zipWith (fun _ x => [x]) ax b, fun _ => .ok [5]⟩
  let s : St ℝ := ⟨[5], [1], 1, [], false, none, 0, 1⟩
  have hf : filter_DLA [[(5 : ℝ)]] (.above 3) = [0] := by
    simp [filter_DLA, Thresh.test, List.range_succ]
    norm_num
  have hs : start w "H" 1 (.above 3) 2 [0] [[0]] s =
      .ok ⟨{ s with discarded := 0 }, [5], [[5]], 1, 1⟩ := by
    simp [start, compute, w, s, hf, pick, Np.get, Np.index, setSlice, Np.slice, bind, Except.bind, pure, Except.pure]
  have ht : step w "H" 1 (.above 3) 2 ⟨{ s with discarded := 0 }, [5], [[5]], 1, 1⟩ =
      .ok ⟨{ s with discarded := 0, calls := 2 }, [5], [[5]], 2, 2⟩ := by
    simp [step, compute, w, s, hf, pick, Np.get, Np.index, setSlice, Np.slice, bind, Except.bind, pure, Except.pure]
  refine ⟨w, s, { s with discarded := 0, calls := 2, cofm := [5], numLos := 2, cofmFinal := true, colden := [(("H", 1), [[5]])] },
    ⟨rfl, rfl, fun k => ⟨[5], rfl, rfl⟩, fun b hb => ?_⟩, ?_, ?_, ?_⟩
  · have hb : b.length = 1 := hb
    simp [rowsOf, w, s, hb]
  · unfold replace_not_DLA
    rw [hs]
    simp only [Run.andThen, whileRun]
    simp [ht, finish, s]
  · rfl
  · rfl

/-- The axis of a kept sightline is not kept: with different axes the stored column densities are not those of the
sightlines the object holds, and the sightline it holds can be under the threshold. -/
theorem replace_mixed_axes : ∃ (w : World ℝ) (f : ℤ → ℝ → List ℝ) (s s' : St ℝ), Sound w "H" 1 s ∧
    (∀ ax b, w.interp "H" 1 (w.near ax b) ax b = List.zipWith f ax b) ∧
    replace_not_DLA w 1 (.above 3) "H" 1 [0, 0] [[0], [0]] 1 s = some (.ok s') ∧
    s'.colden.lookup ("H", 1) = some [[5]] ∧ List.zipWith f s'.axis s'.cofm = [[0]] := by
  let f : ℤ → ℝ → List ℝ := fun a x => if a = 1 then [x] else [0]
  let w : World ℝ := ⟨fun _ _ => [], fun _ _ _ ax b => List.zipWith f ax b, fun _ => .ok [5, 5]⟩
  let s : St ℝ := ⟨[5, 5], [2, 1], 2, [], false, none, 0, 1⟩
  have hf : filter_DLA [[(0 : ℝ)], [5]] (.above 3) = [1] := by
    simp [filter_DLA, Thresh.test, List.range_succ]
    norm_num
  have hs : start w "H" 1 (.above 3) 1 [0, 0] [[0], [0]] s =
      .ok ⟨{ s with discarded := 1 }, [5], [[5], [0]], 1, 1⟩ := by
    simp [start, compute, w, s, f, hf, pick, Np.get, Np.index, setSlice, Np.slice, bind, Except.bind, pure, Except.pure]
  refine ⟨w, f, s, { s with discarded := 1, cofm := [5], axis := [2], numLos := 1, cofmFinal := true, colden := [(("H", 1), [[5]])] },
    ⟨rfl, rfl, fun k => ⟨[5, 5], rfl, rfl⟩, fun b hb => ?_⟩, fun ax b => rfl, ?_, ?_, ?_⟩
  · have hb : b.length = 2 := hb
    simp [rowsOf, w, s, hb]
  · unfold replace_not_DLA
    rw [hs]
    simp only [Run.andThen, whileRun]
    simp [finish, s]
  · rfl
  · simp [f]

/-- The element is not part of the key: asked for carbon, the object stores the carbon columns as those of neutral
hydrogen. -/
theorem replace_other_element {w : World P} {s : St P} (h : Sound w "C" 4 s) (t : Thresh) {ndla : ℕ} (h0 : 0 < ndla)
    (hn : ndla ≤ s.numLos) {junkC : List P} {junkR : List (List ℝ)} (hC : junkC.length = s.numLos)
    (hR : junkR.length = s.numLos) {fuel : ℕ} {s' : St P}
    (hr : replace_not_DLA w ndla t "C" 4 junkC junkR fuel s = some (.ok s')) :
    s'.colden.lookup ("C", 4) = s.colden.lookup ("C", 4) ∧
      ∃ n, s'.colden.lookup ("H", 1) = some (((accepted w "C" 4 t s n).take ndla).map Prod.snd) := by
  obtain ⟨s2, h1, n, _, _, _, _, h5, _, _, _, _, _, h11⟩ := (replace_not_DLA_spec h t h0 hn hC hR).1 fuel _ hr
  cases h1
  exact ⟨h11 _ (by decide), n, h5⟩

/-- Nothing asked for and nothing over the threshold: the scaling of the number discarded divides by zero. -/
theorem replace_none_wanted {w : World P} {elem : String} {ion : ℤ} {s : St P} (h : Sound w elem ion s) (t : Thresh)
    {junkC : List P} {junkR : List (List ℝ)} (hC : junkC.length = s.numLos) (hR : junkR.length = s.numLos)
    (hno : accepted w elem ion t s 1 = []) (fuel : ℕ) :
    replace_not_DLA w 0 t elem ion junkC junkR (fuel + 1) s = some (.error .zeroDivisionError) := by
  obtain ⟨l, h1, h2⟩ := start_inv h t 0 (Nat.zero_le _) junkC junkR hC hR
  have hf : l.found = 0 := by rw [h2.found, hno]; rfl
  unfold replace_not_DLA
  rw [h1]
  simp only [Run.andThen, whileRun]
  simp [finish, hf]

/-- A second call on the same object: after the first call the indices of the particles near the sightlines are
cached, and the batches of the second call are computed from the particles near the old sightlines. Here every new
batch is over the threshold, and the call never returns. -/
theorem replace_twice : ∃ (w : World ℝ) (s s1 : St ℝ), Sound w "H" 1 s ∧
    replace_not_DLA w 1 (.above 5) "H" 1 [0] [[0]] 1 s = some (.ok s1) ∧
    (∀ k, 1 ≤ k → ∀ b, w.next k = .ok b → ∀ r ∈ rowsOf w "H" 1 s b, 15 < r.sum) ∧
    ∀ fuel, replace_not_DLA w 1 (.above 15) "H" 1 [0] [[0]] fuel (compute w "H" 1 s1).2 = none := by
  let w : World ℝ := ⟨fun _ b => b.map (fun x => ⌊x⌋₊), fun _ _ ind ax b =>
    List.zipWith (fun _ x => if ⌊x⌋₊ ∈ ind then [10 * x] else [0]) ax b, fun k => .ok [k + 1]⟩
  let s : St ℝ := ⟨[1], [1], 1, [], false, none, 0, 1⟩
  let s1 : St ℝ := { s with colden := [(("H", 1), [[10]])], cofmFinal := true, numLos := 1 }
  let s2 : St ℝ := { s1 with partInd := some [1] }
  have hf : filter_DLA [[(10 : ℝ)]] (.above 5) = [0] := by
    simp [filter_DLA, Thresh.test, List.range_succ]
    norm_num
  have hf2 : filter_DLA [[(10 : ℝ)]] (.above 15) = [] := by
    simp [filter_DLA, Thresh.test, List.range_succ]
    norm_num
  have hf3 : filter_DLA [[(0 : ℝ)]] (.above 15) = [] := by
    simp [filter_DLA, Thresh.test, List.range_succ]
  have hs : start w "H" 1 (.above 5) 1 [0] [[0]] s = .ok ⟨{ s with discarded := 0 }, [1], [[10]], 1, 1⟩ := by
    simp [start, compute, w, s, hf, pick, Np.get, Np.index, setSlice, Np.slice, bind, Except.bind, pure, Except.pure]
  have hc : (compute w "H" 1 s1).2 = s2 := by
    simp [compute, w, s, s1, s2]
  refine ⟨w, s, s1, ⟨rfl, rfl, fun k => ⟨[(k : ℝ) + 1], rfl, rfl⟩, fun b hb => ?_⟩, ?_, ?_, ?_⟩
  · have hb : b.length = 1 := hb
    simp [rowsOf, w, s, hb]
  · unfold replace_not_DLA
    rw [hs]
    simp only [Run.andThen, whileRun]
    simp [finish, s, s1]
  · intro k hk b hb r hr
    have hb : b = [(k : ℝ) + 1] := (Except.ok.inj hb).symm
    subst hb
    simp [rowsOf, w, s] at hr
    subst hr
    have : (1 : ℝ) ≤ k := by exact_mod_cast hk
    simp
    linarith
  · rw [hc]
    have hs2 : start w "H" 1 (.above 15) 1 [0] [[0]] s2 = .ok ⟨{ s2 with discarded := 1 }, [0], [[0]], 0, 0⟩ := by
      simp [start, compute, w, s, s1, s2, hf2, pick, setSlice, Np.slice, bind, Except.bind, pure, Except.pure]
    have key : ∀ fuel (l : Loop ℝ), l.found = 0 → l.st.cofmFinal = true → l.st.partInd = some [1] → l.st.axis = [1] →
        1 ≤ l.st.calls →
        whileRun (fun l : Loop ℝ => .ok (decide (l.found < 1))) (fun l => some (step w "H" 1 (.above 15) 1 l)) fuel l =
          none := by
      intro fuel
      induction fuel with
      | zero => intros; rfl
      | succ fuel ih =>
        intro l h1 h2 h3 h4 h5
        have hne : ¬ l.st.calls = 0 := by omega
        have hst : ∃ l', step w "H" 1 (.above 15) 1 l = .ok l' ∧ l'.found = 0 ∧ l'.st.cofmFinal = true ∧
            l'.st.partInd = some [1] ∧ l'.st.axis = [1] ∧ 1 ≤ l'.st.calls := by
          have hcomp : compute w "H" 1 ({ l.st with cofm := [(l.st.calls : ℝ) + 1], calls := l.st.calls + 1 } : St ℝ) =
              ([[0]], { l.st with cofm := [(l.st.calls : ℝ) + 1], calls := l.st.calls + 1 }) := by
            have hfl : ⌊(l.st.calls : ℝ) + 1⌋₊ = l.st.calls + 1 := by
              rw [Nat.floor_add_one (by positivity), Nat.floor_natCast]
            simp [compute, h2, h3, h4, w, hfl, hne]
          have hnext : w.next l.st.calls = .ok [(l.st.calls : ℝ) + 1] := rfl
          refine ⟨⟨{ l.st with
              cofm := [(l.st.calls : ℝ) + 1]
              calls := l.st.calls + 1
              discarded := l.st.discarded + ((l.st.numLos : ℤ) - 0) }, l.cofmDLA, l.h1DLA, 0, 0⟩, ?_, rfl, h2, h3, h4, by simp⟩
          simp [step, hnext, hcomp, hf3, h1, pick, setSlice, Np.slice, bind, Except.bind, pure, Except.pure]
        obtain ⟨l', g1, g2, g3, g4, g5, g6⟩ := hst
        rw [whileRun, decide_eq_true (by omega)]
        dsimp only
        rw [g1]
        exact ih l' g2 g3 g4 g5 g6
    intro fuel
    unfold replace_not_DLA
    rw [hs2]
    simp only [Run.andThen]
    rw [key fuel _ rfl rfl rfl rfl (by simp [s2, s1, s])]

end Verif.Props.ReplaceDLA
