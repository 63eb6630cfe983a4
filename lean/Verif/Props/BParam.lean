import Verif.Model.BParam
import Verif.Lemmas.Numpy

/-!
C53: sigma clipping and the fit of the b parameter distribution.
-/

namespace Verif.Props
open Verif Verif.Np Verif.BParam

/-- One round of 2-sigma clipping of a list of values: those within two standard deviations of the mean. -/
noncomputable def trim (xs : List ℝ) : List ℝ := xs.filter (fun x => decide (|x - mean xs| < 2 * std xs))

section select
variable {α β : Type}

theorem select_nil (a : List α) : select [] a = [] := rfl

theorem select_cons (b : Bool) (m : List Bool) (x : α) (a : List α) : select (b :: m) (x :: a) = if b then x :: select m a else select m a := by
  cases b <;> simp [select]

theorem select_append {m1 m2 : List Bool} {a1 a2 : List α} (h : m1.length = a1.length) :
    select (m1 ++ m2) (a1 ++ a2) = select m1 a1 ++ select m2 a2 := by
  unfold select
  rw [List.zip_append h, List.filterMap_append]

theorem select_map (f : α → β) (m : List Bool) (a : List α) : select m (a.map f) = (select m a).map f := by
  unfold select
  rw [List.zip_map_right, List.filterMap_map, List.map_filterMap]
  congr 1
  funext x
  simp only [Function.comp, Prod.map_fst, Prod.map_snd, id]
  split_ifs <;> rfl

theorem select_length (m : List Bool) (a : List α) (h : m.length = a.length) : (select m a).length = m.count true := by
  induction m generalizing a with
  | nil => rfl
  | cons b m ih =>
    cases a with
    | nil => simp at h
    | cons x a =>
      have := ih a (by simpa using h)
      rw [select_cons]
      cases b <;> simp [this]

theorem select_pred (p : α → Bool) (a : List α) : select (a.map p) a = a.filter p := by
  induction a with
  | nil => rfl
  | cons x a ih =>
    rw [List.map_cons, select_cons, ih, List.filter_cons]

theorem select_and (m : List Bool) (p : α → Bool) (a : List α) (h : m.length = a.length) :
    select (m.zipWith (· && ·) (a.map p)) a = (select m a).filter p := by
  induction m generalizing a with
  | nil => rfl
  | cons b m ih =>
    cases a with
    | nil => simp at h
    | cons x a =>
      have := ih a (by simpa using h)
      simp only [List.map_cons, List.zipWith_cons_cons, select_cons, this]
      cases b
      · simp
      · simp [List.filter_cons]

theorem select_all_false (m : List Bool) (a : List α) (h : ∀ b ∈ m, b = false) : select m a = [] := by
  unfold select
  rw [List.filterMap_eq_nil_iff]
  intro x hx
  have := h x.1 (List.of_mem_zip (show (x.1, x.2) ∈ _ from hx)).1
  rw [this]
  rfl

end select

theorem step_select {lb : List ℝ} {s : Clip} (h : s.mask.length = lb.length) :
    select (s.step lb).mask lb = trim (select s.mask lb) ∧ (s.step lb).mask.length = lb.length ∧
      (s.step lb).removed = (select s.mask lb).length - (trim (select s.mask lb)).length := by
  have hl : (s.step lb).mask.length = lb.length := by
    unfold Clip.step keep
    simp only [List.length_zipWith]
    split_ifs <;> simp [h]
  have hs : select (s.step lb).mask lb = trim (select s.mask lb) := by
    unfold Clip.step keep
    simp only
    by_cases hne : select s.mask lb = []
    · rw [if_pos hne, select_and _ _ _ h, hne]
      rfl
    · rw [if_neg hne, select_and _ _ _ h]
      rfl
  refine ⟨hs, hl, ?_⟩
  rw [← hs, select_length _ _ h, select_length _ _ hl]
  rfl

theorem trim_length_le (xs : List ℝ) : (trim xs).length ≤ xs.length := List.length_filter_le _ _

theorem trim_eq_of_length {xs : List ℝ} (h : (trim xs).length = xs.length) : trim xs = xs :=
  List.filter_sublist.eq_of_length h

/-- C53, the clipping: it ends, after at most one round more than there are points; it applies rounds of clipping to the points
of the bin, and ends with points that all are within two standard deviations of their mean. -/
theorem clip_spec {lb : List ℝ} {mask : List Bool} (h : mask.length = lb.length) {fuel : ℕ} (hf : mask.count true + 1 < fuel) :
    ∃ s, clip lb mask fuel = some (.ok s) ∧ s.mask.length = lb.length ∧
      (∃ k, select s.mask lb = trim^[k] (select mask lb)) ∧
      ∀ x ∈ select s.mask lb, |x - mean (select s.mask lb)| < 2 * std (select s.mask lb) := by
  obtain ⟨s, h1, ⟨h2, h3, h4⟩, h5⟩ := whileRun_measure (cond := fun s : Clip => .ok (decide (0 < s.removed)))
    (body := fun s => some (.ok (s.step lb)))
    (fun s => s.mask.length = lb.length ∧ (∃ k, select s.mask lb = trim^[k] (select mask lb)) ∧
      (s.removed = 0 → trim (select s.mask lb) = select s.mask lb))
    (fun s => if 0 < s.removed then (select s.mask lb).length + 1 else 0)
    (fun s _ => ⟨_, rfl⟩)
    (by
      rintro s ⟨a, ⟨k, hk⟩, c⟩ hc
      have hpos : 0 < s.removed := by simpa using hc
      obtain ⟨e1, e2, e3⟩ := step_select a
      have hle := trim_length_le (select s.mask lb)
      refine ⟨s.step lb, rfl, ⟨e2, ⟨k + 1, ?_⟩, ?_⟩, ?_⟩
      · rw [e1, hk, Function.iterate_succ_apply']
      · intro h0
        rw [e1]
        have : trim (select s.mask lb) = select s.mask lb := trim_eq_of_length (by omega)
        rw [this, this]
      · rw [if_pos hpos, e1]
        split_ifs with hr
        · omega
        · omega)
    fuel ⟨mask, 1⟩ ⟨h, ⟨0, rfl⟩, fun h => by simp at h⟩ (by
      simp only
      rw [if_pos (by norm_num), select_length _ _ h]
      exact hf)
  have h0 : s.removed = 0 := by simpa using h5
  refine ⟨s, h1, h2, h3, ?_⟩
  intro x hx
  rw [← h4 h0] at hx
  unfold trim at hx
  rw [List.mem_filter] at hx
  exact of_decide_eq_true hx.2

theorem std_const {xs : List ℝ} {c : ℝ} (hne : xs ≠ []) (h : ∀ x ∈ xs, x = c) : mean xs = c ∧ std xs = 0 := by
  have hrep : xs = List.replicate xs.length c := List.eq_replicate_iff.2 ⟨rfl, h⟩
  have hl : (xs.length : ℝ) ≠ 0 := by
    have := List.length_pos_iff.2 hne
    positivity
  have hm : mean xs = c := by
    unfold mean
    rw [hrep]
    simp only [List.sum_replicate, List.length_replicate, nsmul_eq_mul]
    field_simp
  refine ⟨hm, ?_⟩
  unfold std
  have : xs.map (fun x => (x - mean xs) ^ 2) = List.replicate xs.length 0 := by
    rw [List.eq_replicate_iff]
    refine ⟨by simp, ?_⟩
    intro y hy
    obtain ⟨x, hx, rfl⟩ := List.mem_map.1 hy
    rw [hm, h x hx]
    ring
  rw [this]
  simp [mean]

/-- A bin with a single point, or only equal values, loses all of its points: they are not less than zero away from their mean. -/
theorem clip_loses_equal {xs : List ℝ} {c : ℝ} (h : ∀ x ∈ xs, x = c) : trim xs = [] := by
  by_cases hne : xs = []
  · rw [hne]; rfl
  · obtain ⟨h1, h2⟩ := std_const hne h
    unfold trim
    rw [List.filter_eq_nil_iff]
    intro x hx
    rw [h1, h2, h x hx]
    simp

/-! ### All bins -/

theorem sorted_below {pts : List Pt} (hs : pts.Pairwise (fun a b => a.1 ≤ b.1)) (t : ℝ) {j : ℕ} {p : Pt} (hj : pts[j]? = some p) :
    p.1 < t ↔ j < pts.countP (fun q => decide (q.1 < t)) := by
  induction pts generalizing j with
  | nil => simp at hj
  | cons q pts ih =>
    have hall := (List.pairwise_cons.1 hs).1
    have hsub := (List.pairwise_cons.1 hs).2
    cases j with
    | zero =>
      simp only [List.getElem?_cons_zero, Option.some.injEq] at hj
      subst hj
      by_cases hq : q.1 < t
      · simp [List.countP_cons, hq]
      · have h0 : pts.countP (fun q => decide (q.1 < t)) = 0 := by
          rw [List.countP_eq_zero]
          intro y hy
          have := hall y hy
          simp only [decide_eq_true_eq]
          linarith
        simp only [hq, false_iff, List.countP_cons, decide_false, Bool.false_eq_true, if_false, h0]
        omega
    | succ j =>
      rw [List.getElem?_cons_succ] at hj
      have := ih hsub hj
      rw [List.countP_cons]
      by_cases hq : q.1 < t
      · simp only [hq, decide_true, if_true, this]
        omega
      · have hp : ¬ p.1 < t := by
          have := hall p (List.mem_of_getElem? hj)
          linarith
        have h0 : pts.countP (fun q => decide (q.1 < t)) = 0 := by
          rw [List.countP_eq_zero]
          intro y hy
          have := hall y hy
          simp only [decide_eq_true_eq]
          linarith
        simp only [hp, hq, false_iff, decide_false, Bool.false_eq_true, if_false, h0]
        omega

/-- The number of points below the lower edge of bin `i`. -/
noncomputable def below (pts : List Pt) (i : ℕ) : ℕ := pts.countP (fun q => decide (q.1 < edge i))

theorem below_mono {pts : List Pt} (i : ℕ) : below pts i ≤ below pts (i + 1) := by
  unfold below
  apply List.countP_mono_left
  intro q _ h
  simp only [decide_eq_true_eq] at *
  have : edge i ≤ edge (i + 1) := by unfold edge; push_cast; linarith
  linarith

theorem idx_eq {pts : List Pt} (hs : pts.Pairwise (fun a b => a.1 ≤ b.1)) (i : ℕ) :
    (List.range pts.length).filter (fun j => ((pts[j]?).map (inBin i)).getD false) =
      List.range' (below pts i) (below pts (i + 1) - below pts i) := by
  have hle : below pts (i + 1) ≤ pts.length := List.countP_le_length
  have hm := below_mono (pts := pts) i
  have hfilter : (List.range pts.length).filter (fun j => ((pts[j]?).map (inBin i)).getD false) =
      (List.range pts.length).filter (fun j => decide (below pts i ≤ j ∧ j < below pts (i + 1))) := by
    apply List.filter_congr
    intro j hj
    have hj' := List.mem_range.1 hj
    rw [List.getElem?_eq_getElem hj']
    simp only [Option.map_some, Option.getD_some, inBin]
    congr 1
    have a := sorted_below hs (edge i) (List.getElem?_eq_getElem hj')
    have b := sorted_below hs (edge (i + 1)) (List.getElem?_eq_getElem hj')
    unfold below
    rw [← not_lt, a, b, not_lt]
  rw [hfilter]
  have hsplit : List.range pts.length = List.range' 0 (below pts i) ++ (List.range' (below pts i) (below pts (i + 1) - below pts i) ++
      List.range' (below pts (i + 1)) (pts.length - below pts (i + 1))) := by
    rw [List.range_eq_range']
    have e1 : List.range' (below pts i) (below pts (i + 1) - below pts i) ++
        List.range' (below pts (i + 1)) (pts.length - below pts (i + 1)) = List.range' (below pts i) (pts.length - below pts i) := by
      have := List.range'_append_1 (s := below pts i) (m := below pts (i + 1) - below pts i) (n := pts.length - below pts (i + 1))
      rw [show below pts i + (below pts (i + 1) - below pts i) = below pts (i + 1) by omega] at this
      rw [this]
      congr 1
      omega
    rw [e1]
    have := List.range'_append_1 (s := 0) (m := below pts i) (n := pts.length - below pts i)
    rw [Nat.zero_add] at this
    rw [this]
    congr 1
    omega
  rw [hsplit, List.filter_append, List.filter_append]
  have f1 : (List.range' 0 (below pts i)).filter (fun j => decide (below pts i ≤ j ∧ j < below pts (i + 1))) = [] := by
    rw [List.filter_eq_nil_iff]
    intro j hj
    rw [List.mem_range'_1] at hj
    simp only [decide_eq_true_eq, not_and]
    omega
  have f2 : (List.range' (below pts i) (below pts (i + 1) - below pts i)).filter (fun j => decide (below pts i ≤ j ∧ j < below pts (i + 1))) =
      List.range' (below pts i) (below pts (i + 1) - below pts i) := by
    rw [List.filter_eq_self]
    intro j hj
    rw [List.mem_range'_1] at hj
    simp only [decide_eq_true_eq]
    omega
  have f3 : (List.range' (below pts (i + 1)) (pts.length - below pts (i + 1))).filter
      (fun j => decide (below pts i ≤ j ∧ j < below pts (i + 1))) = [] := by
    rw [List.filter_eq_nil_iff]
    intro j hj
    rw [List.mem_range'_1] at hj
    simp only [decide_eq_true_eq, not_and]
    omega
  rw [f1, f2, f3]
  simp

theorem restore_eq {mask above : List Bool} (h : above.length = mask.length) : restore mask above = mask := by
  unfold restore
  apply List.ext_getElem?
  intro i
  simp only [Bool.false_and, Bool.false_eq_true, if_false]
  rw [List.getElem?_zipWith]
  by_cases hi : i < mask.length
  · rw [List.getElem?_eq_getElem hi, List.getElem?_eq_getElem (by omega)]
  · rw [List.getElem?_eq_none (by omega)]

/-- What survives of bin `i`: points of the bin with b below 40, after some rounds of clipping of the log b, all within two
standard deviations of their mean. -/
def Survives (pts kept : List Pt) (i : ℕ) : Prop :=
  kept.Sublist (pts.filter (fun p => inBin i p && decide ((10 : ℝ) ^ p.2 < 40))) ∧
    (∃ k, kept.map Prod.snd = trim^[k] ((pts.filter (fun p => inBin i p && decide ((10 : ℝ) ^ p.2 < 40))).map Prod.snd)) ∧
    ∀ p ∈ kept, |p.2 - mean (kept.map Prod.snd)| < 2 * std (kept.map Prod.snd)

theorem clip_le {lb : List ℝ} {mask : List Bool} {s : Clip} {fuel : ℕ} (h : clip lb mask fuel = some (.ok s)) :
    ∀ i : ℕ, s.mask[i]? = some true → mask[i]? = some true := by
  have := whileRun_inv (fun s : Clip => ∀ i : ℕ, s.mask[i]? = some true → mask[i]? = some true) (by
    intro s s' hs _ hb i hi
    simp only [Option.some.injEq, Except.ok.injEq] at hb
    rw [← hb] at hi
    unfold Clip.step at hi
    simp only [List.getElem?_zipWith] at hi
    apply hs
    revert hi
    cases hm : s.mask[i]? with
    | none => simp
    | some b =>
      cases (keep lb s.mask)[i]? with
      | none => simp
      | some c => simp; tauto) fuel _ _ (fun i hi => hi) h
  exact this.1

theorem select_sublist {α : Type} : ∀ (m m' : List Bool) (a : List α), m.length = a.length → m'.length = a.length →
    (∀ i : ℕ, m[i]? = some true → m'[i]? = some true) → (select m a).Sublist (select m' a) := by
  intro m
  induction m with
  | nil => intro m' a h _ _; rw [select_nil]; exact List.nil_sublist _
  | cons b m ih =>
    intro m' a h h' hle
    cases a with
    | nil => simp at h
    | cons x a =>
      cases m' with
      | nil => simp at h'
      | cons b' m' =>
        have hrec := ih m' a (by simpa using h) (by simpa using h') (fun i hi => by simpa using hle (i + 1) (by simpa using hi))
        rw [select_cons, select_cons]
        have h0 := hle 0
        simp only [List.getElem?_cons_zero, Option.some.injEq] at h0
        cases b
        · cases b'
          · exact hrec
          · exact hrec.cons x
        · rw [h0 rfl]
          exact hrec.cons_cons x

theorem select_slice {α : Type} {m : List Bool} {a : List α} (hl : m.length = a.length) {lo hi : ℕ} (hle : lo ≤ hi)
    (hfalse : ∀ j : ℕ, (j < lo ∨ hi ≤ j) → ∀ b, m[j]? = some b → b = false) : select (slice m lo hi) (slice a lo hi) = select m a := by
  have hsplit : ∀ {γ : Type} (l : List γ), l = l.take lo ++ (slice l lo hi ++ l.drop hi) := by
    intro γ l
    unfold slice
    rw [← List.append_assoc]
    have e : l.take lo ++ (l.take hi).drop lo = l.take hi := by
      have := List.take_append_drop lo (l.take hi)
      rwa [List.take_take, Nat.min_eq_left hle] at this
    rw [e, List.take_append_drop]
  conv_rhs => rw [hsplit m, hsplit a]
  rw [select_append (by simp [hl]), select_append (by simp [slice, hl]), select_all_false (m.take lo), select_all_false (m.drop hi)]
  · simp
  · intro b hb
    obtain ⟨j, hj⟩ := List.mem_iff_getElem?.1 hb
    rw [List.getElem?_drop] at hj
    exact hfalse _ (Or.inr (by omega)) b hj
  · intro b hb
    obtain ⟨j, hj⟩ := List.mem_iff_getElem?.1 hb
    have hjl : j < lo := by
      have := (List.getElem?_eq_some_iff.1 hj).1
      simp at this
      omega
    rw [List.getElem?_take_of_lt hjl] at hj
    exact hfalse _ (Or.inl hjl) b hj

theorem oneBin_spec {pts : List Pt} (hs : pts.Pairwise (fun a b => a.1 ≤ b.1)) {i fuel : ℕ} (hf : pts.length + 1 < fuel)
    (hbin : ∃ p ∈ pts, inBin i p = true) :
    ∃ m kept, oneBin pts fuel i = some (.ok m) ∧ m.length = below pts (i + 1) - below pts i ∧
      select m (slice pts (below pts i) (below pts (i + 1))) = kept ∧ Survives pts kept i := by
  have hml : (startMask i pts).length = (pts.map Prod.snd).length := by simp [startMask]
  obtain ⟨s, h1, h2, ⟨k, hk⟩, h4⟩ := clip_spec (lb := pts.map Prod.snd) hml (fuel := fuel) (by
    have : (startMask i pts).count true ≤ (startMask i pts).length := List.count_le_length
    rw [hml, List.length_map] at this
    omega)
  have hml' : s.mask.length = pts.length := by simpa using h2
  have hle' : below pts (i + 1) ≤ pts.length := List.countP_le_length
  have hm := below_mono (pts := pts) i
  have hlt : below pts i < below pts (i + 1) := by
    obtain ⟨p, hp, hpb⟩ := hbin
    obtain ⟨j, hj, rfl⟩ := List.mem_iff_getElem.1 hp
    unfold inBin at hpb
    rw [decide_eq_true_eq] at hpb
    have a := sorted_below hs (edge i) (List.getElem?_eq_getElem hj)
    have b := sorted_below hs (edge (i + 1)) (List.getElem?_eq_getElem hj)
    unfold below
    have h1 := b.1 hpb.2
    have h2 : ¬ j < pts.countP (fun q => decide (q.1 < edge i)) := by rw [← a]; exact not_lt.2 hpb.1
    omega
  have hmle := clip_le h1
  have hfalse : ∀ j, (j < below pts i ∨ below pts (i + 1) ≤ j) → ∀ b, s.mask[j]? = some b → b = false := by
    intro j hj b hb
    by_contra hc
    rw [Bool.not_eq_false] at hc
    rw [hc] at hb
    have := hmle j hb
    unfold startMask at this
    rw [List.getElem?_map] at this
    have hjl : j < pts.length := by rw [← hml']; exact (List.getElem?_eq_some_iff.1 hb).1
    rw [List.getElem?_eq_getElem hjl] at this
    simp only [Option.map_some, Option.some.injEq, Bool.and_eq_true, inBin, decide_eq_true_eq] at this
    have a := sorted_below hs (edge i) (List.getElem?_eq_getElem hjl)
    have b' := sorted_below hs (edge (i + 1)) (List.getElem?_eq_getElem hjl)
    rcases hj with hj | hj
    · exact absurd this.1.1 (not_le.2 (a.2 hj))
    · have := b'.1 this.1.2
      unfold below at hj
      omega
  have hsel : select (slice s.mask (below pts i) (below pts (i + 1))) (slice pts (below pts i) (below pts (i + 1))) = select s.mask pts :=
    select_slice hml' hm hfalse
  refine ⟨slice s.mask (below pts i) (below pts (i + 1)), select s.mask pts, ?_, ?_, hsel, ?_, ⟨k, ?_⟩, ?_⟩
  · unfold oneBin
    rw [h1]
    simp only [Run.andThen]
    rw [idx_eq hs i, restore_eq (by simp [hml'])]
    have hh : (List.range' (below pts i) (below pts (i + 1) - below pts i)).head? = some (below pts i) := by
      rw [List.head?_range', if_neg (by omega)]
    have hg : (List.range' (below pts i) (below pts (i + 1) - below pts i)).getLast? = some (below pts (i + 1) - 1) := by
      rw [List.getLast?_range', if_neg (by omega)]
      congr 1; omega
    rw [hh, hg]
    simp only
    rw [show below pts (i + 1) - 1 + 1 = below pts (i + 1) by omega]
  · unfold slice; simp [hml']; omega
  · rw [← select_pred]
    exact select_sublist _ _ _ hml' (by simp) (fun j hj => hmle j hj)
  · rw [← select_map, hk, select_map]
    unfold startMask
    rw [select_pred]
  · intro p hp
    rw [select_map] at h4
    exact h4 p.2 (List.mem_map.2 ⟨p, hp, rfl⟩)

theorem oneBin_empty {pts : List Pt} {i fuel : ℕ} (hf : pts.length + 1 < fuel) (hbin : ∀ p ∈ pts, inBin i p = false) :
    oneBin pts fuel i = some (.error .indexError) := by
  have hml : (startMask i pts).length = (pts.map Prod.snd).length := by simp [startMask]
  obtain ⟨s, h1, -⟩ := clip_spec (lb := pts.map Prod.snd) hml (fuel := fuel) (by
    have : (startMask i pts).count true ≤ (startMask i pts).length := List.count_le_length
    rw [hml, List.length_map] at this
    omega)
  have hidx : (List.range pts.length).filter (fun j => ((pts[j]?).map (inBin i)).getD false) = [] := by
    rw [List.filter_eq_nil_iff]
    intro j hj
    have hj' := List.mem_range.1 hj
    rw [List.getElem?_eq_getElem hj']
    simp [hbin _ (List.getElem_mem hj')]
  unfold oneBin
  rw [h1]
  simp only [Run.andThen, hidx]
  rfl

/-- C53, the eight bins: for points sorted by column density, all within the range of the bins, and none of the bins empty, the
points retained are the survivors of each bin, bin after bin. -/
theorem retained_spec {pts : List Pt} (hs : pts.Pairwise (fun a b => a.1 ≤ b.1)) (hr : ∀ p ∈ pts, edge 0 ≤ p.1 ∧ p.1 < edge 8)
    (hbins : ∀ i < 8, ∃ p ∈ pts, inBin i p = true) {fuel : ℕ} (hf : pts.length + 1 < fuel) :
    ∃ kept : ℕ → List Pt, retainedPoints pts fuel = some (.ok ((List.range 8).flatMap kept)) ∧ ∀ i < 8, Survives pts (kept i) i := by
  have hex : ∀ i, ∃ m : List Bool, i < 8 → oneBin pts fuel i = some (.ok m) ∧ m.length = below pts (i + 1) - below pts i ∧
      Survives pts (select m (slice pts (below pts i) (below pts (i + 1)))) i := by
    intro i
    by_cases hi : i < 8
    · obtain ⟨m, kept, a, b, c, d⟩ := oneBin_spec hs hf (hbins i hi)
      exact ⟨m, fun _ => ⟨a, b, by rw [c]; exact d⟩⟩
    · exact ⟨[], fun h => absurd h hi⟩
  choose m hm using hex
  have h0 : below pts 0 = 0 := by
    unfold below
    rw [List.countP_eq_zero]
    intro p hp
    simp only [decide_eq_true_eq, not_lt]
    exact (hr p hp).1
  have h8 : below pts 8 = pts.length := by
    unfold below
    rw [List.countP_eq_length]
    intro p hp
    simp only [decide_eq_true_eq]
    exact (hr p hp).2
  have hall : ∀ n a (ret : List Bool), a + n ≤ 8 → allBins pts fuel (List.range' a n) ret = some (.ok (ret ++ (List.range' a n).flatMap m)) := by
    intro n
    induction n with
    | zero => intro a ret _; simp [allBins]
    | succ n ih =>
      intro a ret h
      rw [List.range'_succ, allBins, (hm a (by omega)).1]
      simp only [Run.andThen]
      rw [ih (a + 1) _ (by omega)]
      simp
  have hlen : ∀ n, n ≤ 8 → ((List.range n).flatMap m).length = below pts n ∧
      select ((List.range n).flatMap m) (pts.take (below pts n)) =
        (List.range n).flatMap (fun i => select (m i) (slice pts (below pts i) (below pts (i + 1)))) := by
    intro n
    induction n with
    | zero => intro _; simp [h0, select_nil]
    | succ n ih =>
      intro hn
      obtain ⟨ih1, ih2⟩ := ih (by omega)
      have hmono := below_mono (pts := pts) n
      have hle : below pts (n + 1) ≤ pts.length := List.countP_le_length
      rw [List.range_succ, List.flatMap_append, List.flatMap_append]
      constructor
      · rw [List.length_append, ih1]
        simp only [List.flatMap_cons, List.flatMap_nil, List.append_nil]
        rw [(hm n (by omega)).2.1]
        omega
      · have e : pts.take (below pts (n + 1)) = pts.take (below pts n) ++ slice pts (below pts n) (below pts (n + 1)) := by
          unfold slice
          have := List.take_append_drop (below pts n) (pts.take (below pts (n + 1)))
          rw [List.take_take, Nat.min_eq_left hmono] at this
          exact this.symm
        rw [e, select_append (by rw [ih1]; simp; omega), ih2]
        simp
  refine ⟨fun i => select (m i) (slice pts (below pts i) (below pts (i + 1))), ?_, fun i hi => (hm i hi).2.2⟩
  unfold retainedPoints
  have e := hall 8 0 [] (by omega)
  rw [← List.range_eq_range', List.nil_append] at e
  rw [e]
  simp only [Run.andThen]
  obtain ⟨l1, l2⟩ := hlen 8 (le_refl _)
  rw [if_pos (by rw [l1, h8])]
  rw [h8, List.take_length] at l2
  rw [l2]

/-- C53 is false if a bin has no points: indexing fails. -/
theorem retained_empty_bin {pts : List Pt} (hs : pts.Pairwise (fun a b => a.1 ≤ b.1)) {i : ℕ} (hi : i < 8) (hbin : ∀ p ∈ pts, inBin i p = false)
    {fuel : ℕ} (hf : pts.length + 1 < fuel) : retainedPoints pts fuel = some (.error .indexError) := by
  have key : ∀ (is : List ℕ) (ret : List Bool), i ∈ is → allBins pts fuel is ret = some (.error .indexError) := by
    intro is
    induction is with
    | nil => intro _ h; simp at h
    | cons a is ih =>
      intro ret h
      rw [allBins]
      by_cases ha : ∃ p ∈ pts, inBin a p = true
      · obtain ⟨m, kept, e1, -⟩ := oneBin_spec hs hf ha
        rw [e1]
        simp only [Run.andThen]
        refine ih _ ?_
        rcases List.mem_cons.1 h with rfl | h
        · obtain ⟨p, hp, hpb⟩ := ha
          rw [hbin p hp] at hpb
          cases hpb
        · exact h
      · rw [oneBin_empty hf]
        · rfl
        · intro p hp
          by_contra hc
          exact ha ⟨p, hp, by simpa using hc⟩
  unfold retainedPoints
  rw [key _ [] (List.mem_range.2 hi)]
  rfl

/-- The points the comment in the code wants switched back on (those above the mean, and those with b over 40) never are: all the
points retained have b below 40. -/
theorem retained_below_40 {pts : List Pt} (hs : pts.Pairwise (fun a b => a.1 ≤ b.1)) (hr : ∀ p ∈ pts, edge 0 ≤ p.1 ∧ p.1 < edge 8)
    (hbins : ∀ i < 8, ∃ p ∈ pts, inBin i p = true) {fuel : ℕ} (hf : pts.length + 1 < fuel) {out : List Pt}
    (h : retainedPoints pts fuel = some (.ok out)) : ∀ p ∈ out, p ∈ pts ∧ (10 : ℝ) ^ p.2 < 40 := by
  obtain ⟨kept, h1, h2⟩ := retained_spec hs hr hbins hf
  rw [h1] at h
  simp only [Option.some.injEq, Except.ok.injEq] at h
  rw [← h]
  intro p hp
  obtain ⟨i, hi, hpi⟩ := List.mem_flatMap.1 hp
  have := (h2 i (List.mem_range.1 hi)).1.subset hpi
  rw [List.mem_filter, Bool.and_eq_true] at this
  exact ⟨this.1, of_decide_eq_true this.2.2⟩

/-! ### The fits -/

/-- The second loop and the whole fit end. -/
theorem finalFit_terminates {M : ℝ × ℝ → List Pt → ℝ × ℝ} {guess : ℝ × ℝ} {pts : List Pt} {outside fuel : ℕ} (hf : pts.length + 1 < fuel) :
    ∃ r, finalFit M guess pts outside fuel = some (.ok r) := by
  obtain ⟨s, h1, -⟩ := whileRun_measure (cond := fun s : Refine => .ok (decide (0 < s.discarded)))
    (body := fun s => some (.ok (s.step M))) (fun _ => True) (fun s => if 0 < s.discarded then s.pts.length + 1 else 0)
    (fun s _ => ⟨_, rfl⟩)
    (by
      intro s _ hc
      have hpos : 0 < s.discarded := by simpa using hc
      refine ⟨s.step M, rfl, trivial, ?_⟩
      rw [if_pos hpos]
      unfold Refine.step
      simp only
      have hle : (s.pts.filter (fun p => decide (residual s.newresult p ≤ sigmaFit s.newresult s.pts))).length ≤ s.pts.length :=
        List.length_filter_le _ _
      split_ifs <;> omega)
    fuel ⟨pts, guess, M guess pts, outside⟩ trivial (by
      simp only
      split_ifs <;> omega)
  unfold finalFit
  rw [h1]
  exact ⟨_, rfl⟩

theorem finalFit_cut_aux {M : ℝ × ℝ → List Pt → ℝ × ℝ} {guess : ℝ × ℝ} {pts : List Pt} {outside fuel : ℕ} (hf : pts.length + 1 < fuel)
    (hout : 0 < outside) :
    ∃ r kept, kept.Sublist pts ∧ (∀ p ∈ kept, residual r p ≤ sigmaFit r kept) ∧
      finalFit M guess pts outside fuel = some (.ok ((10 : ℝ) ^ (M r (kept.filter (fun p => decide (-1 * sigmaFit r kept < residual r p)))).1,
        (M r (kept.filter (fun p => decide (-1 * sigmaFit r kept < residual r p)))).2)) := by
  obtain ⟨s, h1, ⟨h2, h3⟩, h4⟩ := whileRun_measure (cond := fun s : Refine => .ok (decide (0 < s.discarded)))
    (body := fun s => some (.ok (s.step M))) (fun s => s.pts.Sublist pts ∧
      (s.discarded = 0 → ∀ p ∈ s.pts, residual s.result p ≤ sigmaFit s.result s.pts))
    (fun s => if 0 < s.discarded then s.pts.length + 1 else 0)
    (fun s _ => ⟨_, rfl⟩)
    (by
      rintro s ⟨hs, -⟩ hc
      have hpos : 0 < s.discarded := by simpa using hc
      refine ⟨s.step M, rfl, ⟨List.filter_sublist.trans hs, ?_⟩, ?_⟩
      · intro h0
        unfold Refine.step at h0 ⊢
        simp only at h0 ⊢
        have heq : s.pts.filter (fun p => decide (residual s.newresult p ≤ sigmaFit s.newresult s.pts)) = s.pts := by
          apply List.filter_sublist.eq_of_length
          have hle : (s.pts.filter (fun p => decide (residual s.newresult p ≤ sigmaFit s.newresult s.pts))).length ≤ s.pts.length :=
            List.length_filter_le _ _
          omega
        intro p hp
        rw [heq] at hp ⊢
        rw [← heq, List.mem_filter] at hp
        exact of_decide_eq_true hp.2
      · rw [if_pos hpos]
        unfold Refine.step
        simp only
        have hle : (s.pts.filter (fun p => decide (residual s.newresult p ≤ sigmaFit s.newresult s.pts))).length ≤ s.pts.length :=
          List.length_filter_le _ _
        split_ifs <;> omega)
    fuel ⟨pts, guess, M guess pts, outside⟩ ⟨List.Sublist.refl _, fun h => by simp only at h; omega⟩ (by
      simp only
      split_ifs <;> omega)
  have h0 : s.discarded = 0 := by simpa using h4
  refine ⟨s.result, s.pts, h2, h3 h0, ?_⟩
  unfold finalFit
  rw [h1]
  rfl

theorem finalFit_skips_aux {M : ℝ × ℝ → List Pt → ℝ × ℝ} {guess : ℝ × ℝ} {pts : List Pt} {fuel : ℕ} (hf : 0 < fuel) :
    finalFit M guess pts 0 fuel = some (.ok ((10 : ℝ) ^ (M guess (pts.filter (fun p => decide (-1 * sigmaFit guess pts < residual guess p)))).1,
      (M guess (pts.filter (fun p => decide (-1 * sigmaFit guess pts < residual guess p)))).2)) := by
  obtain ⟨k, rfl⟩ : ∃ k, fuel = k + 1 := ⟨fuel - 1, by omega⟩
  unfold finalFit
  simp [whileRun, Run.andThen]

/-- How far a point is above the relation `log b = r.1 + r.2 (log N - 13.6)`. -/
noncomputable def aboveFit (r : ℝ × ℝ) (p : Pt) : ℝ := p.2 - (r.1 + r.2 * (p.1 - 13.6))

/-- The mean absolute deviation of the distances to the relation from their mean. -/
noncomputable def spread (r : ℝ × ℝ) (pts : List Pt) : ℝ :=
  (pts.map (fun p => |aboveFit r p - (pts.map (aboveFit r)).sum / pts.length|)).sum / pts.length

theorem sigmaFit_eq (r : ℝ × ℝ) (pts : List Pt) : sigmaFit r pts = spread r pts := by
  unfold sigmaFit spread
  have : residual r = aboveFit r := rfl
  simp only [List.map_map, List.length_map, this, Function.comp_def]
  congr 2
  apply List.map_congr_left
  intro p _
  rw [abs_sub_comm]
  simp only [mean, List.length_map]

/-- After the loop, no point is more than one sigma above the fit it was cut with — provided some component was outside the
range of column densities and b to begin with. -/
theorem finalFit_cut_partial {M : ℝ × ℝ → List Pt → ℝ × ℝ} {guess : ℝ × ℝ} {pts : List Pt} {outside fuel : ℕ} (hf : pts.length + 1 < fuel)
    (hout : 0 < outside) :
    ∃ r kept, kept.Sublist pts ∧ (∀ p ∈ kept, aboveFit r p ≤ spread r kept) ∧
      finalFit M guess pts outside fuel = some (.ok ((10 : ℝ) ^ (M r (kept.filter (fun p => decide (-spread r kept < aboveFit r p)))).1,
        (M r (kept.filter (fun p => decide (-spread r kept < aboveFit r p)))).2)) := by
  obtain ⟨r, kept, h1, h2, h3⟩ := finalFit_cut_aux (M := M) (guess := guess) hf hout
  simp only [sigmaFit_eq, neg_one_mul] at h2 h3
  exact ⟨r, kept, h1, h2, h3⟩

/-- If every component is within the range, the loop is skipped: points far above the fit are kept, and those below are cut with
the initial guess instead of a fit. -/
theorem finalFit_skips {M : ℝ × ℝ → List Pt → ℝ × ℝ} {guess : ℝ × ℝ} {pts : List Pt} {fuel : ℕ} (hf : 0 < fuel) :
    finalFit M guess pts 0 fuel = some (.ok ((10 : ℝ) ^ (M guess (pts.filter (fun p => decide (-spread guess pts < aboveFit guess p)))).1,
      (M guess (pts.filter (fun p => decide (-spread guess pts < aboveFit guess p)))).2)) := by
  have h := finalFit_skips_aux (M := M) (guess := guess) (pts := pts) hf
  simp only [sigmaFit_eq, neg_one_mul] at h
  exact h

/-- The points taken from the Voigt fits are sorted and within the range of the bins. -/
theorem usedPoints_spec (n_vals b_params : List ℝ) : (usedPoints n_vals b_params).Pairwise (fun a b => a.1 ≤ b.1) ∧
    ∀ p ∈ usedPoints n_vals b_params, edge 0 ≤ p.1 ∧ p.1 < edge 8 := by
  constructor
  · refine (List.pairwise_mergeSort ?_ ?_ _).imp (fun h => of_decide_eq_true h)
    · intro a b c h1 h2
      simp only [decide_eq_true_eq] at *
      linarith
    · intro a b
      simp only [Bool.or_eq_true, decide_eq_true_eq]
      exact le_total _ _
  · intro p hp
    have := (List.mergeSort_perm _ _).subset hp
    obtain ⟨q, hq, rfl⟩ := List.mem_map.1 this
    rw [List.mem_filter, decide_eq_true_eq] at hq
    obtain ⟨-, -, -, h3, h4⟩ := hq
    have h12 : (0 : ℝ) < 10 ^ (12.5 : ℝ) := Real.rpow_pos_of_pos (by norm_num) _
    have hq0 : 0 < q.1 := lt_trans h12 h4
    unfold edge
    simp only
    constructor
    · have := Real.logb_le_logb_of_le (b := 10) (by norm_num) h12 (le_of_lt h4)
      rw [Real.logb_rpow (by norm_num) (by norm_num)] at this
      push_cast
      linarith
    · have := Real.logb_lt_logb (b := 10) (by norm_num) hq0 h3
      rw [Real.logb_rpow (by norm_num) (by norm_num)] at this
      push_cast
      linarith

/-- C53, for all of `get_b_param_dist`: for all column densities and b parameters it ends; with an `IndexError` if one of the
bins has no point in range, and otherwise with a result. -/
theorem b_param_dist_ends {M : ℝ × ℝ → List Pt → ℝ × ℝ} {n_vals b_params : List ℝ} {fuel : ℕ} (hf : n_vals.length + 1 < fuel) :
    (get_b_param_dist M n_vals b_params fuel = some (.error .indexError) ∧ ∃ i < 8, ∀ p ∈ usedPoints n_vals b_params, inBin i p = false) ∨
      ((∃ r, get_b_param_dist M n_vals b_params fuel = some (.ok r)) ∧ ∀ i < 8, ∃ p ∈ usedPoints n_vals b_params, inBin i p = true) := by
  obtain ⟨hs, hr⟩ := usedPoints_spec n_vals b_params
  have hl : (usedPoints n_vals b_params).length ≤ n_vals.length := by
    unfold usedPoints
    rw [List.length_mergeSort, List.length_map]
    refine le_trans (List.length_filter_le _ _) ?_
    rw [List.length_zip]
    omega
  by_cases hb : ∀ i < 8, ∃ p ∈ usedPoints n_vals b_params, inBin i p = true
  · right
    refine ⟨?_, hb⟩
    obtain ⟨kept, h1, h2⟩ := retained_spec hs hr hb (fuel := fuel) (by omega)
    have hkl : ((List.range 8).flatMap kept).length ≤ (usedPoints n_vals b_params).length := by
      unfold retainedPoints Run.andThen at h1
      split at h1
      · cases h1
      · cases h1
      · rename_i ret hret
        dsimp only at h1
        split_ifs at h1 with hlen
        · simp only [Option.some.injEq, Except.ok.injEq] at h1
          rw [← h1, select_length _ _ hlen, ← hlen]
          exact List.count_le_length
        · cases h1
    obtain ⟨r, hr'⟩ := finalFit_terminates (M := M) (guess := (Real.logb 10 18, 0.17)) (pts := (List.range 8).flatMap kept)
      (outside := n_vals.length - (usedPoints n_vals b_params).length) (fuel := fuel) (by omega)
    refine ⟨r, ?_⟩
    unfold get_b_param_dist
    simp only
    rw [h1]
    exact hr'
  · left
    push Not at hb
    obtain ⟨i, hi, hno⟩ := hb
    have hno' : ∀ p ∈ usedPoints n_vals b_params, inBin i p = false := fun p hp => by simpa using hno p hp
    refine ⟨?_, i, hi, hno'⟩
    unfold get_b_param_dist
    simp only
    rw [retained_empty_bin hs hi hno' (by omega)]
    rfl

/-- Eight points, one in the middle of each bin, with `b` = 10 meet the hypotheses of `retained_spec`. -/
example : ∃ pts : List Pt, pts.Pairwise (fun a b => a.1 ≤ b.1) ∧ (∀ p ∈ pts, edge 0 ≤ p.1 ∧ p.1 < edge 8) ∧
    ∀ i < 8, ∃ p ∈ pts, inBin i p = true := by
  refine ⟨(List.range 8).map (fun i => (edge i + 1/8, 1)), ?_, ?_, ?_⟩
  · rw [List.pairwise_map]
    refine List.pairwise_lt_range.imp ?_
    intro a b h
    unfold edge
    have : (a : ℝ) ≤ b := by exact_mod_cast le_of_lt h
    simp only
    linarith
  · intro p hp
    obtain ⟨i, hi, rfl⟩ := List.mem_map.1 hp
    have hi' : (i : ℝ) ≤ 7 := by exact_mod_cast (by have := List.mem_range.1 hi; omega : i ≤ 7)
    have h0 : (0 : ℝ) ≤ i := Nat.cast_nonneg _
    unfold edge
    simp only
    push_cast
    constructor <;> linarith
  · intro i hi
    refine ⟨_, List.mem_map.2 ⟨i, List.mem_range.2 hi, rfl⟩, ?_⟩
    unfold inBin edge
    simp only [decide_eq_true_eq]
    push_cast
    constructor <;> linarith

/-! Witnesses for the other theorems on the width of lines. -/

example := clip_spec (lb := [1, 1.1, 0.9, 3]) (mask := [true, true, false, true]) rfl (fuel := 10) (by decide)

example := clip_loses_equal (xs := [2, 2, 2]) (c := 2) (by simp)

/-- Only one bin is filled, so that the second one is empty. -/
example := retained_empty_bin (pts := [(edge 0, 1), (edge 0 + 1 / 100, 1.2)]) (by simp) (i := 5) (by norm_num)
  (by simp [inBin, edge]; norm_num) (fuel := 10) (by simp)

example := finalFit_terminates (M := fun g _ => g) (guess := (1, 0.5)) (pts := [(14, 1), (15, 1.5)]) (outside := 1) (fuel := 5) (by simp)

example := finalFit_cut_partial (M := fun g _ => g) (guess := (1, 0.5)) (pts := [(14, 1), (15, 1.5)]) (outside := 1) (fuel := 5) (by simp) (by norm_num)

example := finalFit_skips (M := fun g _ => g) (guess := (1, 0.5)) (pts := [(14, 1), (15, 1.5)]) (fuel := 5) (by norm_num)

end Verif.Props
