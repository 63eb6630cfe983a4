import Verif.Lemmas.Session
import Verif.Props.Store
import Verif.Props.FilterTau
import Verif.Props.FluxPower

/-!
C12, statistics: sessions of array queries and flux statistics.

`Harmless c st`: the statistic has no pixel to remove (no `tau_thresh`, or no optical depth above it) and is not a three dimensional
power spectrum with a target mean flux. `Call.answer c call s` is what a call returns in the state `s`; `St.fresh none` is a new object.
-/

namespace Verif.Props.Session
open Verif Verif.Np Verif.Store Verif.Session

/-- The statistic has no reason to change the optical depths. -/
def Harmless (c : Conf) (st : Stat) : Prop :=
  (∀ th, st.tau_thresh = some th → ∀ a, c.env.compute st.elem st.ion st.line true = .ok a → ∀ x ∈ a, x ≤ th) ∧
  (∀ d dk Nmu, st.kind ≠ .power_3D (some d) dk Nmu)

/-- A line for which the history has a statistic that is not harmless. -/
def Harmed (c : Conf) (calls : List Call) (elem : String) (ion line : ℤ) : Prop :=
  ∃ st, Call.stat st ∈ calls ∧ st.elem = elem ∧ st.ion = ion ∧ st.line = line ∧ ¬Harmless c st

/-- The call reads the optical depths of a line. -/
def Reads : Call → String → ℤ → ℤ → Prop
  | .query (.tau e i l false), elem, ion, line => e = elem ∧ i = ion ∧ l = line
  | .query _, _, _, _ => False
  | .stat st, elem, ion, line => st.elem = elem ∧ st.ion = ion ∧ st.line = line

/-- Optical depths come as sightlines of `nbins` pixels. -/
def Shaped (c : Conf) : Prop := ∀ e i l a, c.env.compute e i l true = .ok a → c.nbins ∣ a.length

/-- What the statistic gives for an array, or an exception. -/
noncomputable def outOf (c : Conf) (st : Stat) : Py Arr → Option (Py Out)
  | .error e => some (.error e)
  | .ok a => (evalStat c st (rowsOf c.nbins a)).map Prod.snd

theorem stat_answer (c : Conf) (st : Stat) (s : St) :
    (Call.stat st).answer c s = outOf c st ((Query.tau st.elem st.ion st.line false).answer c.env s) := by
  change (st.run c s).map Prod.fst = outOf c st (valueOf (get_tau c.env st.elem st.ion st.line false s))
  unfold Stat.run
  rcases get_tau c.env st.elem st.ion st.line false s with ⟨res, s1⟩
  cases res with
  | error e => rfl
  | ok r =>
    change Option.map Prod.fst (match evalStat c st (rowsOf c.nbins (s1.read r)) with
      | none => none
      | some (rows', out) => some (out, write s1 r rows'.flatten)) = (evalStat c st (rowsOf c.nbins (s1.read r))).map Prod.snd
    rcases evalStat c st (rowsOf c.nbins (s1.read r)) with - | ⟨rows', out⟩
    · rfl
    · rfl

theorem evalStat_id {c : Conf} {st : Stat} {rows rows' : List (List ℝ)} {out : Py Out}
    (h1 : ∀ th, st.tau_thresh = some th → ∀ r ∈ rows, ∀ x ∈ r, x ≤ th) (h2 : ∀ d dk Nmu, st.kind ≠ .power_3D (some d) dk Nmu)
    (h : evalStat c st rows = some (rows', out)) : rows' = rows := by
  unfold evalStat at h
  split at h
  · cases h
  · cases h; rfl
  · next hf => cases h; exact filterTau_id h1 hf
  · next rows1 _ hf =>
    have := filterTau_id h1 hf
    subst this
    exact evalKind_id h2 h

/-- The part of the store that is right: all but the optical depths of the lines in `H`. -/
def Right (H : Key → Prop) (g : Grp) (k : Key) : Prop := ¬(g = .tau ∧ H k)

theorem right_colden (H : Key → Prop) (k : Key) : Right H .colden k := by rintro ⟨h, -⟩; cases h

theorem mem_rowsOf {n : ℕ} {a : Arr} {r : List ℝ} (hr : r ∈ rowsOf n a) {x : ℝ} (hx : x ∈ r) : x ∈ a := by
  unfold rowsOf at hr
  obtain ⟨i, -, rfl⟩ := List.mem_map.1 hr
  exact List.mem_of_mem_drop (List.mem_of_mem_take hx)

/-- The state after a harmless statistic is that after asking for the optical depths. -/
theorem harmless_state {c : Conf} (hsh : Shaped c) {st : Stat} (hst : Harmless c st) {s : St} {a : Arr}
    (ha : ∀ b, (Query.tau st.elem st.ion st.line false).answer c.env s = .ok b → b = a ∧ c.env.compute st.elem st.ion st.line true = .ok a)
    {out : Py Out} {s' : St} (h : st.run c s = some (out, s')) :
    s' = ((Query.tau st.elem st.ion st.line false).run c.env s).2 := by
  have hq : (Query.tau st.elem st.ion st.line false).run c.env s = get_tau c.env st.elem st.ion st.line false s := rfl
  have ha' : ∀ b, valueOf (get_tau c.env st.elem st.ion st.line false s) = .ok b → _ := ha
  rw [hq]
  unfold Stat.run at h
  revert h ha'
  rcases get_tau c.env st.elem st.ion st.line false s with ⟨res, s1⟩
  intro h ha'
  cases res with
  | error e => cases h; rfl
  | ok r =>
    obtain ⟨h1, h2⟩ := ha' _ rfl
    dsimp only at h
    split at h
    · cases h
    · next rows' out' he =>
      cases h
      have hid := evalStat_id (fun th hth row hrow x hx => hst.1 th hth a h2 x (by
        have := mem_rowsOf hrow hx
        rw [h1] at this
        exact this)) hst.2 he
      rw [hid, rowsOf_flatten (by rw [h1]; exact hsh _ _ _ _ h2), write_same]

/-- One call keeps the store right, off the lines in `H`. -/
theorem call_inv {c : Conf} (hs : Sizes c.env) (hsh : Shaped c) {H : Key → Prop} {call : Call}
    (hH : ∀ st, call = .stat st → H ⟨st.elem, st.ion, some st.line⟩ ∨ Harmless c st) {s s' : St} {out : Py Out}
    (hi : Inv (truth c.env) (Right H) s) (hsep : Sep s) (h : call.run c s = some (out, s')) :
    Inv (truth c.env) (Right H) s' ∧ Sep s' := by
  have hsz := sized_of_queries hs
  cases call with
  | query q =>
    cases h
    exact ⟨(run_spec_of (full := True) (Env.le_refl c.env) (fun _ => rfl) hsz (right_colden H) hi q).1,
      stores_sep (run_stores c.env q s) hsep⟩
  | stat st =>
    set q : Query := .tau st.elem st.ion st.line false with hqd
    obtain ⟨i1, -, i3, -⟩ := run_spec_of (full := True) (Env.le_refl c.env) (fun _ => rfl) hsz (right_colden H) hi q
    have j1 := stores_sep (run_stores c.env q s) hsep
    by_cases hk : H ⟨st.elem, st.ion, some st.line⟩
    · have href := (cached_stores (g := .tau) (k := ⟨st.elem, st.ion, some st.line⟩) (force := false)
        (comp := fun s => (c.env.compute st.elem st.ion st.line true, s)) (fun s => .refl s) s).2
      have hq : q.run c.env s = cached .tau ⟨st.elem, st.ion, some st.line⟩ false
        (fun s => (c.env.compute st.elem st.ion st.line true, s)) s := rfl
      rw [hq] at i1 j1
      change st.run c s = _ at h
      unfold Stat.run get_tau at h
      revert h i1 j1 href
      rcases cached .tau ⟨st.elem, st.ion, some st.line⟩ false (fun s => (c.env.compute st.elem st.ion st.line true, s)) s with ⟨res, s1⟩
      intro i1 j1 href h
      cases res with
      | error e => cases h; exact ⟨i1, j1⟩
      | ok r =>
        dsimp only at h
        split at h
        · cases h
        · next rows' out' he =>
          cases h
          have hent := href r s1 rfl
          obtain ⟨hr, huniq⟩ := j1 .tau _ r hent
          have hentry : ∀ g k, (write s1 r rows'.flatten).entry g k = s1.entry g k := fun _ _ => rfl
          have hlen : (write s1 r rows'.flatten).heap.length = s1.heap.length := by simp [write]
          constructor
          · intro g k r' hr'
            obtain ⟨k1, k2⟩ := i1 g k r' hr'
            refine ⟨by rw [hlen]; exact k1, fun hg => ?_⟩
            obtain ⟨a, a1, a2, a3⟩ := k2 hg
            refine ⟨a, a1, a2, ?_⟩
            have hne : r' ≠ r := by
              rintro rfl
              obtain ⟨rfl, rfl⟩ := huniq g k hr'
              exact hg ⟨rfl, hk⟩
            rw [write_read s1 r r' _ hr, if_neg hne]
            exact a3
          · intro g k r' hr'
            obtain ⟨k1, k2⟩ := j1 g k r' hr'
            exact ⟨by rw [hlen]; exact k1, k2⟩
    · have hst := (hH st rfl).resolve_left hk
      have hgood : Right H q.slot.1 q.slot.2 := fun hh => hk hh.2
      have hans : q.answer c.env s = c.env.compute st.elem st.ion st.line true := by
        rcases i3 hgood with h | ⟨h, -⟩
        · exact h
        · exact absurd trivial h
      have : s' = (q.run c.env s).2 := by
        cases hcc : c.env.compute st.elem st.ion st.line true with
        | error e =>
          exact harmless_state hsh hst (a := []) (fun b hb => by
            have := hans.symm.trans hb
            rw [hcc] at this
            cases this) h
        | ok a =>
          exact harmless_state hsh hst (a := a) (fun b hb => by
            have := hans.symm.trans hb
            rw [hcc] at this
            exact ⟨(Except.ok.inj this).symm, hcc⟩) h
      rw [this]
      exact ⟨i1, j1⟩

theorem history_inv {c : Conf} (hs : Sizes c.env) (hsh : Shaped c) {H : Key → Prop} {calls : List Call}
    (hH : ∀ st, Call.stat st ∈ calls → H ⟨st.elem, st.ion, some st.line⟩ ∨ Harmless c st) {s s' : St}
    (hi : Inv (truth c.env) (Right H) s) (hsep : Sep s) (h : history c calls s = some s') :
    Inv (truth c.env) (Right H) s' ∧ Sep s' := by
  induction calls generalizing s with
  | nil => cases h; exact ⟨hi, hsep⟩
  | cons call calls ih =>
    unfold history at h
    cases hr : call.run c s with
    | none => rw [hr] at h; cases h
    | some x =>
      rw [hr] at h
      obtain ⟨out, s1⟩ := x
      obtain ⟨a, b⟩ := call_inv hs hsh (fun st hst => hH st (by simp [hst])) hi hsep hr
      exact ih (fun st hst => hH st (by simp [hst])) a b h

theorem fresh_sep (d : Option HFile) : Sep (St.fresh d) := by intro g k r h; cases h

/-- In a right store every call gives what it gives on a new object. -/
theorem call_answer {c : Conf} (hs : Sizes c.env) {H : Key → Prop} {s : St} (hi : Inv (truth c.env) (Right H) s) (call : Call)
    (hr : ∀ e i l, Reads call e i l → ¬H ⟨e, i, some l⟩) : call.answer c s = call.answer c (St.fresh none) := by
  have hsz := sized_of_queries hs
  have hq : ∀ q : Query, Right H q.slot.1 q.slot.2 → q.answer c.env s = q.answer c.env (St.fresh none) := by
    intro q hg
    obtain ⟨-, -, i3, -⟩ := run_spec_of (full := True) (Env.le_refl c.env) (fun _ => rfl) hsz (right_colden H) hi q
    rw [fresh_answer]
    rcases i3 hg with h | ⟨h, -⟩
    · exact h
    · exact absurd trivial h
  have hqr : ∀ q : Query, q.answer c.env s = q.answer c.env (St.fresh none) →
      (Call.query q).answer c s = (Call.query q).answer c (St.fresh none) := by
    intro q h
    change some ((q.answer c.env s).map _) = some ((q.answer c.env (St.fresh none)).map _)
    rw [h]
  cases call with
  | stat st =>
    rw [stat_answer, stat_answer, hq (.tau st.elem st.ion st.line false)
      (fun hh => hr st.elem st.ion st.line ⟨rfl, rfl, rfl⟩ hh.2)]
  | query q =>
    apply hqr
    cases q with
    | tau e i l f =>
      cases f with
      | false => exact hq _ (fun hh => hr e i l ⟨rfl, rfl, rfl⟩ hh.2)
      | true =>
        rw [fresh_answer]
        change valueOf (cached _ _ true _ s) = _
        unfold cached
        simp only [if_true]
        change valueOf (match (c.env.compute e i l true, s) with
          | (.ok a, s1) => ((.ok s1.heap.length : Py ℕ), s1.store .tau ⟨e, i, some l⟩ a)
          | (.error e, s1) => (.error e, s1)) = c.env.compute e i l true
        cases c.env.compute e i l true with
        | error e => rfl
        | ok a =>
          change Except.ok ((s.store .tau ⟨e, i, some l⟩ a).read s.heap.length) = _
          rw [store_read, if_pos rfl]
    | col_density e i f => exact hq _ (fun hh => by cases hh.1)
    | observer_tau e i f => exact hq _ (fun hh => by cases hh.1)
    | velocity e i => exact hq _ (fun hh => by cases hh.1)
    | temp e i => exact hq _ (fun hh => by cases hh.1)
    | dens_weighted e i => exact hq _ (fun hh => by cases hh.1)

/-- C12 (partial: not for lines for which a statistic with a threshold below some optical depth, or a three dimensional power spectrum with a
target, was called before; there it fails, `filter_changes_tau` and `power_3d_changes_tau`). After any calls, each call gives what it gives
on a new object. -/
theorem session_independent_partial {c : Conf} (hs : Sizes c.env) (hsh : Shaped c) (disk : Option HFile) {calls : List Call} {s : St}
    (h : history c calls (St.fresh disk) = some s) (call : Call)
    (hr : ∀ e i l, Reads call e i l → ¬Harmed c calls e i l) : call.answer c s = call.answer c (St.fresh none) := by
  have hi := (history_inv hs hsh (H := fun k => ∃ l, k.line = some l ∧ Harmed c calls k.elem k.ion l) (calls := calls)
    (fun st hst => by
      by_cases hh : Harmless c st
      · exact .inr hh
      · exact .inl ⟨st.line, rfl, st, hst, rfl, rfl, rfl, hh⟩) (fresh_inv disk) (fresh_sep disk) h).1
  exact call_answer hs hi call (fun e i l hrd hH => by
    obtain ⟨l', hl, hh⟩ := hH
    obtain rfl := Option.some.inj hl
    exact hr e i l hrd hh)

/-- C12, arrays the caller already holds: a sequence of harmless calls modifies none of them. -/
theorem harmless_keeps_arrays {c : Conf} (hs : Sizes c.env) (hsh : Shaped c) (disk : Option HFile) {before calls : List Call} {s s' : St}
    (hb : ∀ st, Call.stat st ∈ before → Harmless c st) (hc : ∀ st, Call.stat st ∈ calls → Harmless c st)
    (h : history c before (St.fresh disk) = some s) (h' : history c calls s = some s') :
    ∀ r < s.heap.length, s'.read r = s.read r := by
  have hsz := sized_of_queries hs
  have hi := history_inv hs hsh (H := fun _ => False) (fun st hst => .inr (hb st hst)) (fresh_inv disk) (fresh_sep disk) h
  have key : ∀ (calls : List Call) (s s' : St), (∀ st, Call.stat st ∈ calls → Harmless c st) →
      Inv (truth c.env) (Right (fun _ => False)) s → Sep s → history c calls s = some s' → s.heap <+: s'.heap := by
    intro calls
    induction calls with
    | nil => intro s s' _ _ _ h; cases h; exact List.prefix_rfl
    | cons call calls ih =>
      intro s s' hc hi hsep h
      unfold history at h
      cases hr : call.run c s with
      | none => rw [hr] at h; cases h
      | some x =>
        rw [hr] at h
        obtain ⟨out, s1⟩ := x
        obtain ⟨a, b⟩ := call_inv hs hsh (fun st hst => .inr (hc st (by simp [hst]))) hi hsep hr
        refine List.IsPrefix.trans ?_ (ih s1 s' (fun st hst => hc st (by simp [hst])) a b h)
        cases call with
        | query q => cases hr; exact stores_prefix (run_stores c.env q s)
        | stat st =>
          obtain ⟨-, -, i3, -⟩ := run_spec_of (full := True) (Env.le_refl c.env) (fun _ => rfl) hsz (right_colden _) hi
            (.tau st.elem st.ion st.line false)
          have hans : (Query.tau st.elem st.ion st.line false).answer c.env s = c.env.compute st.elem st.ion st.line true := by
            rcases i3 (fun hh => hh.2) with h | ⟨h, -⟩
            · exact h
            · exact absurd trivial h
          have : s1 = ((Query.tau st.elem st.ion st.line false).run c.env s).2 := by
            cases hcc : c.env.compute st.elem st.ion st.line true with
            | error e =>
              exact harmless_state hsh (hc st (by simp)) (a := []) (fun b hb => by
                have := hans.symm.trans hb
                rw [hcc] at this
                cases this) hr
            | ok a =>
              exact harmless_state hsh (hc st (by simp)) (a := a) (fun b hb => by
                have := hans.symm.trans hb
                rw [hcc] at this
                exact ⟨(Except.ok.inj this).symm, hcc⟩) hr
          rw [this]
          exact stores_prefix (run_stores c.env _ s)
  exact fun r hr => read_prefix (key calls s s' hc hi.1 hi.2 h') hr

/-- The state after the first statistic on a new object. -/
theorem first_stat {c : Conf} {st : Stat} {a : Arr} (ha : c.env.compute st.elem st.ion st.line true = .ok a)
    {rows : List (List ℝ)} {out : Py Out} (h : evalStat c st (rowsOf c.nbins a) = some (rows, out)) (hl : 1 < rows.flatten.length) :
    ∃ s, (Call.stat st).run c (St.fresh none) = some (out, s) ∧
      (Query.tau st.elem st.ion st.line false).answer c.env s = .ok rows.flatten := by
  set k : Key := ⟨st.elem, st.ion, some st.line⟩ with hk
  have h1 : get_tau c.env st.elem st.ion st.line false (St.fresh none) = (.ok 0, (St.fresh none).store .tau k a) := by
    change (match (c.env.compute st.elem st.ion st.line true, St.fresh none) with
      | (.ok a, s1) => ((.ok s1.heap.length : Py ℕ), s1.store .tau k a)
      | (.error e, s1) => (.error e, s1)) = _
    rw [ha]; rfl
  have hr : ((St.fresh none).store .tau k a).read 0 = a := rfl
  refine ⟨write ((St.fresh none).store .tau k a) 0 rows.flatten, ?_, ?_⟩
  · change st.run c (St.fresh none) = _
    unfold Stat.run
    rw [h1]
    dsimp only
    rw [hr, h]
  · set s := write ((St.fresh none).store .tau k a) 0 rows.flatten with hs
    have he : (s.dicts .tau).lookup k = some 0 := by
      have := store_entry (St.fresh none) .tau .tau k k a
      rw [if_pos ⟨rfl, rfl⟩] at this
      exact this
    have hread : s.read 0 = rows.flatten := rfl
    change valueOf (cached .tau k false _ s) = _
    unfold cached
    simp only [Bool.false_eq_true, if_false]
    have hre : reallyLoad .tau k s = (.ok (), s) := by
      unfold reallyLoad
      rw [he]
      dsimp only
      rw [hread, if_pos hl]
    rw [hre]
    dsimp only
    rw [he]
    rfl

theorem sum_exp_lt {a a' : List ℝ} (h : List.Forall₂ (fun x x' => x' ≤ x) a a') :
    (a.map (fun t => Real.exp (-t))).sum ≤ (a'.map (fun t => Real.exp (-t))).sum ∧
    (a' ≠ a → (a.map (fun t => Real.exp (-t))).sum < (a'.map (fun t => Real.exp (-t))).sum) := by
  induction h with
  | nil => exact ⟨le_refl _, fun h => absurd rfl h⟩
  | @cons x x' l l' hx _ ih =>
    simp only [List.map_cons, List.sum_cons]
    have h1 : Real.exp (-x) ≤ Real.exp (-x') := Real.exp_le_exp.2 (by linarith)
    refine ⟨add_le_add h1 ih.1, fun hne => ?_⟩
    by_cases he : x' = x
    · subst he
      have := ih.2 (fun h => hne (by rw [h]))
      linarith
    · have h2 : Real.exp (-x) < Real.exp (-x') := Real.exp_lt_exp.2 (by have := lt_of_le_of_ne hx he; linarith)
      linarith [ih.1]

/-- C12, disagreement: a statistic with a threshold changes the optical depths of the object. Whenever some pixel is above the threshold
(and the threshold is one for which the filter works, see `filter_tau_partial`), asking for the optical depths after `get_mean_flux` with the
threshold gives another array than before, and the mean flux without a threshold is now larger. -/
theorem filter_changes_tau {c : Conf} {e : String} {i l : ℤ} {a : Arr} (ha : c.env.compute e i l true = .ok a) (hn : 0 < c.nbins)
    (hd : c.nbins ∣ a.length) (hl : 1 < a.length) {th : ℝ} (hx : ∃ x ∈ a, th < x)
    (hth : FilterTau.effective (rowsOf c.nbins a) + 0.25 ≤ th) (hpos : 0 < th) (hf : c.nbins < c.fuel) :
    ∃ out s a', (Call.stat ⟨e, i, l, some th, .mean_flux⟩).run c (St.fresh none) = some (.ok out, s) ∧
      (Query.tau e i l false).answer c.env (St.fresh none) = .ok a ∧ (Query.tau e i l false).answer c.env s = .ok a' ∧ a' ≠ a ∧
      ∃ m m', (Call.stat ⟨e, i, l, none, .mean_flux⟩).answer c (St.fresh none) = some (.ok (.vals [[m]])) ∧
        (Call.stat ⟨e, i, l, none, .mean_flux⟩).answer c s = some (.ok (.vals [[m']])) ∧ m < m' := by
  have hne : rowsOf c.nbins a ≠ [] := by
    intro h0
    have := rowsOf_flatten hd
    rw [h0] at this
    rw [← this] at hl
    simp at hl
  obtain ⟨tau', t1, t2⟩ := filter_tau_partial hn hne (fun r hr => rowsOf_row a hr) hth hpos hf
  have hle : List.Forall₂ (fun x x' => x' ≤ x) (rowsOf c.nbins a).flatten tau'.flatten := by
    have key : ∀ (L L' : List (List ℝ)), List.Forall₂ (fun r r' => Filtered r r' (FilterTau.effective (rowsOf c.nbins a)) th
        (FilterTau.effective (rowsOf c.nbins a) + 0.25) ∧ (∀ x ∈ r', x ≤ th) ∧ ((∀ x ∈ r, x ≤ th) → r' = r)) L L' →
        List.Forall₂ (fun x x' => x' ≤ x) L.flatten L'.flatten := by
      intro L L' h
      induction h with
      | nil => exact .nil
      | @cons r r' L L' hr _ ih =>
        rw [List.flatten_cons, List.flatten_cons]
        refine List.rel_append ?_ ih
        rw [List.forall₂_iff_get]
        refine ⟨hr.1.length.symm, fun p h1 h2 => ?_⟩
        exact filtered_le hr.1 (by norm_num) p _ _ (List.getElem?_eq_getElem h1) (List.getElem?_eq_getElem h2)
    exact key _ _ t2
  rw [rowsOf_flatten hd] at hle
  have hlen : tau'.flatten.length = a.length := hle.length_eq.symm
  have hall : ∀ x ∈ tau'.flatten, x ≤ th := by
    intro x hx
    obtain ⟨r', hr', hxr⟩ := List.mem_flatten.1 hx
    obtain ⟨n, hn', rfl⟩ := List.mem_iff_getElem.1 hr'
    have := (List.forall₂_iff_get.1 t2).2 n (by rw [t2.length_eq]; exact hn') hn'
    exact this.2.1 x hxr
  have hne' : tau'.flatten ≠ a := by
    intro h0
    obtain ⟨x, hx1, hx2⟩ := hx
    rw [← h0] at hx1
    linarith [hall x hx1]
  have hev : evalStat c ⟨e, i, l, some th, .mean_flux⟩ (rowsOf c.nbins a) =
      some (tau', .ok (.vals [[mean (tau'.flatten.map (fun t => Real.exp (-t)))]])) := by
    unfold evalStat
    dsimp only
    rw [t1]
    rfl
  obtain ⟨s, s1, s2⟩ := first_stat (st := ⟨e, i, l, some th, .mean_flux⟩) ha hev (by rw [hlen]; exact hl)
  have hmf : ∀ b, c.nbins ∣ b.length → outOf c ⟨e, i, l, none, .mean_flux⟩ (.ok b) =
      some (.ok (.vals [[mean (b.map (fun t => Real.exp (-t)))]])) := by
    intro b hb
    change some (Except.ok (Out.vals [[mean ((rowsOf c.nbins b).flatten.map (fun t => Real.exp (-t)))]])) = _
    rw [rowsOf_flatten hb]
  have hfr : (Query.tau e i l false).answer c.env (St.fresh none) = .ok a := by rw [fresh_answer]; exact ha
  refine ⟨_, s, tau'.flatten, s1, hfr, s2, hne', mean (a.map (fun t => Real.exp (-t))),
    mean (tau'.flatten.map (fun t => Real.exp (-t))), ?_, ?_, ?_⟩
  · rw [stat_answer]
    change outOf c _ ((Query.tau e i l false).answer c.env (St.fresh none)) = _
    rw [hfr, hmf a hd]
  · rw [stat_answer]
    change outOf c _ ((Query.tau e i l false).answer c.env s) = _
    rw [s2, hmf _ (by rw [hlen]; exact hd)]
  · unfold mean
    rw [List.length_map, List.length_map, hlen]
    have : (0 : ℝ) < a.length := by exact_mod_cast (by omega : 0 < a.length)
    exact div_lt_div_of_pos_right ((sum_exp_lt hle).2 hne') this

/-- C12, disagreement: the three dimensional power spectrum with a target mean flux multiplies the optical depths of the object by the
scale. -/
theorem power_3d_changes_tau {c : Conf} {e : String} {i l : ℤ} {a : Arr} (ha : c.env.compute e i l true = .ok a)
    (hd : c.nbins ∣ a.length) (hl : 1 < a.length) {d scale : ℝ} (hsc : MeanFlux.mean_flux a d 1e-5 1e30 c.fuel = some (some scale))
    (h1 : scale ≠ 1) (hx : ∃ x ∈ a, x ≠ 0) (dk : Option ℝ) (Nmu : ℕ) :
    ∃ out s, (Call.stat ⟨e, i, l, none, .power_3D (some d) dk Nmu⟩).run c (St.fresh none) = some (out, s) ∧
      (Query.tau e i l false).answer c.env (St.fresh none) = .ok a ∧
      (Query.tau e i l false).answer c.env s = .ok (a.map (· * scale)) ∧ a.map (· * scale) ≠ a := by
  set st : Stat := ⟨e, i, l, none, .power_3D (some d) dk Nmu⟩ with hst
  set rows' := (rowsOf c.nbins a).map (fun r => r.map (· * scale)) with hrows
  have hfl : rows'.flatten = a.map (· * scale) := by
    rw [hrows, ← List.map_flatten, rowsOf_flatten hd]
  have hev : ∃ out, evalStat c st (rowsOf c.nbins a) = some (rows', out) := by
    unfold evalStat FilterTau.filterTau
    change ∃ out, (FluxPower3D.flux_power_3d c.fft (rowsOf c.nbins a) c.nbins c.box (some d) dk Nmu c.fuel).map _ = _
    unfold FluxPower3D.flux_power_3d
    dsimp only
    rw [rowsOf_flatten hd, hsc]
    exact ⟨_, rfl⟩
  obtain ⟨out, hev⟩ := hev
  obtain ⟨s, s1, s2⟩ := first_stat (st := st) ha hev (by rw [hfl, List.length_map]; exact hl)
  refine ⟨out, s, s1, by rw [fresh_answer]; exact ha, by rw [← hfl]; exact s2, ?_⟩
  intro h0
  obtain ⟨x, hx1, hx2⟩ := hx
  obtain ⟨p, hp, rfl⟩ := List.mem_iff_getElem.1 hx1
  have h3 : (a.map (· * scale))[p]? = a[p]? := by rw [h0]
  rw [List.getElem?_map, List.getElem?_eq_getElem hp] at h3
  have h4 : a[p] * scale = a[p] := Option.some.inj h3
  apply h1
  have h5 : a[p] * (scale - 1) = 0 := by linarith
  rcases mul_eq_zero.1 h5 with h6 | h6
  · exact absurd h6 hx2
  · linarith

/-- C12: asking again with `force_recompute` gives the optical depths of a new object, whatever has been done. -/
theorem recompute_restores {c : Conf} (e : String) (i l : ℤ) (s : St) :
    (Query.tau e i l true).answer c.env s = (Query.tau e i l true).answer c.env (St.fresh none) := by
  rw [fresh_answer]
  change valueOf (match (c.env.compute e i l true, s) with
    | (.ok a, s1) => ((.ok s1.heap.length : Py ℕ), s1.store .tau ⟨e, i, some l⟩ a)
    | (.error e, s1) => (.error e, s1)) = c.env.compute e i l true
  cases c.env.compute e i l true with
  | error e => rfl
  | ok a =>
    change Except.ok ((s.store .tau ⟨e, i, some l⟩ a).read s.heap.length) = _
    rw [store_read, if_pos rfl]

/-- C22: what the flux power of a line returns, in any state, when the optical depths of the line are `a`. A target mean flux together with
the window is refused exactly when there is a spectrograph whose window is to be divided out; in every other case the wave numbers
`2 π k / vmax` and the power for `k` from 1 to half the number of pixels come back, provided the scaling to the target ends in a number. -/
theorem power_call {c : Conf} (hn : 0 < c.nbins) (e : String) (i l : ℤ) (desired : Option ℝ) (window : Bool) {s : St} {a : Arr}
    (ha : (Query.tau e i l false).answer c.env s = .ok a) :
    ((Call.stat ⟨e, i, l, none, .power_1D desired window⟩).answer c s = some (.error .valueError) ↔
      (∃ d, desired = some d) ∧ window = true ∧ 0 < c.spec_res) ∧
    ∀ scale, (desired = none ∧ scale = 1 ∨ ∃ d, desired = some d ∧ (window = true → c.spec_res ≤ 0) ∧
        MeanFlux.mean_flux (rowsOf c.nbins a).flatten d 1e-5 1e30 c.fuel = some (some scale)) →
      ∃ ks ps, (Call.stat ⟨e, i, l, none, .power_1D desired window⟩).answer c s = some (.ok (.vals [ks, ps])) ∧
        ks.length = c.nbins / 2 ∧ ps.length = c.nbins / 2 ∧ ∀ k < c.nbins / 2, ks[k]? = some (2 * Real.pi * (k + 1 : ℕ) / c.vmax) ∧
          ps[k]? = some (FluxStats.flux_power_windowed (rowsOf c.nbins a) c.nbins c.vmax c.spec_res scale desired window (k + 1)) := by
  have key : (Call.stat ⟨e, i, l, none, .power_1D desired window⟩).answer c s =
      (evalKind c (.power_1D desired window) (rowsOf c.nbins a)).map Prod.snd := by
    rw [stat_answer]
    change outOf c _ ((Query.tau e i l false).answer c.env s) = _
    rw [ha]
    rfl
  rw [key]
  unfold evalKind
  dsimp only
  constructor
  · by_cases hc : desired.isSome ∧ window = true ∧ c.spec_res > 0
    · rw [if_pos hc]
      exact iff_of_true rfl ⟨Option.isSome_iff_exists.1 hc.1, hc.2⟩
    · rw [if_neg hc]
      refine iff_of_false ?_ (fun h => hc ⟨Option.isSome_iff_exists.2 h.1, h.2⟩)
      rcases scaleFor c.fuel (rowsOf c.nbins a) desired with - | - | scale <;> simp
  · intro scale hscale
    have hc : ¬(desired.isSome ∧ window = true ∧ c.spec_res > 0) := by
      rintro ⟨h1, h2, h3⟩
      rcases hscale with ⟨rfl, -⟩ | ⟨d, -, h, -⟩
      · cases h1
      · exact absurd h3 (not_lt.2 (h h2))
    have hs : scaleFor c.fuel (rowsOf c.nbins a) desired = some (some scale) := by
      rcases hscale with ⟨rfl, rfl⟩ | ⟨d, rfl, -, h⟩
      · rfl
      · exact h
    rw [if_neg hc, hs]
    refine ⟨_, _, rfl, by simp, by simp, fun k hk => ⟨?_, ?_⟩⟩
    · rw [List.getElem?_map, List.getElem?_range hk, Option.map_some, kbin_eq hn]
    · rw [List.getElem?_map, List.getElem?_range hk, Option.map_some]

/-- A configuration of one sightline of two pixels. -/
noncomputable def exConf (env : Env) : Conf where
  env := env
  nbins := 2
  vmax := 100
  spec_res := 0
  box := 10
  fft _ _ _ _ _ := .error .valueError
  fuel := 10

theorem exConf_shaped : Shaped (exConf exEnv) := by
  intro e i l a h
  change (if e = "H" ∧ i = 1 then (Except.ok [1, 2] : Py Arr) else .error .keyError) = _ at h
  split at h
  · obtain rfl := Except.ok.inj h
    exact ⟨1, rfl⟩
  · cases h

/-- Witness: a history with a statistic that harms the line 1215 (its threshold is below an optical depth), after which the mean flux in the
line 1025 is that of a new object. -/
example (s : St) (h : history (exConf exEnv) [.stat ⟨"H", 1, 1215, some 1.5, .mean_flux⟩, .query (.temp "H" 1)] (St.fresh none) = some s) :
    (Call.stat ⟨"H", 1, 1025, none, .mean_flux⟩).answer (exConf exEnv) s =
      (Call.stat ⟨"H", 1, 1025, none, .mean_flux⟩).answer (exConf exEnv) (St.fresh none) := by
  refine session_independent_partial exEnv_sizes exConf_shaped none h _ ?_
  rintro e i l ⟨rfl, rfl, rfl⟩ ⟨st, h1, -, -, h4, -⟩
  simp only [List.mem_cons, Call.stat.injEq, reduceCtorEq, List.not_mem_nil, or_false] at h1
  subst h1
  cases h4

/-- Optical depths `a` for neutral hydrogen. -/
noncomputable def envOf (a : Arr) : Env := { exEnv with compute := fun e i _ _ => if e = "H" ∧ i = 1 then .ok a else .error .keyError }

/-- Witness: optical depths 0 and 10 and the threshold 2. -/
example : ∃ out s a', (Call.stat ⟨"H", 1, 1215, some 2, .mean_flux⟩).run (exConf (envOf [0, 10])) (St.fresh none) = some (.ok out, s) ∧
    (Query.tau "H" 1 1215 false).answer (envOf [0, 10]) s = .ok a' ∧ a' ≠ [0, 10] := by
  have hrows : rowsOf 2 [0, 10] = [[0, 10]] := by simp [rowsOf]
  obtain ⟨out, s, a', h1, -, h3, h4, -⟩ := filter_changes_tau (c := exConf (envOf [0, 10])) (e := "H") (i := 1) (l := 1215) (a := [0, 10])
    (by simp [exConf, envOf]) (by simp [exConf]) (by simp [exConf]) (by simp) (th := 2) ⟨10, by simp, by norm_num⟩ (by
      change FilterTau.effective (rowsOf 2 [0, 10]) + 0.25 ≤ 2
      rw [hrows]
      unfold FilterTau.effective mean
      simp only [List.flatten_cons, List.flatten_nil, List.append_nil, List.map_cons, List.map_nil, List.sum_cons, List.sum_nil,
        List.length_cons, List.length_nil, neg_zero, Real.exp_zero]
      have h2 : Real.log (1 / 2) ≤ Real.log ((1 + (Real.exp (-10) + 0)) / ((0 + 1 + 1 : ℕ) : ℝ)) := by
        apply Real.log_le_log (by norm_num)
        have := Real.exp_pos (-10)
        push_cast
        linarith
      have h3 : Real.log (1 / 2) = -Real.log 2 := by rw [one_div, Real.log_inv]
      have h4 := Real.log_le_sub_one_of_pos (x := 2) (by norm_num)
      norm_num at h2 h3 h4 ⊢
      linarith) (by norm_num) (by simp [exConf])
  exact ⟨out, s, a', h1, h3, h4⟩

/-- Witness: both optical depths are 1, and the target is slightly below `exp(-1)`. -/
example (dk : Option ℝ) (Nmu : ℕ) : ∃ out s, (Call.stat ⟨"H", 1, 1215, none, .power_3D (some (Real.exp (-1) * (1 - 1e-6))) dk Nmu⟩).run
      (exConf (envOf [1, 1])) (St.fresh none) = some (out, s) ∧
    (Query.tau "H" 1 1215 false).answer (envOf [1, 1]) s = .ok [1 + 1e-6, 1 + 1e-6] := by
  have hsc : MeanFlux.mean_flux [1, 1] (Real.exp (-1) * (1 - 1e-6)) 1e-5 1e30 10 = some (some (1 + 1e-6)) := by
    have hu : MeanFlux.used [1, 1] 1e30 = [1, 1] := by
      unfold MeanFlux.used
      norm_num
    have hden : MeanFlux.tauFluxSum [1, 1] 1 = 2 * Real.exp (-1) := by simp [MeanFlux.tauFluxSum]; ring
    have hnum : MeanFlux.fluxSum [1, 1] 1 = 2 * Real.exp (-1) := by simp [MeanFlux.fluxSum]; ring
    have hE := Real.exp_pos (-1)
    have hstep : MeanFlux.newScale [1, 1] (Real.exp (-1) * (1 - 1e-6)) 1e30 1 = some (1 + 1e-6) := by
      unfold MeanFlux.newScale
      dsimp only
      rw [hu, hden, hnum, if_neg (by positivity)]
      have hq : 1 + (2 * Real.exp (-1) - Real.exp (-1) * (1 - 1e-6) * (([1, 1] : List ℝ).length : ℝ)) / (2 * Real.exp (-1)) = 1 + 1e-6 := by
        simp only [List.length_cons, List.length_nil]
        push_cast
        field_simp
        ring
      rw [hq, if_neg (by norm_num)]
    unfold MeanFlux.mean_flux MeanFlux.get_mean_flux_scale
    rw [if_neg (by simp)]
    unfold MeanFlux.loop
    rw [hstep]
    dsimp only
    rw [if_neg (by norm_num [abs_of_pos])]
  obtain ⟨out, s, h1, -, h3, -⟩ := power_3d_changes_tau (c := exConf (envOf [1, 1])) (e := "H") (i := 1) (l := 1215) (a := [1, 1])
    (by simp [exConf, envOf]) (by simp [exConf]) (by simp) hsc (by norm_num) ⟨1, by simp, by norm_num⟩ dk Nmu
  refine ⟨out, s, h1, ?_⟩
  rw [← show ([1, 1] : List ℝ).map (· * (1 + 1e-6)) = [1 + 1e-6, 1 + 1e-6] from by norm_num]
  exact h3

/-- The flux power of the example for a spectrograph whose window is not known: with and without a target. -/
example : (∃ ks ps, (Call.stat ⟨"H", 1, 1215, none, .power_1D none true⟩).answer { exConf exEnv with spec_res := 0 } (St.fresh none) =
      some (.ok (.vals [ks, ps])) ∧ ks.length = 1) ∧
    (Call.stat ⟨"H", 1, 1215, none, .power_1D (some 0.7) true⟩).answer { exConf exEnv with spec_res := 0 } (St.fresh none) ≠ some (.error .valueError) ∧
    (Call.stat ⟨"H", 1, 1215, none, .power_1D (some 0.7) true⟩).answer { exConf exEnv with spec_res := 8 } (St.fresh none) = some (.error .valueError) := by
  have ha : (Query.tau "H" 1 1215 false).answer exEnv (St.fresh none) = .ok [1, 2] := by
    rw [fresh_answer]
    rfl
  refine ⟨?_, fun h => ?_, ?_⟩
  · obtain ⟨ks, ps, h, hl, -⟩ := (power_call (c := { exConf exEnv with spec_res := 0 }) (by norm_num [exConf]) "H" 1 1215 none true ha).2 1 (Or.inl ⟨rfl, rfl⟩)
    exact ⟨ks, ps, h, hl⟩
  · exact lt_irrefl _ ((power_call (c := { exConf exEnv with spec_res := 0 }) (by norm_num [exConf]) "H" 1 1215 (some 0.7) true ha).1.1 h).2.2
  · exact (power_call (c := { exConf exEnv with spec_res := 8 }) (by norm_num [exConf]) "H" 1 1215 (some 0.7) true ha).1.2 ⟨⟨_, rfl⟩, rfl, by norm_num⟩

/-- A mean flux without a threshold leaves the arrays of earlier queries as they are. -/
example (s s' : St) (h : history (exConf exEnv) [.query (.tau "H" 1 1215 false), .query (.temp "H" 1)] (St.fresh none) = some s)
    (h' : history (exConf exEnv) [.stat ⟨"H", 1, 1215, none, .mean_flux⟩] s = some s') : ∀ r < s.heap.length, s'.read r = s.read r :=
  harmless_keeps_arrays (by exact exEnv_sizes) exConf_shaped none (by simp) (by simp [Harmless]) h h'

end Verif.Props.Session
