import Verif.Model.Session
import Verif.Lemmas.Store
import Verif.Lemmas.Numpy

/-! Helper lemmas for sessions. -/

namespace Verif.Session
open Verif Verif.Np Verif.Store

/-- `s'` comes from `s` by putting new arrays into the dictionaries. -/
inductive Stores : St → St → Prop
  | refl (s : St) : Stores s s
  | step {s s' : St} (h : Stores s s') (g : Grp) (k : Key) (a : Arr) : Stores s (s'.store g k a)

theorem Stores.trans {s s' s'' : St} (h : Stores s s') (h' : Stores s' s'') : Stores s s'' := by
  induction h' with
  | refl => exact h
  | step _ g k a ih => exact ih.step g k a

theorem reallyLoad_stores (g : Grp) (k : Key) (s : St) : Stores s (reallyLoad g k s).2 := by
  unfold reallyLoad
  cases (s.dicts g).lookup k with
  | none => exact .refl s
  | some r =>
    dsimp only
    split
    · exact .refl s
    · cases s.disk with
      | none => exact .refl s
      | some f =>
        dsimp only
        cases (f g).lookup (path k) with
        | none => exact .refl s
        | some a => exact (Stores.refl s).step g k a

theorem cached_stores {g : Grp} {k : Key} {force : Bool} {comp : St → Py Arr × St} (hc : ∀ s, Stores s (comp s).2) (s : St) :
    Stores s (cached g k force comp s).2 ∧
    ∀ r s', cached g k force comp s = (.ok r, s') → s'.entry g k = some r := by
  have hre : ∀ s1, Stores s s1 →
      let x : Py ℕ × St := match comp s1 with
        | (.ok a, s2) => (.ok s2.heap.length, s2.store g k a)
        | (.error e, s2) => (.error e, s2)
      Stores s x.2 ∧ ∀ r s', x = (.ok r, s') → s'.entry g k = some r := by
    intro s1 h1
    have := hc s1
    revert this
    rcases comp s1 with ⟨ra, s2⟩
    intro h2
    cases ra with
    | error e => exact ⟨h1.trans h2, fun r s' h => by cases h⟩
    | ok a =>
      refine ⟨(h1.trans h2).step g k a, fun r s' h => ?_⟩
      cases h
      rw [store_entry, if_pos ⟨rfl, rfl⟩]
  unfold cached
  cases force with
  | true => exact hre s (.refl s)
  | false =>
    simp only [Bool.false_eq_true, if_false]
    have hl := reallyLoad_stores g k s
    revert hl
    rcases reallyLoad g k s with ⟨res, s1⟩
    intro hl
    cases res with
    | ok u =>
      dsimp only
      cases hr : (s1.dicts g).lookup k with
      | none => exact hre s1 hl
      | some r =>
        refine ⟨hl, fun r' s' h => ?_⟩
        cases h
        exact hr
    | error e => cases e <;> first
        | exact hre s1 hl
        | exact ⟨hl, fun r s' h => by cases h⟩

theorem massWeighted_stores (env : Env) (g : Grp) (e : String) (i : ℤ) (s : St) : Stores s (massWeighted env g e i s).2 := by
  unfold massWeighted
  cases env.weighted g e i with
  | error x => exact .refl s
  | ok num =>
    have h := (cached_stores (g := .colden) (k := ⟨e, i, none⟩) (force := false)
      (comp := fun s => (env.compute e i 0 false, s)) (fun s => .refl s) s).1
    unfold get_density get_col_density
    revert h
    rcases cached .colden ⟨e, i, none⟩ false (fun s => (env.compute e i 0 false, s)) s with ⟨res, s1⟩
    intro h
    cases res with
    | error x => exact h
    | ok r => exact h

theorem run_stores (env : Env) (q : Query) (s : St) : Stores s (q.run env s).2 := by
  cases q with
  | col_density e i f => exact (cached_stores (fun s => .refl s) s).1
  | tau e i l f => exact (cached_stores (fun s => .refl s) s).1
  | observer_tau e i f => exact (cached_stores (fun s => .refl s) s).1
  | velocity e i => exact (cached_stores (massWeighted_stores env _ e i) s).1
  | temp e i => exact (cached_stores (massWeighted_stores env _ e i) s).1
  | dens_weighted e i => exact (cached_stores (massWeighted_stores env _ e i) s).1

/-- No two entries of the dictionaries share an array. -/
def Sep (s : St) : Prop :=
  ∀ g k r, s.entry g k = some r → r < s.heap.length ∧ ∀ g' k', s.entry g' k' = some r → g' = g ∧ k' = k

theorem stores_sep {s s' : St} (h : Stores s s') (hs : Sep s) : Sep s' := by
  induction h with
  | refl => exact hs
  | @step s' _ g k a ih =>
    intro g1 k1 r hr
    have hlen : (s'.store g k a).heap.length = s'.heap.length + 1 := by simp [St.store]
    rw [store_entry] at hr
    split at hr
    · next h1 =>
      obtain rfl := Option.some.inj hr
      refine ⟨by omega, fun g2 k2 h2 => ?_⟩
      rw [store_entry] at h2
      split at h2
      · next h3 => exact ⟨h3.1.trans h1.1.symm, h3.2.trans h1.2.symm⟩
      · have := (ih g2 k2 _ h2).1
        omega
    · obtain ⟨h1, h2⟩ := ih g1 k1 r hr
      refine ⟨by omega, fun g2 k2 h3 => ?_⟩
      rw [store_entry] at h3
      split at h3
      · have := Option.some.inj h3
        omega
      · exact h2 g2 k2 h3

theorem stores_prefix {s s' : St} (h : Stores s s') : s.heap <+: s'.heap := by
  induction h with
  | refl => exact List.prefix_rfl
  | step _ g k a ih => exact ih.trans ⟨[a], rfl⟩

theorem write_read (s : St) (r r' : ℕ) (a : Arr) (hr : r < s.heap.length) :
    (write s r a).read r' = if r' = r then a else s.read r' := by
  unfold write St.read
  dsimp only
  rw [List.getElem?_set]
  by_cases h : r' = r
  · subst h
    rw [if_pos rfl, if_pos rfl, if_pos hr]; rfl
  · rw [if_neg (Ne.symm h), if_neg h]

theorem write_same (s : St) (r : ℕ) : write s r (s.read r) = s := by
  unfold write
  cases s with
  | mk heap dicts disk =>
    simp only [St.mk.injEq, and_self, and_true]
    unfold St.read
    dsimp only
    by_cases hr : r < heap.length
    · rw [List.getElem?_eq_getElem hr]
      exact List.set_getElem_self hr
    · exact List.set_eq_of_length_le (by omega)

theorem rowsOf_length (n : ℕ) (a : Arr) : (rowsOf n a).length = a.length / n := by simp [rowsOf]

theorem rowsOf_row {n : ℕ} (a : Arr) {row : List ℝ} (h : row ∈ rowsOf n a) : row.length = n := by
  unfold rowsOf at h
  obtain ⟨i, hi, rfl⟩ := List.mem_map.1 h
  have hi' := List.mem_range.1 hi
  have h1 : (i + 1) * n ≤ a.length / n * n := Nat.mul_le_mul_right n hi'
  have h2 := Nat.div_mul_le_self a.length n
  rw [List.length_take, List.length_drop]
  rw [Nat.add_mul, Nat.one_mul] at h1
  omega

theorem rowsOf_flatten {n : ℕ} {a : Arr} (h : n ∣ a.length) : (rowsOf n a).flatten = a := by
  obtain ⟨m, hm⟩ := h
  rcases Nat.eq_zero_or_pos n with rfl | hn
  · simp only [Nat.zero_mul, List.length_eq_zero_iff] at hm
    subst hm
    simp [rowsOf]
  · unfold rowsOf
    rw [hm, Nat.mul_div_cancel_left m hn]
    have key : ∀ m (a : Arr), a.length = n * m → ((List.range m).map (fun i => (a.drop (i * n)).take n)).flatten = a := by
      intro m
      induction m with
      | zero => intro a ha; simp only [Nat.mul_zero, List.length_eq_zero_iff] at ha; subst ha; rfl
      | succ m ih =>
        intro a ha
        rw [List.range_succ_eq_map, List.map_cons, List.flatten_cons, List.map_map]
        have h1 := ih (a.drop n) (by rw [List.length_drop, ha, Nat.mul_succ]; omega)
        have h2 : (fun i => ((a.drop n).drop (i * n)).take n) = ((fun i => (a.drop (i * n)).take n) ∘ Nat.succ) := by
          funext i
          simp only [Function.comp, List.drop_drop, Nat.succ_mul]
          rw [Nat.add_comm]
        rw [← h2, h1, Nat.zero_mul, List.drop_zero, List.take_append_drop]
    exact key m a hm

/-- Without a pixel above the threshold the filter changes nothing. -/
theorem filterRows_id {n : ℕ} {taueff th : ℝ} {fuel : ℕ} {rows rows' : List (List ℝ)} (h : ∀ r ∈ rows, ∀ x ∈ r, x ≤ th)
    (hr : FilterTau.filterRows n taueff th fuel rows = some (.ok rows')) : rows' = rows := by
  induction rows generalizing rows' with
  | nil => cases hr; rfl
  | cons row rows ih =>
    unfold FilterTau.filterRows at hr
    cases hm : maxOf row with
    | error e => rw [hm] at hr; cases hr
    | ok m =>
      have hne : row ≠ [] := by rintro rfl; cases hm
      obtain ⟨m', hm', hmem, -⟩ := maxOf_spec hne
      rw [hm] at hm'
      obtain rfl := Except.ok.inj hm'
      rw [hm] at hr
      change Run.andThen (if m > th then _ else _) _ = _ at hr
      rw [if_neg (not_lt.2 (h row (by simp) m hmem))] at hr
      change (FilterTau.filterRows n taueff th fuel rows).andThen _ = _ at hr
      cases hf : FilterTau.filterRows n taueff th fuel rows with
      | none => rw [hf] at hr; cases hr
      | some x =>
        cases x with
        | error e => rw [hf] at hr; cases hr
        | ok rows1 =>
          rw [hf] at hr
          cases hr
          rw [ih (fun r hr => h r (by simp [hr])) hf]

theorem filterTau_id {n : ℕ} {th : Option ℝ} {fuel : ℕ} {rows rows' : List (List ℝ)} {u : Py Unit}
    (h : ∀ t, th = some t → ∀ r ∈ rows, ∀ x ∈ r, x ≤ t)
    (hr : FilterTau.filterTau n th fuel rows = some (.ok (rows', u))) : rows' = rows := by
  cases th with
  | none => cases hr; rfl
  | some t =>
    unfold FilterTau.filterTau at hr
    dsimp only at hr
    cases hf : FilterTau.filterRows n (FilterTau.effective rows) t fuel rows with
    | none => rw [hf] at hr; cases hr
    | some x =>
      cases x with
      | error e => rw [hf] at hr; cases hr
      | ok rows1 =>
        have := filterRows_id (h t rfl) hf
        subst this
        rw [hf] at hr
        change Run.andThen (some (maxOf rows1.flatten)) _ = _ at hr
        cases hm : maxOf rows1.flatten with
        | error e => rw [hm] at hr; cases hr
        | ok m => rw [hm] at hr; cases hr; rfl

theorem evalKind_id {c : Conf} {kind : Kind} {rows rows' : List (List ℝ)} {out : Py Out}
    (hk : ∀ d dk Nmu, kind ≠ .power_3D (some d) dk Nmu) (h : evalKind c kind rows = some (rows', out)) : rows' = rows := by
  cases kind with
  | mean_flux => cases h; rfl
  | flux_pdf nb d =>
    unfold evalKind at h
    dsimp only at h
    split at h
    · cases h
    · cases h; rfl
    · cases h; rfl
  | power_1D d w =>
    unfold evalKind at h
    dsimp only at h
    split at h
    · cases h; rfl
    · split at h
      · cases h
      · cases h; rfl
      · cases h; rfl
  | power_3D d dk Nmu =>
    cases d with
    | some d => exact absurd rfl (hk d dk Nmu)
    | none =>
      unfold evalKind FluxPower3D.flux_power_3d at h
      cases h; rfl

end Verif.Session
