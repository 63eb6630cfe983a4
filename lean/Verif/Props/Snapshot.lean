import Verif.Model.Snapshot
import Mathlib.Data.List.Sort
import Mathlib.Order.Basic

/-!
C10 (HDF5 files over ranks), C11 (BigFile particles over ranks and segments), C58 (the cached file
handle), C59 (block names).
-/

namespace Verif.Props
open Verif Verif.Snapshot

section
variable {F : Type} [LinearOrder F]

theorem pySort_perm (xs : List F) : (pySort xs).Perm xs := List.mergeSort_perm _ _

theorem pySort_sorted (xs : List F) : (pySort xs).Pairwise (· ≤ ·) := by
  unfold pySort
  have := List.pairwise_mergeSort (le := fun a b : F => decide (a ≤ b))
    (by intro a b c; simp only [decide_eq_true_eq]; exact le_trans)
    (by intro a b; simp only [Bool.or_eq_true, decide_eq_true_eq]; exact le_total a b) xs
  exact this.imp (by intro a b h; simpa using h)

theorem pySort_congr {xs ys : List F} (h : xs.Perm ys) : pySort xs = pySort ys :=
  List.Perm.eq_of_pairwise (fun _ _ _ _ h1 h2 => le_antisymm h1 h2) (pySort_sorted xs) (pySort_sorted ys)
    ((pySort_perm xs).trans (h.trans (pySort_perm ys).symm))

/-- Files of rank `r`, without the error case. -/
def share (fs : List F) (n : ℕ) (r : ℕ) : List F :=
  (fs.drop (r * (fs.length / n))).take (fs.length / n) ++
    if 1 ≤ r ∧ r ≤ fs.length % n then (fs.drop (fs.length / n * n + r - 1)).take 1 else []

theorem rankFiles_eq (fs : List F) {n r : ℕ} (hn : 0 < n) : rankFiles fs r n = .ok (share fs n r) := by
  unfold rankFiles share
  have hm : fs.length - fs.length / n * n = fs.length % n := by
    have := Nat.div_add_mod' fs.length n; omega
  have hs : (r + 1) * (fs.length / n) - r * (fs.length / n) = fs.length / n := by
    rw [Nat.add_mul, Nat.one_mul]; exact Nat.add_sub_cancel_left _ _
  simp only [hm, hs, Nat.lt_succ_iff]
  split
  · rename_i h
    have hlt : fs.length / n * n + r - 1 < fs.length := by
      have := Nat.div_add_mod' fs.length n; omega
    rw [List.getElem?_eq_getElem hlt]
    simp only
    rw [List.take_one_drop_eq_of_lt_length hlt]
    rfl
  · simp

theorem slices_flatten (fs : List F) (q : ℕ) (n : ℕ) :
    (List.range n).flatMap (fun r => (fs.drop (r * q)).take q) = fs.take (n * q) := by
  induction n with
  | zero => simp
  | succ n ih =>
    rw [List.range_succ, List.flatMap_append, ih, List.flatMap_singleton, Nat.succ_mul, List.take_add]

theorem flatMap_append_perm {α β : Type} (xs : List α) (f g : α → List β) :
    (xs.flatMap (fun x => f x ++ g x)).Perm (xs.flatMap f ++ xs.flatMap g) := by
  induction xs with
  | nil => simp
  | cons x xs ih =>
    simp only [List.flatMap_cons]
    have h : (f x ++ g x ++ xs.flatMap (fun x => f x ++ g x)).Perm
        (f x ++ g x ++ (xs.flatMap f ++ xs.flatMap g)) := List.Perm.append_left _ ih
    refine h.trans ?_
    rw [List.append_assoc, List.append_assoc]
    apply List.Perm.append_left
    rw [← List.append_assoc, ← List.append_assoc]
    exact List.Perm.append_right _ List.perm_append_comm

theorem extras_flatten (fs : List F) (b m : ℕ) (n : ℕ) (hm : m < n) :
    (List.range n).flatMap (fun r => if 1 ≤ r ∧ r ≤ m then (fs.drop (b + r - 1)).take 1 else []) =
      (fs.drop b).take m := by
  have key : ∀ k, (List.range (k + 1)).flatMap
      (fun r => if 1 ≤ r ∧ r ≤ m then (fs.drop (b + r - 1)).take 1 else []) =
      (fs.drop b).take (min k m) := by
    intro k
    induction k with
    | zero => simp
    | succ k ih =>
      rw [List.range_succ, List.flatMap_append, ih, List.flatMap_singleton]
      by_cases h : k + 1 ≤ m
      · rw [if_pos ⟨by omega, h⟩, Nat.min_eq_left h, Nat.min_eq_left (by omega), List.take_add,
          List.drop_drop]
        congr 2
      · rw [if_neg (by omega), List.append_nil, Nat.min_eq_right (by omega), Nat.min_eq_right (by omega)]
  obtain ⟨k, rfl⟩ : ∃ k, n = k + 1 := ⟨n - 1, by omega⟩
  rw [key, Nat.min_eq_right (by omega)]

theorem share_perm (fs : List F) {n : ℕ} (hn : 0 < n) :
    ((List.range n).flatMap (share fs n)).Perm fs := by
  unfold share
  refine (flatMap_append_perm _ _ _).trans ?_
  rw [slices_flatten, extras_flatten fs _ _ n (Nat.mod_lt _ hn)]
  have h : (fs.drop (fs.length / n * n)).take (fs.length % n) = fs.drop (fs.length / n * n) := by
    apply List.take_of_length_le
    rw [List.length_drop]
    have := Nat.div_add_mod' fs.length n; omega
  rw [h, Nat.mul_comm n, List.take_append_drop]

/-- `names` are the files of the snapshot as every rank sees them: each rank gets the names from the
file system in an order of its own. -/
def SeesFiles (d : ℕ → Disk F) (size : ℕ) (names : List F) (isHdf5 : F → Bool) : Prop :=
  ∀ r < size, (d r).isHdf5 = isHdf5 ∧
    (((d r).snap false).Perm names ∨ (d r).snap false = [] ∧ ((d r).snapshot false).Perm names)

theorem get_all_files_mpi {d : Disk F} {names : List F} (hne : names ≠ [])
    (h : (d.snap false).Perm names ∨ d.snap false = [] ∧ (d.snapshot false).Perm names) {r n : ℕ}
    (hn : 0 < n) :
    get_all_files d (some ⟨r, n⟩) = .ok ((share (pySort names) n r).filter d.isHdf5) := by
  have hl : names.length ≠ 0 := by simpa using hne
  have hf : findFiles d (some ⟨r, n⟩) = .ok (pySort names) := by
    unfold findFiles
    simp only [Option.isNone_some, Bool.false_and]
    rcases h with h | ⟨h0, h⟩
    · have h0 : ¬(d.snap false).length = 0 := by rw [h.length_eq]; exact hl
      rw [if_neg h0, if_neg h0, pySort_congr h]
    · rw [h0]
      simp only [List.length_nil, if_true]
      rw [if_neg (by rw [h.length_eq]; exact hl), pySort_congr h]
  unfold get_all_files
  rw [hf]
  change (do let x ← rankFiles (pySort names) r n; Except.ok (x.filter d.isHdf5)) = _
  rw [rankFiles_eq _ hn]
  rfl

/-- C10: for every number of files and ranks, and in whatever order each rank's file system lists the
names, the lists of files of the ranks together are the HDF5 files of the snapshot, each as often as it
occurs in it (once, for distinct names). -/
theorem rank_files_partition {d : ℕ → Disk F} {size : ℕ} (hs : 0 < size) {names : List F}
    (hne : names ≠ []) {isHdf5 : F → Bool} (h : SeesFiles d size names isHdf5) :
    ∃ files : ℕ → List F, (∀ r < size, get_all_files (d r) (some ⟨r, size⟩) = .ok (files r)) ∧
      ((List.range size).flatMap files).Perm (names.filter isHdf5) := by
  refine ⟨fun r => (share (pySort names) size r).filter isHdf5, ?_, ?_⟩
  · intro r hr
    obtain ⟨h1, h2⟩ := h r hr
    rw [get_all_files_mpi hne h2 hs, h1]
  · rw [← List.filter_flatMap]
    exact ((share_perm _ hs).trans (pySort_perm names)).filter _

theorem share_length (fs : List F) {n r : ℕ} (hn : 0 < n) (hr : r < n) :
    (share fs n r).length = fs.length / n + if 1 ≤ r ∧ r ≤ fs.length % n then 1 else 0 := by
  have hdm := Nat.div_add_mod' fs.length n
  have hq : (r + 1) * (fs.length / n) ≤ n * (fs.length / n) := Nat.mul_le_mul_right _ hr
  rw [Nat.add_mul, Nat.one_mul, Nat.mul_comm n] at hq
  unfold share
  rw [List.length_append, List.length_take, List.length_drop, Nat.min_eq_left (by omega)]
  congr 1
  split
  · rw [List.length_take, List.length_drop, Nat.min_eq_left (by omega)]
  · rfl

/-- C10: the work is balanced: if all files are HDF5 files, every rank has the whole part of the mean
number of files, or one more. -/
theorem rank_files_balanced {d : ℕ → Disk F} {size : ℕ} (hs : 0 < size) {names : List F}
    (hne : names ≠ []) {isHdf5 : F → Bool} (h : SeesFiles d size names isHdf5)
    (hall : ∀ f ∈ names, isHdf5 f = true) {r : ℕ} (hr : r < size) :
    ∃ files, get_all_files (d r) (some ⟨r, size⟩) = .ok files ∧
      names.length / size ≤ files.length ∧ files.length ≤ names.length / size + 1 := by
  obtain ⟨h1, h2⟩ := h r hr
  refine ⟨_, get_all_files_mpi hne h2 hs, ?_⟩
  have hf : (share (pySort names) size r).filter (d r).isHdf5 = share (pySort names) size r := by
    rw [List.filter_eq_self, h1]
    intro f hf
    apply hall
    apply (pySort_perm names).subset
    apply (share_perm _ hs).subset
    exact List.mem_flatMap.2 ⟨r, List.mem_range.2 hr, hf⟩
  rw [hf, share_length _ hs hr, (pySort_perm names).length_eq]
  split <;> omega

/-- C10 (partial): with at least as many HDF5 files as ranks, all of them readable, every rank opens
its snapshot, and the files it will read segment by segment are those of `rank_files_partition`. What is
missing: with fewer files than ranks rank 0 fails, see `fewer_files_than_ranks_fails`. -/
theorem every_rank_opens_partial {d : ℕ → Disk F} {size : ℕ} (hs : 0 < size) {names : List F}
    (hn : size ≤ names.length) {isHdf5 : F → Bool} (h : SeesFiles d size names isHdf5)
    (hall : ∀ f ∈ names, isHdf5 f = true) :
    ∃ snaps : ℕ → Hdf5 F,
      (∀ r < size, Hdf5.init (d r) (fun _ => true) (some ⟨r, size⟩) = .ok (snaps r)) ∧
      ((List.range size).flatMap (fun r => (snaps r).files)).Perm names := by
  have hne : names ≠ [] := by rintro rfl; simp at hn; omega
  obtain ⟨files, h1, h2⟩ := rank_files_partition hs hne h
  have hpos : ∀ r < size, (pySort (files r)).reverse ≠ [] := by
    intro r hr h0
    obtain ⟨fl, g1, g2, -⟩ := rank_files_balanced hs hne h hall hr
    rw [h1 r hr] at g1
    obtain rfl := Except.ok.inj g1
    have : 1 ≤ names.length / size := (Nat.one_le_div_iff hs).2 hn
    have e := congrArg List.length h0
    rw [List.length_reverse, (pySort_perm _).length_eq] at e
    simp at e
    rw [e] at g2
    simp at g2
    omega
  have hex : ∀ r, ∃ s : Hdf5 F, r < size →
      Hdf5.init (d r) (fun _ => true) (some ⟨r, size⟩) = .ok s ∧ s.files.Perm (files r) := by
    intro r
    by_cases hr : r < size
    · obtain ⟨f, fs, hfs⟩ := List.exists_cons_of_ne_nil (hpos r hr)
      refine ⟨⟨f :: fs, some f, 0⟩, fun _ => ⟨?_, ?_⟩⟩
      · unfold Hdf5.init
        rw [h1 r hr]
        change (match (pySort (files r)).reverse[0]? with
          | none => (Except.error PyErr.indexError : Py (Hdf5 F))
          | some f => if (true = true) then .ok ⟨(pySort (files r)).reverse, some f, 0⟩ else .error .ioError) = _
        rw [hfs]
        rfl
      · change (f :: fs).Perm _
        rw [← hfs]
        exact (List.reverse_perm _).trans (pySort_perm _)
    · exact ⟨⟨[], none, 0⟩, fun h => absurd h hr⟩
  choose s hsn using hex
  refine ⟨s, fun r hr => (hsn r hr).1, ?_⟩
  have hall' : names.filter isHdf5 = names := List.filter_eq_self.2 hall
  rw [hall'] at h2
  refine List.Perm.trans ?_ h2
  have : ∀ l : List ℕ, (∀ r ∈ l, r < size) →
      (l.flatMap (fun r => (s r).files)).Perm (l.flatMap files) := by
    intro l hl
    induction l with
    | nil => simp
    | cons a l ih =>
      simp only [List.flatMap_cons]
      exact ((hsn a (hl a (by simp))).2).append (ih (fun r hr => hl r (by simp [hr])))
  exact this _ (fun r hr => List.mem_range.1 hr)

/-- C10 fails: with fewer files than ranks, rank 0 gets an empty list of files and its snapshot cannot
be opened (`IndexError`), although there are files to read. -/
theorem fewer_files_than_ranks_fails {d : Disk F} {size : ℕ} {names : List F} (hne : names ≠ [])
    (h : (d.snap false).Perm names ∨ d.snap false = [] ∧ (d.snapshot false).Perm names)
    (hn : names.length < size) (canOpen : F → Bool) :
    Hdf5.init d canOpen (some ⟨0, size⟩) = .error .indexError := by
  unfold Hdf5.init
  rw [get_all_files_mpi hne h (by omega)]
  have : share (pySort names) size 0 = [] := by
    unfold share
    rw [(pySort_perm names).length_eq, Nat.div_eq_of_lt hn]
    simp
  rw [this]
  have e : (pySort ([] : List F)).reverse[0]? = none := by simp [pySort]
  change (match (pySort ([] : List F)).reverse[0]? with
    | none => (Except.error PyErr.indexError : Py (Hdf5 F))
    | some f => if canOpen f then .ok ⟨(pySort ([] : List F)).reverse, some f, 0⟩ else .error .ioError) = _
  rw [e]

/-- C10 fails: a snapshot whose files are in the `snapdir_NNN` directory is read by a single process and
not found by MPI ranks. -/
theorem mpi_ignores_snapdir {d : Disk F} {names : List F} (hd : d.snapdirExists = true)
    (h1 : (d.snap true).Perm names) (hne : names ≠ []) (hall : ∀ f ∈ names, d.isHdf5 f = true)
    (h2 : d.snap false = []) (h3 : d.snapshot false = []) (c : Comm) :
    (∃ s, Hdf5.init d (fun _ => true) none = .ok s ∧ s.files.Perm names) ∧
      Hdf5.init d (fun _ => true) (some c) = .error .ioError := by
  constructor
  · have hl : names.length ≠ 0 := by simpa using hne
    have hf : get_all_files d none = .ok (pySort names) := by
      unfold get_all_files findFiles
      simp only [Option.isNone_none, Bool.true_and, hd]
      have h0 : ¬(d.snap true).length = 0 := by rw [h1.length_eq]; exact hl
      rw [if_neg h0, if_neg h0, pySort_congr h1]
      change Except.ok ((pySort names).filter d.isHdf5) = _
      congr 1
      rw [List.filter_eq_self]
      intro f hf
      exact hall f ((pySort_perm names).subset hf)
    have hp : (pySort (pySort names)).reverse.Perm names :=
      (List.reverse_perm _).trans ((pySort_perm _).trans (pySort_perm _))
    obtain ⟨f, fs, hfs⟩ := List.exists_cons_of_ne_nil (l := (pySort (pySort names)).reverse) (by
      intro h0; rw [h0] at hp; exact hne hp.nil_eq.symm)
    refine ⟨⟨f :: fs, some f, 0⟩, ?_, ?_⟩
    · unfold Hdf5.init
      rw [hf]
      change (match (pySort (pySort names)).reverse[0]? with
          | none => (Except.error PyErr.indexError : Py (Hdf5 F))
          | some f => if (true = true) then .ok ⟨(pySort (pySort names)).reverse, some f, 0⟩
            else .error .ioError) = _
      rw [hfs]
      rfl
    · change (f :: fs).Perm names
      rw [← hfs]; exact hp
  · unfold Hdf5.init get_all_files findFiles
    simp only [Option.isNone_some, Bool.false_and, h2, h3]
    rfl

end

/-- Witness for C10: seven files over three ranks, listed in different orders. -/
example : ∃ snaps : ℕ → Hdf5 ℕ,
      (∀ r < 3, Hdf5.init (⟨false, fun _ => if r = 1 then [6, 5, 4, 3, 2, 1, 0] else List.range 7,
        fun _ => [], fun _ => true⟩ : Disk ℕ) (fun _ => true) (some ⟨r, 3⟩) = .ok (snaps r)) ∧
      ((List.range 3).flatMap (fun r => (snaps r).files)).Perm (List.range 7) := by
  apply every_rank_opens_partial (isHdf5 := fun _ => true)
    (d := fun r => (⟨false, fun _ => if r = 1 then [6, 5, 4, 3, 2, 1, 0] else List.range 7,
        fun _ => [], fun _ => true⟩ : Disk ℕ)) (by norm_num) (by simp)
  · intro r hr
    refine ⟨rfl, .inl ?_⟩
    change (if r = 1 then [6, 5, 4, 3, 2, 1, 0] else List.range 7).Perm (List.range 7)
    split
    · decide
    · exact List.Perm.refl _
  · intros; rfl

/-- Witness for `fewer_files_than_ranks_fails`. -/
example : Hdf5.init (⟨false, fun _ => [0, 1], fun _ => [], fun _ => true⟩ : Disk ℕ) (fun _ => true)
    (some ⟨0, 3⟩) = .error .indexError :=
  fewer_files_than_ranks_fails (names := [0, 1]) (by simp) (.inl (List.Perm.refl _)) (by simp) _

/-! ### C58: the cached file handle -/

/-- A call of `get_data` or `get_blocklen`: the segment and which files can be opened at that time. -/
structure Call (F : Type) where
  canOpen : F → Bool
  segment : ℕ

/-- The snapshot after a history of calls, successful or not. -/
def after {F : Type} (s : Hdf5 F) : List (Call F) → Hdf5 F
  | [] => s
  | c :: cs => after (s.select c.canOpen c.segment).1 cs

/-- The open file is the one numbered `_handle_num`. -/
def HandleOk {F : Type} (s : Hdf5 F) : Prop := ∀ f, s.handle = some f → s.files[s.handle_num]? = some f

theorem select_files {F : Type} (s : Hdf5 F) (canOpen : F → Bool) (k : ℕ) :
    (s.select canOpen k).1.files = s.files := by
  unfold Hdf5.select
  split
  · split
    · rfl
    · split <;> rfl
  · rfl

theorem select_ok {F : Type} {s : Hdf5 F} (h : HandleOk s) (canOpen : F → Bool) (k : ℕ) :
    HandleOk (s.select canOpen k).1 := by
  unfold Hdf5.select
  split
  · split
    · intro f hf; cases hf
    · rename_i f hf
      split
      · intro g hg
        obtain rfl := Option.some.inj hg
        exact hf
      · intro f hf; cases hf
  · exact h

theorem after_files {F : Type} (s : Hdf5 F) (cs : List (Call F)) : (after s cs).files = s.files := by
  induction cs generalizing s with
  | nil => rfl
  | cons c cs ih => rw [after, ih, select_files]

theorem after_ok {F : Type} {s : Hdf5 F} (h : HandleOk s) (cs : List (Call F)) : HandleOk (after s cs) := by
  induction cs generalizing s with
  | nil => exact h
  | cons c cs ih => exact ih (select_ok h _ _)

theorem init_ok {F : Type} [LinearOrder F] {d : Disk F} {canOpen : F → Bool} {comm : Option Comm}
    {s : Hdf5 F} (h : Hdf5.init d canOpen comm = .ok s) :
    HandleOk s ∧ s.handle_num = 0 ∧ s.handle = s.files[0]? ∧ s.handle ≠ none := by
  unfold Hdf5.init at h
  cases hg : get_all_files d comm with
  | error e => rw [hg] at h; cases h
  | ok files =>
    rw [hg] at h
    change (match (pySort files).reverse[0]? with
      | none => (Except.error PyErr.indexError : Py (Hdf5 F))
      | some f => if canOpen f then .ok ⟨(pySort files).reverse, some f, 0⟩ else .error .ioError) = .ok s at h
    cases hf : (pySort files).reverse[0]? with
    | none => rw [hf] at h; cases h
    | some f =>
      rw [hf] at h
      simp only at h
      split at h
      · obtain rfl := Except.ok.inj h
        refine ⟨?_, rfl, hf.symm, by simp⟩
        intro g hg
        obtain rfl := Option.some.inj hg
        exact hf
      · cases h

/-- C58, safety: whatever was read before, and whichever of those reads failed, data returned for a
segment are the data of the file of that segment. -/
theorem segment_data_correct {F D : Type} [LinearOrder F] {d : Disk F} {canOpen : F → Bool}
    {comm : Option Comm} {s : Hdf5 F} (hs : Hdf5.init d canOpen comm = .ok s) (history : List (Call F))
    (canOpen' : F → Bool) (read : F → Option D) (k : ℕ) (x : D)
    (h : ((after s history).get_data canOpen' read k).2 = .ok x) :
    ∃ f, s.files[k]? = some f ∧ read f = some x := by
  have hok := after_ok (init_ok hs).1 history
  have hfl := after_files s history
  generalize after s history = t at h hok hfl
  have hok' := select_ok hok canOpen' k
  have hfl' := select_files t canOpen' k
  unfold Hdf5.get_data at h
  have hnum : (t.select canOpen' k).2 = none → (t.select canOpen' k).1.handle_num = k := by
    unfold Hdf5.select
    split
    · split
      · intro h; cases h
      · split
        · intro _; rfl
        · intro h; cases h
    · rename_i hk
      intro _
      exact not_not.1 hk
  generalize t.select canOpen' k = u at h hok' hfl' hnum
  obtain ⟨u, e⟩ := u
  cases e with
  | some e => cases h
  | none =>
    simp only at h hok' hfl' hnum
    cases hh : u.handle with
    | none => rw [hh] at h; cases h
    | some f =>
      rw [hh] at h
      unfold readHandle at h
      simp only at h
      cases hr : read f with
      | none => rw [hr] at h; cases h
      | some y =>
        rw [hr] at h
        obtain rfl := Except.ok.inj h
        refine ⟨f, ?_, hr⟩
        have := hok' f hh
        rw [hnum trivial, hfl', hfl] at this
        exact this

/-- No call of the history failed to switch files. -/
def NoFailure {F : Type} (s : Hdf5 F) : List (Call F) → Prop
  | [] => True
  | c :: cs => (s.select c.canOpen c.segment).2 = none ∧ NoFailure (s.select c.canOpen c.segment).1 cs

theorem select_open {F : Type} {s : Hdf5 F} (hh : s.handle ≠ none) {canOpen : F → Bool} {k : ℕ}
    (h : (s.select canOpen k).2 = none) : (s.select canOpen k).1.handle ≠ none := by
  unfold Hdf5.select at h ⊢
  split at h
  · rename_i hk
    rw [if_pos hk]
    split at h
    · cases h
    · rename_i f hf
      split at h
      · rename_i hc
        simp only [hc, if_true]
        simp
      · cases h
  · rename_i hk
    rw [if_neg hk]
    exact hh

theorem after_open {F : Type} {s : Hdf5 F} (hh : s.handle ≠ none) {cs : List (Call F)}
    (h : NoFailure s cs) : (after s cs).handle ≠ none := by
  induction cs generalizing s with
  | nil => exact hh
  | cons c cs ih => exact ih (select_open hh h.1) h.2

/-- C58, progress (partial): after any history without a failed switch, a segment whose file can be
opened is read. What is missing: after a failed switch the segment that was open before cannot be read
again, see `failed_open_poisons`. -/
theorem segment_data_available_partial {F D : Type} [LinearOrder F] {d : Disk F} {canOpen : F → Bool}
    {comm : Option Comm} {s : Hdf5 F} (hs : Hdf5.init d canOpen comm = .ok s) {history : List (Call F)}
    (hno : NoFailure s history) {canOpen' : F → Bool} {read : F → Option D} {k : ℕ} {f : F} {x : D}
    (hf : s.files[k]? = some f) (hc : canOpen' f = true) (hx : read f = some x) :
    ((after s history).get_data canOpen' read k).2 = .ok x := by
  obtain ⟨i1, -, -, i4⟩ := init_ok hs
  have hop := after_open i4 hno
  have hok := after_ok i1 history
  have hfl := after_files s history
  generalize after s history = t at hop hok hfl
  unfold Hdf5.get_data Hdf5.select
  by_cases hk : t.handle_num ≠ k
  · rw [if_pos hk, hfl, hf]
    simp only [hc, if_true]
    unfold readHandle
    simp only [hx]
  · rw [if_neg hk]
    simp only
    rw [not_not] at hk
    cases hh : t.handle with
    | none => exact absurd hh hop
    | some g =>
      have := hok g hh
      rw [hk, hfl, hf] at this
      obtain rfl := Option.some.inj this
      unfold readHandle
      simp only [hx]

/-- C58 fails: a request for a segment that cannot be opened makes the segment that was open before
unreadable, although its file can be opened. -/
theorem failed_open_poisons {F D : Type} {s : Hdf5 F} {canOpen : F → Bool} {bad : ℕ}
    (hb : bad ≠ s.handle_num) (hbad : ∀ f, s.files[bad]? = some f → canOpen f = false)
    (canOpen' : F → Bool) (read : F → Option D) :
    ((after s [⟨canOpen, bad⟩]).get_data canOpen' read s.handle_num).2 = .error .valueError := by
  have : (s.select canOpen bad).1 = { s with handle := none } := by
    unfold Hdf5.select
    rw [if_pos hb.symm]
    cases h : s.files[bad]? with
    | none => rfl
    | some f => simp only [hbad f h]; rfl
  rw [after, this, after]
  unfold Hdf5.get_data Hdf5.select
  simp only [ne_eq, not_true_eq_false, if_false]
  rfl

/-- Witness for C58: two files, the second cannot be opened for a while. -/
example : (⟨[10, 11], some 10, 0⟩ : Hdf5 ℕ).handle_num = 0 ∧
    ((after ⟨[10, 11], some 10, 0⟩ [⟨fun _ => true, 1⟩, ⟨fun _ => true, 0⟩]).get_data (fun _ => true)
      (fun f => some (f * 100)) 1).2 = .ok 1100 ∧
    ((after ⟨[10, 11], some 10, 0⟩ [⟨fun f => f ≠ 11, 1⟩]).get_data (fun _ => true)
      (fun f => some (f * 100)) 0).2 = .error .valueError := ⟨rfl, rfl, rfl⟩

/-! ### C11: BigFile -/

theorem parts_rank_sum (npart : ℕ) {size : ℕ} (hs : 0 < size) : (parts_rank npart size).sum = npart := by
  have key : ∀ n, ((List.range n).map (fun r => npart / size + if r < npart % size then 1 else 0)).sum =
      n * (npart / size) + min n (npart % size) := by
    intro n
    induction n with
    | zero => simp
    | succ n ih =>
      rw [List.range_succ, List.map_append, List.sum_append, ih, Nat.succ_mul]
      simp only [List.map_cons, List.map_nil, List.sum_cons, List.sum_nil]
      split <;> omega
  unfold parts_rank
  rw [key, Nat.min_eq_right (Nat.mod_lt _ hs).le]
  have := Nat.div_add_mod npart size
  omega

/-- First particle of a rank. -/
def firstPart (npart size rank : ℕ) : ℕ := ((parts_rank npart size).take rank).sum

theorem firstPart_succ {npart size rank : ℕ} (h : rank < size) :
    firstPart npart size (rank + 1) = firstPart npart size rank + partsOf npart size rank := by
  have hl : rank < (parts_rank npart size).length := by simpa [parts_rank] using h
  unfold firstPart partsOf
  rw [List.take_succ, List.sum_append, List.getD_eq_getElem?_getD, List.getElem?_eq_getElem hl]
  simp

theorem firstPart_size (npart : ℕ) {size : ℕ} (hs : 0 < size) : firstPart npart size size = npart := by
  unfold firstPart
  rw [List.take_of_length_le (by simp [parts_rank]), parts_rank_sum npart hs]

theorem big_get_data_eq {D : Type} (block : List D) (npart : ℕ → ℕ) (size rank chunk t seg : ℕ) :
    big_get_data block npart size rank chunk t seg =
      .ok ((block.drop (firstPart (npart t) size rank + partsOf (npart t) size rank /
        max 1 (partsOf (npart t) size rank / chunk) * seg)).take
          (partsOf (npart t) size rank / max 1 (partsOf (npart t) size rank / chunk))) := by
  have hf : (if rank = 0 then 0 else ((parts_rank (npart t) size).take rank).sum) =
      firstPart (npart t) size rank := by
    unfold firstPart
    split
    · rename_i h; rw [h]; rfl
    · rfl
  unfold big_get_data segment_to_partlist
  change Except.ok _ = _
  congr 2
  · simp only [hf]
    rw [Nat.mul_add, Nat.mul_one]
    generalize partsOf (npart t) size rank / max 1 (partsOf (npart t) size rank / chunk) = q
    omega
  · simp only [hf]

theorem slices_flatten' {D : Type} (fs : List D) (q n : ℕ) :
    (List.range n).flatMap (fun r => (fs.drop (q * r)).take q) = fs.take (n * q) := by
  induction n with
  | zero => simp
  | succ n ih =>
    rw [List.range_succ, List.flatMap_append, ih, List.flatMap_singleton, Nat.succ_mul, List.take_add,
      Nat.mul_comm]

/-- What one rank reads, over its segments. -/
theorem big_rank_reads {D : Type} (block : List D) (npart : ℕ → ℕ) (size rank chunk t : ℕ) :
    ∃ (n : ℕ) (reads : ℕ → List D), big_n_segments npart size rank chunk (some t) = .ok n ∧
      n = max 1 (partsOf (npart t) size rank / chunk) ∧
      (∀ k < n, big_get_data block npart size rank chunk t k = .ok (reads k)) ∧
      (List.range n).flatMap reads = (block.drop (firstPart (npart t) size rank)).take
        (partsOf (npart t) size rank - partsOf (npart t) size rank % n) := by
  refine ⟨max 1 (partsOf (npart t) size rank / chunk), _, rfl, rfl,
    fun k _ => big_get_data_eq block npart size rank chunk t k, ?_⟩
  simp only [← List.drop_drop]
  rw [slices_flatten']
  congr 1
  have := Nat.div_add_mod (partsOf (npart t) size rank) (max 1 (partsOf (npart t) size rank / chunk))
  omega

/-- C11 (partial): if on every rank the number of segments divides the number of particles, reading all
the segments of all the ranks in order gives the whole block, every particle once. What is missing: the
other case, see `bigfile_drops_particles`. -/
theorem bigfile_reads_all_partial {D : Type} (block : List D) (npart : ℕ → ℕ) {size chunk t : ℕ}
    (hs : 0 < size) (hb : block.length = npart t)
    (hdiv : ∀ r < size, ∀ n, big_n_segments npart size r chunk (some t) = .ok n →
      n ∣ partsOf (npart t) size r) :
    ∃ (nseg : ℕ → ℕ) (reads : ℕ → ℕ → List D),
      (∀ r < size, big_n_segments npart size r chunk (some t) = .ok (nseg r) ∧
        ∀ k < nseg r, big_get_data block npart size r chunk t k = .ok (reads r k)) ∧
      (List.range size).flatMap (fun r => (List.range (nseg r)).flatMap (reads r)) = block := by
  choose n reads h1 h2 h3 h4 using fun r => big_rank_reads block npart size r chunk t
  refine ⟨n, reads, fun r _ => ⟨h1 r, h3 r⟩, ?_⟩
  have key : ∀ m ≤ size, (List.range m).flatMap (fun r => (List.range (n r)).flatMap (reads r)) =
      block.take (firstPart (npart t) size m) := by
    intro m hm
    induction m with
    | zero => simp [firstPart]
    | succ m ih =>
      rw [List.range_succ, List.flatMap_append, ih (by omega), List.flatMap_singleton, h4,
        Nat.mod_eq_zero_of_dvd (hdiv m (by omega) _ (h1 m)), Nat.sub_zero, firstPart_succ (by omega),
        List.take_add]
  rw [key size le_rfl, firstPart_size _ hs, ← hb, List.take_length]

/-- C11, in general: reading all segments of all ranks gives particles in order and none twice (a
sublist of the block), and on each rank the particles left out are fewer than its segments: the
remainder of the division. -/
theorem bigfile_reads_once {D : Type} (block : List D) (npart : ℕ → ℕ) {size chunk t : ℕ}
    (hs : 0 < size) (hb : block.length = npart t) :
    ∃ (nseg : ℕ → ℕ) (reads : ℕ → ℕ → List D),
      (∀ r < size, big_n_segments npart size r chunk (some t) = .ok (nseg r) ∧ 0 < nseg r ∧
        ∀ k < nseg r, big_get_data block npart size r chunk t k = .ok (reads r k)) ∧
      ((List.range size).flatMap (fun r => (List.range (nseg r)).flatMap (reads r))).Sublist block ∧
      ((List.range size).flatMap (fun r => (List.range (nseg r)).flatMap (reads r))).length +
        ((List.range size).map (fun r => partsOf (npart t) size r % nseg r)).sum = npart t := by
  choose n reads h1 h2 h3 h4 using fun r => big_rank_reads block npart size r chunk t
  refine ⟨n, reads, fun r _ => ⟨h1 r, by rw [h2]; omega, h3 r⟩, ?_⟩
  have hfle : ∀ j m, m + j = size → firstPart (npart t) size m ≤ npart t := by
    intro j
    induction j with
    | zero => rintro m rfl; rw [Nat.add_zero, firstPart_size _ (by omega)]
    | succ j ih =>
      intro m hm
      have := ih (m + 1) (by omega)
      rw [firstPart_succ (by omega)] at this
      omega
  have key : ∀ m ≤ size, ((List.range m).flatMap (fun r => (List.range (n r)).flatMap (reads r))).Sublist
      (block.take (firstPart (npart t) size m)) ∧
      ((List.range m).flatMap (fun r => (List.range (n r)).flatMap (reads r))).length +
        ((List.range m).map (fun r => partsOf (npart t) size r % n r)).sum = firstPart (npart t) size m := by
    intro m hm
    induction m with
    | zero => simp [firstPart]
    | succ m ih =>
      obtain ⟨i1, i2⟩ := ih (by omega)
      have hle := hfle (size - (m + 1)) (m + 1) (by omega)
      rw [firstPart_succ (by omega)] at hle
      have hmod := Nat.mod_le (partsOf (npart t) size m) (n m)
      rw [List.range_succ, List.flatMap_append, List.flatMap_singleton, h4, firstPart_succ (by omega)]
      constructor
      · rw [List.take_add]
        exact i1.append (List.take_sublist_take_left (by omega))
      · rw [List.length_append, List.length_take, List.length_drop, hb, List.map_append, List.sum_append]
        simp only [List.map_cons, List.map_nil, List.sum_cons, List.sum_nil]
        omega
  obtain ⟨k1, k2⟩ := key size le_rfl
  rw [firstPart_size _ hs] at k1 k2
  refine ⟨?_, k2⟩
  rw [← hb, List.take_length] at k1
  exact k1

/-- C11: with fewer than two chunks of particles on every rank nothing is lost. -/
theorem bigfile_small_reads_all (npart : ℕ → ℕ) {size chunk t : ℕ} (hc : 0 < chunk)
    (h : ∀ r < size, partsOf (npart t) size r < 2 * chunk) :
    ∀ r < size, ∀ n, big_n_segments npart size r chunk (some t) = .ok n → n ∣ partsOf (npart t) size r := by
  intro r hr n hn
  have : n = max 1 (partsOf (npart t) size r / chunk) := (Except.ok.inj hn).symm
  have h2 : partsOf (npart t) size r / chunk < 2 := Nat.div_lt_of_lt_mul (by have := h r hr; omega)
  have : n = 1 := by omega
  rw [this]
  exact one_dvd _

/-- C11 fails: with the chunk size of the code and one process, a snapshot of two chunks and one particle
is read in two segments, neither of which holds the last particle. -/
theorem bigfile_drops_particles {D : Type} (block : List D) (last : D) (hl : last ∉ block)
    (hb : block.length = 2 * chunk_size) :
    big_n_segments (fun _ => 2 * chunk_size + 1) 1 0 chunk_size (some 0) = .ok 2 ∧
    ∀ k < 2, ∃ reads, big_get_data (block ++ [last]) (fun _ => 2 * chunk_size + 1) 1 0 chunk_size 0 k =
      .ok reads ∧ last ∉ reads := by
  have hp : partsOf (2 * chunk_size + 1) 1 0 = 2 * chunk_size + 1 := by
    simp [partsOf, parts_rank, Nat.mod_one]
  have hq : (2 * chunk_size + 1) / chunk_size = 2 := by norm_num [chunk_size]
  have hh : (2 * chunk_size + 1) / 2 = chunk_size := by omega
  constructor
  · change Except.ok (max 1 (partsOf (2 * chunk_size + 1) 1 0 / chunk_size)) = _
    rw [hp, hq]; rfl
  · intro k hk
    refine ⟨_, big_get_data_eq _ _ _ _ _ _ _, ?_⟩
    simp only [hp, hq]
    rw [show max 1 2 = 2 from rfl, hh]
    have hf : firstPart (2 * chunk_size + 1) 1 0 = 0 := rfl
    rw [hf, Nat.zero_add]
    intro hmem
    have hle : chunk_size * k + chunk_size ≤ block.length := by
      rw [hb]
      have : chunk_size * k ≤ chunk_size * 1 := Nat.mul_le_mul_left _ (by omega)
      omega
    rw [List.drop_append_of_le_length (by omega), List.take_append_of_le_length (by rw [List.length_drop]; omega)]
      at hmem
    exact hl (List.mem_of_mem_drop (List.mem_of_mem_take hmem))

/-- The length reported for a segment is the number of particles read from it, as long as the segment is
one of the snapshot. -/
theorem bigfile_blocklen {D : Type} (block : List D) (npart : ℕ → ℕ) {size chunk t r k n : ℕ}
    (hs : 0 < size) (hb : block.length = npart t) (hr : r < size)
    (hn : big_n_segments npart size r chunk (some t) = .ok n) (hk : k < n) :
    ∃ reads, big_get_data block npart size r chunk t k = .ok reads ∧
      big_get_blocklen npart size r chunk t k = .ok reads.length := by
  refine ⟨_, big_get_data_eq block npart size r chunk t k, ?_⟩
  have hn' : max 1 (partsOf (npart t) size r / chunk) = n := Except.ok.inj hn
  have hfle : ∀ j m, m + j = size → firstPart (npart t) size m ≤ npart t := by
    intro j
    induction j with
    | zero => rintro m rfl; rw [Nat.add_zero, firstPart_size _ (by omega)]
    | succ j ih =>
      intro m hm
      have := ih (m + 1) (by omega)
      rw [firstPart_succ (by omega)] at this
      omega
  have h1 := hfle (size - (r + 1)) (r + 1) (by omega)
  rw [firstPart_succ hr] at h1
  unfold big_get_blocklen segment_to_partlist
  change Except.ok _ = _
  simp only [hn']
  congr 1
  rw [List.length_take, List.length_drop, hb]
  have h2 : partsOf (npart t) size r / n * (k + 1) ≤ partsOf (npart t) size r / n * n :=
    Nat.mul_le_mul_left _ (by omega)
  have h3 := Nat.div_mul_le_self (partsOf (npart t) size r) n
  rw [Nat.mul_add, Nat.mul_one] at h2 ⊢
  generalize partsOf (npart t) size r / n = q at *
  generalize (if r = 0 then 0 else (List.take r (parts_rank (npart t) size)).sum) = z
  rw [Nat.min_eq_left (by omega)]
  omega

/-- C11 fails for the queries that do not say which particles they want: a BigFile snapshot raises
`TypeError` where an HDF5 snapshot answers. -/
theorem bigfile_n_segments_needs_type (npart : ℕ → ℕ) (size rank chunk : ℕ) {F : Type} (s : Hdf5 F) :
    big_n_segments npart size rank chunk none = .error .typeError ∧
      s.get_n_segments none = .ok s.files.length := ⟨rfl, rfl⟩

/-- Witness for C11: ten particles, three ranks, chunks of two; one rank has an odd number above one
chunk, but fewer than two chunks, so nothing is lost. -/
example : (∀ r < 3, partsOf 10 3 r < 2 * 3) ∧ (parts_rank 10 3) = [4, 3, 3] ∧
    (∀ r < 3, ∀ n, big_n_segments (fun _ => 10) 3 r 3 (some 0) = .ok n → n ∣ partsOf 10 3 r) :=
  have h : ∀ r < 3, partsOf 10 3 r < 2 * 3 := by decide
  ⟨h, rfl, bigfile_small_reads_all (fun _ => 10) (t := 0) (by norm_num) h⟩

/-! ### C59: block names -/

theorem lookup_none {m : List (String × String)} {n : String} (h : ∀ p ∈ m, p.1 ≠ n) : m.lookup n = none := by
  induction m with
  | nil => rfl
  | cons p m ih =>
    rw [List.lookup_cons]
    have := h p (by simp)
    rw [beq_false_of_ne (fun e => this e.symm)]
    exact ih (fun q hq => h q (by simp [hq]))

/-- C59: a block can be asked for under its name in either format: both names, and the result of
translating one into the other, reach the same block. -/
theorem block_names (n : String) :
    translate bigfile_to_hdf_map (translate hdf_to_bigfile_map n) = translate bigfile_to_hdf_map n ∧
    translate hdf_to_bigfile_map (translate bigfile_to_hdf_map n) = translate hdf_to_bigfile_map n := by
  by_cases h : n ∈ hdf_to_bigfile_map.map Prod.fst ++ hdf_to_bigfile_map.map Prod.snd
  · have : ∀ n ∈ hdf_to_bigfile_map.map Prod.fst ++ hdf_to_bigfile_map.map Prod.snd,
        translate bigfile_to_hdf_map (translate hdf_to_bigfile_map n) = translate bigfile_to_hdf_map n ∧
        translate hdf_to_bigfile_map (translate bigfile_to_hdf_map n) = translate hdf_to_bigfile_map n := by
      decide
    exact this n h
  · rw [List.mem_append, not_or] at h
    have h1 : hdf_to_bigfile_map.lookup n = none := lookup_none (fun p hp e =>
      h.1 (List.mem_map.2 ⟨p, hp, e⟩))
    have h2 : bigfile_to_hdf_map.lookup n = none := lookup_none (fun p hp e => by
      unfold bigfile_to_hdf_map at hp
      obtain ⟨q, hq, rfl⟩ := List.mem_map.1 hp
      exact h.2 (List.mem_map.2 ⟨q, hq, e⟩))
    have e1 : translate hdf_to_bigfile_map n = n := by unfold translate; rw [h1]; rfl
    have e2 : translate bigfile_to_hdf_map n = n := by unfold translate; rw [h2]; rfl
    rw [e1, e2, e1]
    exact ⟨rfl, rfl⟩

/-! The theorems at work on a snapshot of seven files over three processes, and on a block of ten particles. -/

theorem exSees : SeesFiles (fun _ => (⟨false, fun _ => List.range 7, fun _ => [], fun _ => true⟩ : Disk ℕ)) 3 (List.range 7) (fun _ => true) :=
  fun _ _ => ⟨rfl, Or.inl (List.Perm.refl _)⟩

example := rank_files_partition (by norm_num) (by simp) exSees

example := rank_files_balanced (by norm_num) (by simp) exSees (by simp) (r := 2) (by norm_num)

example := bigfile_reads_once (List.range 10) (fun _ => 10) (size := 3) (chunk := 3) (t := 0) (by norm_num) rfl

example := bigfile_drops_particles (List.replicate (2 * chunk_size) 0) 1 (by simp) (by simp)

example := bigfile_blocklen (List.range 10) (fun _ => 10) (size := 3) (chunk := 3) (t := 0) (r := 1) (k := 0) (n := 1) (by norm_num) rfl (by norm_num)
  (by decide) (by norm_num)

end Verif.Props
