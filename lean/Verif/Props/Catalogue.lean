import Verif.Model.Catalogue
import Verif.Lemmas.Numpy
import Mathlib.Data.List.Sort
import Mathlib.Data.Nat.Digits.Defs

/-!
C42: the group catalogue. C41: the selection of halos. C43: sightlines on a grid.
-/

namespace Verif.Props
open Verif Verif.Np Verif.SpecTools Verif.Catalogue

/-- The rows of an array in one file; none where the file does not have the array. -/
def rowsIn {ρ : Type} (files : Files ρ) (dset : Dset) (name : String) (f : Name) : List ρ :=
  match files f dset name with
  | some a => a.rows
  | none => []

/-- All rows, file after file. -/
def allRows {ρ : Type} (files : Files ρ) (fs : List Name) (dset : Dset) (name : String) : List ρ :=
  (fs.map (rowsIn files dset name)).flatten

theorem single_some {ρ : Type} {files : Files ρ} {f : Name} {dset : Dset} {name : String} (t : List ℕ) :
    ∃ a, single files f dset name (some t) = .ok a ∧ a.rows = rowsIn files dset name f ∧
      (a.tail = t ∨ files f dset name = some a) := by
  unfold single rowsIn
  cases h : files f dset name with
  | none => exact ⟨⟨t, []⟩, rfl, rfl, Or.inl rfl⟩
  | some a => exact ⟨a, rfl, rfl, Or.inr rfl⟩

theorem forall₂_map_eq {α β γ : Type} {f : α → γ} {g : β → γ} {l : List α} {l' : List β}
    (h : List.Forall₂ (fun a b => g b = f a) l l') : l'.map g = l.map f := by
  induction h with
  | nil => rfl
  | cons h _ ih => simp [h, ih]

theorem readFiles_rows {ρ : Type} {files : Files ρ} {dset : Dset} {name : String} {fs : List Name} {size : ℕ}
    {a : Arr ρ} (hr : readFiles files fs size dset name = .ok a) :
    a.rows = allRows files fs dset name ∧ a.rows.length = size := by
  unfold readFiles at hr
  simp only [bind, Except.bind] at hr
  split at hr
  · cases hr
  rename_i f hf
  split at hr
  · cases hr
  rename_i first hfirst
  split at hr
  · cases hr
  rename_i all hall
  split at hr
  · cases hr
  rename_i d hd
  split at hr
  swap
  · cases hr
  rename_i hlen
  cases hr
  refine ⟨?_, hlen⟩
  obtain ⟨bs, h1, h2⟩ := mapM_ok (l := fs) (f := fun f => single files f dset name (some first.tail))
    (P := fun f b => b.rows = rowsIn files dset name f) (fun f _ => by
      obtain ⟨b, hb1, hb2, -⟩ := single_some (files := files) (f := f) (dset := dset) (name := name) first.tail
      exact ⟨b, hb1, hb2⟩)
  rw [h1] at hall
  cases hall
  unfold allRows
  rw [← forall₂_map_eq h2]
  unfold concatenate at hd
  split at hd
  · cases hd
  · split at hd
    · cases hd; rfl
    · cases hd

/-- The catQueries a user makes, one after another. -/
def catQueries {ρ : Type} (files : Files ρ) : List (Dset × String) → Cat ρ → Cat ρ
  | [], c => c
  | q :: qs, c => catQueries files qs (get_array files q.1 q.2 c).2

/-- The catalogue as the constructor left it. -/
def pristine {ρ : Type} (c : Cat ρ) : Cat ρ := { c with cache := fun _ _ => none }

/-- What is in the cache is what the files hold. -/
def Coherent {ρ : Type} (files : Files ρ) (c : Cat ρ) : Prop :=
  ∀ d n a, c.cache d n = some a → (get_array files d n (pristine c)).1 = .ok a

theorem get_array_pristine {ρ : Type} {files : Files ρ} {c : Cat ρ} (hc : Coherent files c) (d : Dset) (n : String) :
    (get_array files d n c).1 = (get_array files d n (pristine c)).1 := by
  cases h : c.cache d n with
  | some a =>
    rw [hc d n a h]
    unfold get_array
    rw [h]
  | none =>
    unfold get_array
    rw [h]
    simp only [pristine]
    cases readFiles files c.foffiles (c.sizes d) d n <;> rfl

theorem get_array_frame {ρ : Type} (files : Files ρ) (c : Cat ρ) (d : Dset) (n : String) :
    pristine (get_array files d n c).2 = pristine c := by
  unfold get_array
  cases c.cache d n with
  | some a => rfl
  | none =>
    simp only
    cases readFiles files c.foffiles (c.sizes d) d n <;> rfl

theorem get_array_coherent {ρ : Type} {files : Files ρ} {c : Cat ρ} (hc : Coherent files c) (d : Dset) (n : String) :
    Coherent files (get_array files d n c).2 := by
  intro d' n' a h
  rw [get_array_frame]
  by_cases hk : d' = d ∧ n' = n
  · obtain ⟨rfl, rfl⟩ := hk
    rw [← get_array_pristine hc]
    revert h
    unfold get_array
    cases hcache : c.cache d' n' with
    | some b => simp only; intro h; rw [hcache] at h; cases h; rfl
    | none =>
      simp only
      cases readFiles files c.foffiles (c.sizes d') d' n' with
      | error e => simp only; intro h; rw [hcache] at h; cases h
      | ok b => simp
  · refine hc d' n' a ?_
    revert h
    unfold get_array
    cases hcache : c.cache d n with
    | some b => exact id
    | none =>
      simp only
      cases readFiles files c.foffiles (c.sizes d) d n with
      | error e => exact id
      | ok b => simp [hk]

theorem catQueries_spec {ρ : Type} {files : Files ρ} (qs : List (Dset × String)) :
    ∀ c : Cat ρ, Coherent files c → Coherent files (catQueries files qs c) ∧ pristine (catQueries files qs c) = pristine c := by
  induction qs with
  | nil => intro c hc; exact ⟨hc, rfl⟩
  | cons q qs ih =>
    intro c hc
    obtain ⟨h1, h2⟩ := ih _ (get_array_coherent hc q.1 q.2)
    exact ⟨h1, by rw [catQueries, h2, get_array_frame]⟩

/-- C42: whatever was read before, an array that is returned is made of the rows of all files, in the sorted order of the
file names, and has exactly the advertised number of rows; and reading it again, before or after anything else, gives the
same result, or raises the same error. -/
theorem catalogue_complete {ρ : Type} {files : Files ρ} {found : List Name} {header : Name → Dset → ℕ} {c : Cat ρ}
    (hi : init found header = .ok c) (qs qs' : List (Dset × String)) (d : Dset) (n : String) :
    (∀ a, (get_array files d n (catQueries files qs c)).1 = .ok a →
      a.rows = allRows files c.foffiles d n ∧ a.rows.length = c.sizes d) ∧
    (get_array files d n (catQueries files qs c)).1 = (get_array files d n (catQueries files qs' c)).1 ∧
    c.foffiles.Perm found ∧ c.foffiles.Pairwise (· ≤ ·) := by
  have hcache : c.cache = fun _ _ => none := by
    unfold init at hi
    split at hi
    · cases hi
    · cases hi; rfl
  have hff : c.foffiles = found.mergeSort (· ≤ ·) := by
    unfold init at hi
    split at hi
    · cases hi
    · rename_i h; cases hi; exact h.symm
  have hp : pristine c = c := by
    unfold pristine
    cases c
    simp only at hcache
    rw [hcache]
  have hcoh : Coherent files c := by
    intro d n a h
    rw [hcache] at h
    cases h
  have key : ∀ qs, (get_array files d n (catQueries files qs c)).1 = (get_array files d n c).1 := by
    intro qs
    obtain ⟨h1, h2⟩ := catQueries_spec qs c hcoh
    rw [get_array_pristine h1, h2, hp]
  refine ⟨?_, by rw [key, key], ?_, ?_⟩
  · intro a ha
    rw [key] at ha
    unfold get_array at ha
    rw [hcache] at ha
    simp only at ha
    cases hr : readFiles files c.foffiles (c.sizes d) d n with
    | error e => rw [hr] at ha; cases ha
    | ok b => rw [hr] at ha; cases ha; exact readFiles_rows hr
  · rw [hff]; exact List.mergeSort_perm _ _
  · rw [hff]
    have := List.pairwise_mergeSort (le := fun a b : Name => decide (a ≤ b))
      (fun a b c h1 h2 => by simp only [decide_eq_true_eq] at *; exact le_trans h1 h2)
      (fun a b => by simp only [Bool.or_eq_true, decide_eq_true_eq]; exact le_total a b) found
    exact this.imp (fun h => by simpa using h)

/-- C42: an array is returned when the first file has it, all files that have it agree on the shape of a row, and the rows
add up. -/
theorem catalogue_succeeds {ρ : Type} {files : Files ρ} {c : Cat ρ} {d : Dset} {n : String} {f : Name} {fs : List Name}
    (hf : c.foffiles = f :: fs) (hc : c.cache d n = none) {a : Arr ρ} (ha : files f d n = some a)
    (hs : ∀ g ∈ fs, ∀ b, files g d n = some b → b.tail = a.tail) (hn : (allRows files (f :: fs) d n).length = c.sizes d) :
    ∃ r c', get_array files d n c = (.ok r, c') ∧ r.rows = allRows files (f :: fs) d n ∧ r.tail = a.tail := by
  obtain ⟨bs, h1, h2⟩ := mapM_ok (l := fs) (f := fun f => single files f d n (some a.tail))
    (P := fun f b => b.rows = rowsIn files d n f ∧ b.tail = a.tail) (fun g hg => by
      obtain ⟨b, hb1, hb2, hb3⟩ := single_some (files := files) (f := g) (dset := d) (name := n) a.tail
      exact ⟨b, hb1, hb2, hb3.elim id (hs g hg b)⟩)
  have hfirst : ∀ t, single files f d n t = .ok a := by intro t; unfold single; rw [ha]
  have hall : (f :: fs).mapM (fun f => single files f d n (some a.tail)) = .ok (a :: bs) := by
    rw [List.mapM_cons, hfirst, h1]; rfl
  have htail : ∀ b ∈ bs, b.tail = a.tail := by
    intro b hb
    obtain ⟨k, hk, hke⟩ := List.getElem_of_mem hb
    have := List.forall₂_iff_get.1 h2 |>.2 k (by have := h2.length_eq; omega) hk
    rw [← hke]
    exact this.2
  have hmap : bs.map Arr.rows = fs.map (rowsIn files d n) := forall₂_map_eq (h2.imp fun _ _ h => h.1)
  have hcat : concatenate (a :: bs) = .ok ⟨a.tail, allRows files (f :: fs) d n⟩ := by
    unfold concatenate
    dsimp only
    rw [if_pos htail]
    unfold allRows
    rw [List.map_cons, List.map_cons, hmap]
    unfold rowsIn
    simp only [ha]
  have hget : get (f :: fs) 0 = .ok f := get_eq (k := 0) (by unfold index; simp) rfl
  have hread : readFiles files (f :: fs) (c.sizes d) d n = .ok ⟨a.tail, allRows files (f :: fs) d n⟩ := by
    unfold readFiles
    simp only [bind, Except.bind, hget, hfirst, hall, hcat, hn, if_true]
    rfl
  unfold get_array
  rw [hc, hf]
  simp only [hread]
  exact ⟨_, _, rfl, rfl, rfl⟩

/-- C42: a file without groups comes first (or the name is wrong): `len(None)` raises TypeError, not KeyError. -/
theorem catalogue_first_file_empty {ρ : Type} {files : Files ρ} {c : Cat ρ} {d : Dset} {n : String} {f : Name} {fs : List Name}
    (hf : c.foffiles = f :: fs) (hc : c.cache d n = none) (ha : files f d n = none) :
    (get_array files d n c).1 = .error .typeError := by
  have hget : get (f :: fs) 0 = .ok f := get_eq (k := 0) (by unfold index; simp) rfl
  have hsingle : single files f d n none = .error .typeError := by unfold single; rw [ha]
  have hread : readFiles files (f :: fs) (c.sizes d) d n = .error .typeError := by
    unfold readFiles
    simp only [bind, Except.bind, hget, hsingle]
  unfold get_array
  rw [hc, hf]
  simp only [hread]

/-- C42: the names which are listed are exactly those for which asking does not raise TypeError, whatever was read before: arrays which
only later files have cannot be asked for. -/
theorem names_listed {ρ : Type} {files : Files ρ} {found : List Name} {header : Name → Dset → ℕ} {keys : Name → Dset → List String}
    (hk : ∀ f d n, n ∈ keys f d ↔ (files f d n).isSome) {c : Cat ρ} (hi : init found header = .ok c)
    (qs : List (Dset × String)) (d : Dset) :
    ∃ names, get_names keys d (catQueries files qs c) = .ok names ∧
      ∀ n, n ∈ names ↔ (get_array files d n (catQueries files qs c)).1 ≠ .error .typeError := by
  have hcache : c.cache = fun _ _ => none := by
    unfold init at hi
    split at hi
    · cases hi
    · cases hi; rfl
  obtain ⟨f, fs, hf⟩ : ∃ f fs, c.foffiles = f :: fs := by
    unfold init at hi
    split at hi
    · cases hi
    · cases hi; exact ⟨_, _, rfl⟩
  have hp : pristine c = c := by
    unfold pristine
    cases c
    simp only at hcache
    rw [hcache]
  have hff : (catQueries files qs c).foffiles = f :: fs := by
    have hcoh : Coherent files c := by
      intro d n a h
      rw [hcache] at h
      cases h
    obtain ⟨-, h2⟩ := catQueries_spec qs c hcoh
    have := congrArg Cat.foffiles h2
    exact this.trans hf
  have hget : get (f :: fs) 0 = .ok f := get_eq (k := 0) (by unfold index; simp) rfl
  refine ⟨keys f d, by unfold get_names; rw [hff, hget]; rfl, fun n => ?_⟩
  rw [hk, (catalogue_complete (files := files) hi qs [] d n).2.1]
  change _ ↔ (get_array files d n c).1 ≠ _
  cases ha : files f d n with
  | none => simp [catalogue_first_file_empty hf (by rw [hcache]) ha]
  | some a =>
    simp only [Option.isSome_some, true_iff]
    intro he
    have hs : single files f d n none = .ok a := by unfold single; rw [ha]
    obtain ⟨bs, h1, -⟩ := mapM_ok (l := f :: fs) (f := fun f => single files f d n (some a.tail)) (P := fun _ _ => True) (fun g _ => by
      obtain ⟨b, hb, -⟩ := single_some (files := files) (f := g) (dset := d) (name := n) a.tail
      exact ⟨b, hb, trivial⟩)
    have hr : readFiles files (f :: fs) (c.sizes d) d n ≠ .error .typeError := by
      unfold readFiles
      simp only [bind, Except.bind, hget, hs, h1]
      unfold concatenate
      intro h
      split at h
      · rename_i e he
        split at he
        · cases he; cases h
        · split at he <;> cases he; cases h
      · split at h <;> cases h
    unfold get_array at he
    rw [hcache, hf] at he
    dsimp only at he
    cases hrr : readFiles files (f :: fs) (c.sizes d) d n with
    | ok b => rw [hrr] at he; cases he
    | error e => rw [hrr] at he; cases he; exact hr hrr

/-- Two files, of which only the second has masses. -/
example : ∃ (files : Files ℝ) (keys : Name → Dset → List String) (c : Cat ℝ),
    (∀ f d n, n ∈ keys f d ↔ (files f d n).isSome) ∧ init [[1], [2]] (fun _ _ => 1) = .ok c ∧
    files [2] .group "mass" ≠ none ∧ files [1] .group "mass" = none ∧ files [1] .group "pos" ≠ none :=
  ⟨fun f _ n => if n = "pos" ∨ n = "mass" ∧ f = [2] then some ⟨[], [1]⟩ else none,
    fun f _ => if f = [2] then ["pos", "mass"] else ["pos"], ⟨[[1], [2]], fun _ => 1, fun _ _ => none⟩,
    by intro f d n; by_cases hf : f = [2] <;> simp [hf] <;> split <;> simp_all,
    by unfold init; have : ([[1], [2]] : List Name).mergeSort (· ≤ ·) = [[1], [2]] :=
         List.mergeSort_of_pairwise (by simp; decide)
       rw [this], by simp, by simp, by simp⟩

/-- The name of file `k` of a catalogue: the decimal digits of `k` between a prefix and `.hdf5`. -/
def fileName (pre : Name) (k : ℕ) : Name :=
  pre ++ ((if k = 0 then [0] else (Nat.digits 10 k).reverse).map (48 + ·) ++ [46, 104, 100, 102, 53])

theorem append_lt {pre a b : Name} (h : a < b) : pre ++ a < pre ++ b := by
  induction pre with
  | nil => exact h
  | cons x pre ih => exact List.cons_lt_cons_self.2 ih

theorem before_of_lt {fs : List Name} (hs : fs.Pairwise (· ≤ ·)) {a b : Name} (hab : a < b) {i j : ℕ} (hi : fs[i]? = some a)
    (hj : fs[j]? = some b) : i < j := by
  by_contra hc
  obtain ⟨hi', hia⟩ := List.getElem?_eq_some_iff.1 hi
  obtain ⟨hj', hjb⟩ := List.getElem?_eq_some_iff.1 hj
  rcases Nat.eq_or_lt_of_le (not_lt.1 hc) with h | h
  · subst h
    rw [hi] at hj
    cases hj
    exact lt_irrefl _ hab
  · have := List.pairwise_iff_getElem.1 hs j i hj' hi' h
    rw [hia, hjb] at this
    exact absurd hab (not_lt.2 this)

/-- C42: up to ten files are read in the order of their numbers. -/
theorem file_order_partial {fs : List Name} (hs : fs.Pairwise (· ≤ ·)) {pre : Name} {k l : ℕ} (hkl : k < l) (hl : l < 10) {i j : ℕ}
    (hi : fs[i]? = some (fileName pre k)) (hj : fs[j]? = some (fileName pre l)) : i < j := by
  refine before_of_lt hs ?_ hi hj
  unfold fileName
  refine append_lt ?_
  have hd : ∀ k < 10, (if k = 0 then [0] else (Nat.digits 10 k).reverse) = [k] := by
    intro k hk
    by_cases h0 : k = 0
    · simp [h0]
    · rw [if_neg h0, Nat.digits_of_lt 10 k h0 hk]; rfl
  rw [hd k (by omega), hd l hl]
  simp only [List.map_cons, List.map_nil, List.singleton_append]
  exact List.cons_lt_cons_iff.2 (Or.inl (by omega))

/-- C42 is false of the code for more than ten files: file 10 is read before file 2. -/
theorem file_order_wrong {fs : List Name} (hs : fs.Pairwise (· ≤ ·)) {pre : Name} {i j : ℕ}
    (hi : fs[i]? = some (fileName pre 10)) (hj : fs[j]? = some (fileName pre 2)) : i < j := by
  refine before_of_lt hs ?_ hi hj
  unfold fileName
  refine append_lt ?_
  norm_num
  exact List.cons_lt_cons_iff.2 (Or.inl (by omega))

/-- A catalogue of two files, the second without the array. -/
example : ∃ (files : Files ℝ) (c : Cat ℝ), init [[1], [0]] (fun _ _ => 2) = .ok c ∧
    ∃ a, (get_array files .group "GroupMass" c).1 = .ok a ∧ a.rows = [5, 6] := by
  refine ⟨fun f _ _ => if f = [0] then some ⟨[], [5, 6]⟩ else none, ⟨[[0], [1]], fun _ => 2, fun _ _ => none⟩, ?_, ?_⟩
  · have h : ([[1], [0]] : List Name).mergeSort (· ≤ ·) = [[0], [1]] := by
      simp [List.mergeSort, List.MergeSort.Internal.splitInTwo, List.merge]
      exact List.cons_lt_cons_iff.2 (Or.inl (by omega))
    unfold init
    rw [h]
  · obtain ⟨r, c', h1, h2, -⟩ := catalogue_succeeds (files := fun f _ _ => if f = [0] then some ⟨[], [(5 : ℝ), 6]⟩ else none)
      (c := ⟨[[0], [1]], fun _ => 2, fun _ _ => none⟩) (d := .group) (n := "GroupMass") (f := [0]) (fs := [[1]]) rfl rfl
      (a := ⟨[], [5, 6]⟩) (by simp) (by simp) (by simp [allRows, rowsIn])
    exact ⟨r, by rw [h1], by rw [h2]; simp [allRows, rowsIn]⟩

/-- Halo `g` is within distance `r` of halo `h` in every coordinate. -/
def Near (r : ℝ) (h g : Grp) : Prop := |g.pos.x - h.pos.x| < r ∧ |g.pos.y - h.pos.y| < r ∧ |g.pos.z - h.pos.z| < r

theorem find_all_mem (cat : List Grp) (min_mass : ℝ) (i : ℕ) (g : Grp) :
    (i, g) ∈ find_all_halos cat min_mass ↔
      ∃ h, cat[i]? = some h ∧ min_mass < h.mass ∧ g = { h with mass := h.mass * 1e10 } := by
  unfold find_all_halos
  rw [List.mem_map]
  have hc : ∀ m : ℝ, m * 1.989e43 / 1.989e33 = m * 1e10 := by intro m; norm_num; ring
  constructor
  · rintro ⟨⟨j, h⟩, hm, he⟩
    simp only [Prod.mk.injEq] at he
    obtain ⟨rfl, rfl⟩ := he
    rw [List.mem_filter, List.mem_map] at hm
    obtain ⟨⟨⟨h', j'⟩, h1, h2⟩, h3⟩ := hm
    simp only [Prod.mk.injEq] at h2
    obtain ⟨rfl, rfl⟩ := h2
    refine ⟨h', ?_, by simpa using h3, by rw [hc]⟩
    exact List.mk_mem_zipIdx_iff_getElem?.1 h1
  · rintro ⟨h, h1, h2, rfl⟩
    refine ⟨(i, h), ?_, by rw [hc]⟩
    rw [List.mem_filter, List.mem_map]
    exact ⟨⟨(h, i), List.mk_mem_zipIdx_iff_getElem?.2 h1, rfl⟩, by simpa using h2⟩

/-- C41: which halos are returned: those above the minimum mass such that no more massive one, also above the minimum, is
within `dist` of their own radii in every coordinate. Mass, position and radius are those of the halo with that index. -/
theorem wanted_spec (cat : List Grp) (min_mass dist : ℝ) (i : ℕ) (g : Grp) :
    (i, g) ∈ find_wanted_halos cat min_mass dist ↔
      ∃ h, cat[i]? = some h ∧ min_mass < h.mass ∧ g = ⟨h.mass * 1e10, h.pos, h.radius * dist⟩ ∧
        ∀ (j : ℕ) h', cat[j]? = some h' → min_mass < h'.mass → h.mass < h'.mass → ¬ Near (h.radius * dist) h h' := by
  unfold find_wanted_halos
  dsimp only
  rw [List.mem_filter]
  have hall : ∀ (i : ℕ) g, (i, g) ∈ (find_all_halos cat min_mass).map
      (fun p => (p.1, { p.2 with radius := p.2.radius * dist })) ↔
      ∃ h, cat[i]? = some h ∧ min_mass < h.mass ∧ g = ⟨h.mass * 1e10, h.pos, h.radius * dist⟩ := by
    intro i g
    rw [List.mem_map]
    constructor
    · rintro ⟨⟨j, g'⟩, h1, h2⟩
      simp only [Prod.mk.injEq] at h2
      obtain ⟨rfl, rfl⟩ := h2
      obtain ⟨h, h3, h4, rfl⟩ := (find_all_mem cat min_mass _ _).1 h1
      exact ⟨h, h3, h4, rfl⟩
    · rintro ⟨h, h3, h4, rfl⟩
      exact ⟨(i, _), (find_all_mem cat min_mass _ _).2 ⟨h, h3, h4, rfl⟩, rfl⟩
  rw [hall]
  constructor
  · rintro ⟨⟨h, h1, h2, rfl⟩, hm⟩
    refine ⟨h, h1, h2, rfl, ?_⟩
    intro j h' hj hmin hlt hnear
    unfold is_masked at hm
    simp only [beq_iff_eq, List.length_eq_zero_iff, List.filter_eq_nil_iff, List.mem_filter, List.mem_map] at hm
    refine hm ⟨h'.mass * 1e10, h'.pos, h'.radius * dist⟩ ⟨⟨(j, _), (List.mem_map.1 ((hall j _).2 ⟨h', hj, hmin, rfl⟩)), rfl⟩, ?_⟩ ?_
    · simpa [Near] using hnear
    · simp only [decide_eq_true_eq]
      nlinarith
  · rintro ⟨h, h1, h2, rfl, hn⟩
    refine ⟨⟨h, h1, h2, rfl⟩, ?_⟩
    unfold is_masked
    simp only [beq_iff_eq, List.length_eq_zero_iff, List.filter_eq_nil_iff, List.mem_filter]
    rintro g' ⟨hg', hnear⟩ hlt
    obtain ⟨⟨j, g''⟩, hm, rfl⟩ := List.mem_map.1 hg'
    obtain ⟨h', hj, hmin, rfl⟩ := (hall j g'').1 hm
    refine hn j h' hj hmin ?_ (by simpa [Near] using hnear)
    simp only [decide_eq_true_eq] at hlt
    nlinarith

/-- C41: halos come out in the order of the catalogue, each at most once. -/
theorem wanted_order (cat : List Grp) (min_mass dist : ℝ) :
    ((find_wanted_halos cat min_mass dist).map Prod.fst).Pairwise (· < ·) := by
  have h0 : ((find_all_halos cat min_mass).map Prod.fst).Pairwise (· < ·) := by
    unfold find_all_halos
    rw [List.map_map]
    have : ((cat.zipIdx.map (fun p => (p.2, p.1))).map Prod.fst).Pairwise (· < ·) := by
      rw [List.map_map]
      have : (Prod.fst ∘ fun p : Grp × ℕ => (p.2, p.1)) = Prod.snd := rfl
      rw [this, List.zipIdx_map_snd]
      exact List.pairwise_lt_range' ..
    refine this.sublist ?_
    exact (List.filter_sublist).map _
  unfold find_wanted_halos
  dsimp only
  refine List.Pairwise.sublist ((List.filter_sublist).map Prod.fst) ?_
  rw [List.map_map]
  exact h0

/-- C41: the most massive halo is always kept. -/
theorem most_massive_kept {cat : List Grp} {min_mass : ℝ} (dist : ℝ) {i : ℕ} {h : Grp} (hi : cat[i]? = some h)
    (hm : min_mass < h.mass) (hmax : ∀ h' ∈ cat, h'.mass ≤ h.mass) :
    ∃ g, (i, g) ∈ find_wanted_halos cat min_mass dist := by
  refine ⟨_, (wanted_spec cat min_mass dist i _).2 ⟨h, hi, hm, rfl, ?_⟩⟩
  intro j h' hj _ hlt
  exact absurd (hmax h' (List.mem_of_getElem? hj)) (not_le.2 hlt)

/-- C41: the documentation says that halos within `dist` virial radii of larger ones are removed, but it is the radius of the
smaller halo that counts: a satellite of radius 1 at distance 5 from the centre of a halo of radius 10 stays. -/
theorem satellite_kept : ∃ g, (1, g) ∈ find_wanted_halos [⟨100, ⟨50, 50, 50⟩, 10⟩, ⟨1, ⟨55, 50, 50⟩, 1⟩] 0 1 := by
  refine ⟨_, (wanted_spec _ _ _ 1 _).2 ⟨⟨1, ⟨55, 50, 50⟩, 1⟩, rfl, by norm_num, rfl, ?_⟩⟩
  intro j h' hj _ hlt
  rcases j with _ | _ | j
  · simp at hj
    subst hj
    unfold Near
    norm_num
  · simp at hj
    subst hj
    exact absurd hlt (lt_irrefl _)
  · simp at hj

/-- C41: distances are not periodic: a small halo just across the edge of the box from a large one stays. -/
theorem edge_halo_kept : ∃ g, (1, g) ∈ find_wanted_halos [⟨100, ⟨0.5, 50, 50⟩, 10⟩, ⟨1, ⟨99.5, 50, 50⟩, 5⟩] 0 1 := by
  refine ⟨_, (wanted_spec _ _ _ 1 _).2 ⟨⟨1, ⟨99.5, 50, 50⟩, 5⟩, rfl, by norm_num, rfl, ?_⟩⟩
  intro j h' hj _ hlt
  rcases j with _ | _ | j
  · simp at hj
    subst hj
    unfold Near
    norm_num [abs_of_neg]
  · simp at hj
    subst hj
    exact absurd hlt (lt_irrefl _)
  · simp at hj

/-- The transverse indices of a sightline of the grid, by axis. -/
def gridPos (dx : ℝ) (axis : ℕ) (a b : ℕ) : Pos3 :=
  if axis = 1 then ⟨0, dx * a, dx * b⟩ else if axis = 2 then ⟨dx * a, 0, dx * b⟩ else ⟨dx * a, dx * b, 0⟩

theorem gridPairs_mem (n a b : ℕ) : (a, b) ∈ gridPairs n ↔ a < n ∧ b < n := by
  unfold gridPairs
  simp [List.mem_flatMap]

theorem gridPairs_length (n : ℕ) : (gridPairs n).length = n * n := by
  unfold gridPairs
  simp

theorem gridPairs_nodup (n : ℕ) : (gridPairs n).Nodup := by
  have : gridPairs n = (List.range n).product (List.range n) := rfl
  rw [this]
  exact List.Nodup.product List.nodup_range List.nodup_range

/-- The sightlines as (axis, position) pairs. -/
def sightlines (r : List ℝ × List Pos3) : List (ℝ × Pos3) := r.1.zip r.2

theorem gridAxis_eq (dx : ℝ) (axis n : ℕ) :
    (List.replicate (n * n) (axis : ℝ)).zip ((gridPairs n).map (fun p => gridPos dx axis p.1 p.2)) =
      (gridPairs n).map (fun p => ((axis : ℝ), gridPos dx axis p.1 p.2)) := by
  apply List.ext_getElem?
  intro i
  by_cases h : i < n * n
  · rw [List.getElem?_eq_getElem (by simp [gridPairs_length, h]), List.getElem?_eq_getElem (by simp [gridPairs_length, h])]
    simp
  · rw [List.getElem?_eq_none (by simp [gridPairs_length]; omega), List.getElem?_eq_none (by simp [gridPairs_length]; omega)]

theorem gridPos_inj {dx : ℝ} (hd : 0 < dx) {axis a b c d : ℕ} (h : gridPos dx axis a b = gridPos dx axis c d) :
    a = c ∧ b = d := by
  unfold gridPos at h
  split at h
  · simp [hd.ne'] at h; exact h
  · split at h
    · simp [hd.ne'] at h; exact h
    · simp [hd.ne'] at h; exact h

/-- C43: `nspec²` sightlines along one axis, or `3 nspec²` along all three: exactly the points of the grid with spacing
`box/nspec` on the faces of the box, each once. -/
theorem grid_spec {box : ℝ} (hb : 0 < box) {nspec : ℕ} (hn : 0 < nspec) (axis : ℤ) (ha : axis < 0 ∨ axis = 1 ∨ axis = 2 ∨ axis = 3) :
    ∃ r, get_axes_and_cofm box nspec axis = .ok r ∧ r.1.length = r.2.length ∧
      r.1.length = (if axis < 0 then 3 * nspec ^ 2 else nspec ^ 2) ∧ (sightlines r).Nodup ∧
      ∀ ax p, (ax, p) ∈ sightlines r ↔ ∃ k a b : ℕ, ax = k ∧ (k = 1 ∨ k = 2 ∨ k = 3) ∧ (0 ≤ axis → (k : ℤ) = axis) ∧
        a < nspec ∧ b < nspec ∧ p = gridPos (box / nspec) k a b := by
  have hdx : 0 < box / nspec := by positivity
  set dx := box / nspec with hdxd
  have hnodup : ∀ k : ℕ, ((gridPairs nspec).map (fun p => ((k : ℝ), gridPos dx k p.1 p.2))).Nodup := by
    intro k
    refine (gridPairs_nodup nspec).map_on ?_
    rintro ⟨a, b⟩ _ ⟨c, d⟩ _ h
    simp only [Prod.mk.injEq, true_and] at h
    exact Prod.ext (gridPos_inj hdx h).1 (gridPos_inj hdx h).2
  have hmem : ∀ (k : ℕ) ax p, (ax, p) ∈ (gridPairs nspec).map (fun p => ((k : ℝ), gridPos dx k p.1 p.2)) ↔
      ∃ a b : ℕ, ax = k ∧ a < nspec ∧ b < nspec ∧ p = gridPos dx k a b := by
    intro k ax p
    rw [List.mem_map]
    constructor
    · rintro ⟨⟨a, b⟩, h1, h2⟩
      cases h2
      have := (gridPairs_mem nspec a b).1 h1
      exact ⟨a, b, rfl, this.1, this.2, rfl⟩
    · rintro ⟨a, b, rfl, h1, h2, rfl⟩
      exact ⟨(a, b), (gridPairs_mem nspec a b).2 ⟨h1, h2⟩, rfl⟩
  have hids : ∀ k : ℕ, k = 1 ∨ k = 2 ∨ k = 3 →
      ((gridPairs nspec).map (fun p => if k = 1 then (0, p.1, p.2) else if k = 2 then (p.1, 0, p.2) else (p.1, p.2, 0))).map
        (fun i : ℕ × ℕ × ℕ => (⟨dx * i.1, dx * i.2.1, dx * i.2.2⟩ : Pos3)) =
      (gridPairs nspec).map (fun p => gridPos dx k p.1 p.2) := by
    intro k hk
    rw [List.map_map]
    refine List.map_congr_left ?_
    rintro ⟨a, b⟩ _
    rcases hk with rfl | rfl | rfl <;> simp [gridPos]
  have hcast : ∀ (k : ℕ) (axis : ℤ), axis = k → ((axis : ℝ) * 1) = (k : ℝ) := by
    intro k axis h; rw [h]; simp
  rcases ha with ha | ha
  · refine ⟨(List.replicate (nspec * nspec) ((1 : ℕ) : ℝ) ++ List.replicate (nspec * nspec) ((2 : ℕ) : ℝ) ++
      List.replicate (nspec * nspec) ((3 : ℕ) : ℝ),
      (gridPairs nspec).map (fun p => gridPos dx 1 p.1 p.2) ++ (gridPairs nspec).map (fun p => gridPos dx 2 p.1 p.2) ++
      (gridPairs nspec).map (fun p => gridPos dx 3 p.1 p.2)), ?_, ?_, ?_, ?_⟩
    · unfold get_axes_and_cofm
      dsimp only
      rw [if_pos ha, if_neg (by omega), if_neg (by omega), if_neg (by omega), if_pos ha]
      have h1 := hids 1 (by simp)
      have h2 := hids 2 (by simp)
      have h3 := hids 3 (by simp)
      simp only [if_true, OfNat.ofNat_ne_one, if_false, OfNat.one_ne_ofNat, Nat.reduceEqDiff] at h1 h2 h3
      simp only [Except.map, List.map_append, one_mul, ← hdxd, h1, h2, h3, Nat.cast_one, Nat.cast_ofNat]
    · simp [gridPairs_length]
    · rw [if_pos ha]; simp; ring
    · have hs : sightlines (List.replicate (nspec * nspec) ((1 : ℕ) : ℝ) ++ List.replicate (nspec * nspec) ((2 : ℕ) : ℝ) ++
          List.replicate (nspec * nspec) ((3 : ℕ) : ℝ),
          (gridPairs nspec).map (fun p => gridPos dx 1 p.1 p.2) ++ (gridPairs nspec).map (fun p => gridPos dx 2 p.1 p.2) ++
          (gridPairs nspec).map (fun p => gridPos dx 3 p.1 p.2)) =
          (gridPairs nspec).map (fun p => (((1 : ℕ) : ℝ), gridPos dx 1 p.1 p.2)) ++
          (gridPairs nspec).map (fun p => (((2 : ℕ) : ℝ), gridPos dx 2 p.1 p.2)) ++
          (gridPairs nspec).map (fun p => (((3 : ℕ) : ℝ), gridPos dx 3 p.1 p.2)) := by
        unfold sightlines
        rw [List.zip_append (by simp [gridPairs_length]), List.zip_append (by simp [gridPairs_length]),
          gridAxis_eq, gridAxis_eq, gridAxis_eq]
      rw [hs]
      have hax : ∀ (k : ℕ) x, x ∈ (gridPairs nspec).map (fun p => ((k : ℝ), gridPos dx k p.1 p.2)) → x.1 = k := by
        intro k x hx
        obtain ⟨p, -, rfl⟩ := List.mem_map.1 hx
        rfl
      refine ⟨?_, ?_⟩
      · rw [List.nodup_append, List.nodup_append]
        refine ⟨⟨hnodup 1, hnodup 2, ?_⟩, hnodup 3, ?_⟩
        · intro x hx y hy hxy
          subst hxy
          have e1 := hax 1 x hx
          have e2 := hax 2 x hy
          rw [e1] at e2
          norm_num at e2
        · intro x hx y hy hxy
          subst hxy
          have e2 := hax 3 x hy
          rcases List.mem_append.1 hx with hx | hx
          · have e1 := hax 1 x hx
            rw [e1] at e2
            norm_num at e2
          · have e1 := hax 2 x hx
            rw [e1] at e2
            norm_num at e2
      · intro ax p
        rw [List.mem_append, List.mem_append, hmem, hmem, hmem]
        constructor
        · rintro ((⟨a, b, h1, h2, h3, h4⟩ | ⟨a, b, h1, h2, h3, h4⟩) | ⟨a, b, h1, h2, h3, h4⟩)
          · exact ⟨1, a, b, h1, by simp, by omega, h2, h3, h4⟩
          · exact ⟨2, a, b, h1, by simp, by omega, h2, h3, h4⟩
          · exact ⟨3, a, b, h1, by simp, by omega, h2, h3, h4⟩
        · rintro ⟨k, a, b, h1, hk, -, h2, h3, h4⟩
          rcases hk with rfl | rfl | rfl
          · exact Or.inl (Or.inl ⟨a, b, h1, h2, h3, h4⟩)
          · exact Or.inl (Or.inr ⟨a, b, h1, h2, h3, h4⟩)
          · exact Or.inr ⟨a, b, h1, h2, h3, h4⟩
  · obtain ⟨k, hk, hka⟩ : ∃ k : ℕ, (k = 1 ∨ k = 2 ∨ k = 3) ∧ axis = k := by
      rcases ha with rfl | rfl | rfl
      · exact ⟨1, by simp, rfl⟩
      · exact ⟨2, by simp, rfl⟩
      · exact ⟨3, by simp, rfl⟩
    have hnn : ¬ axis < 0 := by omega
    refine ⟨(List.replicate (nspec * nspec) (k : ℝ), (gridPairs nspec).map (fun p => gridPos dx k p.1 p.2)), ?_, ?_, ?_, ?_, ?_⟩
    · unfold get_axes_and_cofm
      dsimp only
      rw [if_neg hnn, hcast k axis hka]
      have h1 := hids k hk
      rcases hk with rfl | rfl | rfl
      · simp only [if_true] at h1
        rw [if_pos (by omega)]
        simp only [Except.map, one_mul, ← hdxd, h1]
      · simp only [if_true, OfNat.ofNat_ne_one, if_false] at h1
        rw [if_neg (by omega), if_pos (by omega)]
        simp only [Except.map, one_mul, ← hdxd, h1]
      · simp only [OfNat.ofNat_ne_one, if_false, Nat.reduceEqDiff] at h1
        rw [if_neg (by omega), if_neg (by omega), if_pos (by omega)]
        simp only [Except.map, one_mul, ← hdxd, h1]
    · simp [gridPairs_length]
    · rw [if_neg hnn]; simp; ring
    · unfold sightlines
      rw [gridAxis_eq]
      exact hnodup k
    · intro ax p
      unfold sightlines
      rw [gridAxis_eq, hmem]
      constructor
      · rintro ⟨a, b, h1, h2, h3, h4⟩
        exact ⟨k, a, b, h1, hk, fun _ => hka.symm, h2, h3, h4⟩
      · rintro ⟨k', a, b, h1, hk', h5, h2, h3, h4⟩
        have : k' = k := by
          have := h5 (by omega)
          omega
        subst this
        exact ⟨a, b, h1, h2, h3, h4⟩

/-- C43: all sightlines are inside the box. -/
theorem grid_inside {box : ℝ} (hb : 0 < box) {nspec : ℕ} {k a b : ℕ} (ha : a < nspec) (hb' : b < nspec) :
    let p := gridPos (box / nspec) k a b
    (0 ≤ p.x ∧ p.x < box) ∧ (0 ≤ p.y ∧ p.y < box) ∧ (0 ≤ p.z ∧ p.z < box) := by
  have hn : (0 : ℝ) < nspec := by exact_mod_cast (by omega : 0 < nspec)
  have key : ∀ a : ℕ, a < nspec → 0 ≤ box / nspec * a ∧ box / nspec * a < box := by
    intro a ha
    refine ⟨by positivity, ?_⟩
    rw [div_mul_eq_mul_div, div_lt_iff₀ hn]
    have : (a : ℝ) < nspec := by exact_mod_cast ha
    nlinarith
  have h1 := key a ha
  have h2 := key b hb'
  dsimp only
  unfold gridPos
  split
  · exact ⟨⟨le_refl _, hb⟩, h1, h2⟩
  · split
    · exact ⟨h1, ⟨le_refl _, hb⟩, h2⟩
    · exact ⟨h1, h2, ⟨le_refl _, hb⟩⟩

/-- C43: any other axis raises. -/
theorem grid_refuses (box : ℝ) (nspec : ℕ) {axis : ℤ} (h : axis = 0 ∨ 3 < axis) :
    get_axes_and_cofm box nspec axis = .error .valueError := by
  unfold get_axes_and_cofm
  dsimp only
  rw [if_neg (by omega : ¬ axis = 1), if_neg (by omega : ¬ axis = 2), if_neg (by omega : ¬ axis = 3),
    if_neg (by omega : ¬ axis < 0), if_neg (by omega : ¬ axis < 0)]
  rfl

example : (0 : ℝ) < 25000 ∧ 0 < 200 ∧ ((-1 : ℤ) < 0) := by norm_num

/-! Witnesses for the other theorems on catalogues. -/

theorem exInit : init [[1], [2]] (fun _ _ => 1) = .ok (⟨[[1], [2]], fun _ => 1, fun _ _ => none⟩ : Cat ℝ) := by
  unfold init
  have : ([[1], [2]] : List Name).mergeSort (· ≤ ·) = [[1], [2]] := List.mergeSort_of_pairwise (by simp; decide)
  rw [this]

example (files : Files ℝ) := catalogue_complete (files := files) exInit [(.group, "GroupMass")] [] .group "GroupPos"

example := catalogue_first_file_empty (files := fun f _ _ => if f = [2] then some ⟨[], [(1 : ℝ)]⟩ else none)
  (c := ⟨[[1], [2]], fun _ => 1, fun _ _ => none⟩) (d := .group) (n := "GroupMass") rfl rfl (by simp)

example := file_order_partial (fs := [fileName [7] 2, fileName [7] 5]) (by
    have : fileName [7] 2 ≤ fileName [7] 5 := by
      unfold fileName
      norm_num
      decide
    simpa using this) (pre := [7]) (k := 2) (l := 5) (by norm_num) (by norm_num) (i := 0) (j := 1) rfl rfl

example := most_massive_kept (cat := [⟨3, ⟨1, 1, 1⟩, 2⟩, ⟨5, ⟨2, 1, 1⟩, 2⟩]) (min_mass := 1) 10 (i := 1) rfl (by norm_num) (by simp; norm_num)

example := grid_spec (box := 25000) (by norm_num) (nspec := 200) (by norm_num) (-1) (by norm_num)

example := grid_inside (box := 25000) (by norm_num) (nspec := 200) (k := 2) (a := 17) (b := 199) (by norm_num) (by norm_num)

end Verif.Props
