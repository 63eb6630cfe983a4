import Verif.Model.SnapNames
import Verif.Props.Snapshot
import Mathlib.Data.Nat.Digits.Lemmas

/-!
C110: the files of a snapshot are found from its number. C111: the header says what was written.
-/

namespace Verif.Props.SnapNames
open Verif Verif.Snapshot Verif.SnapNames

/-! ### Specification -/

/-- A file of snapshot `num` in the directory: `snap_NNN` followed by something which begins with a point and ends in `.hdf5`, for
instance `snap_NNN.hdf5` or `snap_NNN.7.hdf5`. `stem` is `snap_` or `snapshot_`. -/
def FileOf (stem : String) (num : ℕ) (f : SnapNames.Name) : Prop :=
  ∃ rest, f = codes stem ++ snap num ++ rest ∧ (codes ".").isPrefixOf rest ∧ (codes "hdf5").isSuffixOf rest

/-! ### Numbers -/

theorem decimal_ne_nil (n : ℕ) : decimal n ≠ [] := by
  unfold decimal
  split
  · simp
  · rename_i h
    simp [Nat.digits_ne_nil_iff_ne_zero.2 h]

theorem decimal_inj {n m : ℕ} (h : decimal n = decimal m) : n = m := by
  unfold decimal at h
  have h' := List.map_injective_iff.2 (fun a b (hab : 48 + a = 48 + b) => by omega) h
  have hz : ∀ k, k ≠ 0 → (Nat.digits 10 k).reverse ≠ [0] := by
    intro k hk he
    have : Nat.digits 10 k = [0] := by rw [← List.reverse_reverse (Nat.digits 10 k), he]; rfl
    have h2 := Nat.ofDigits_digits 10 k
    rw [this] at h2
    simp at h2
    omega
  by_cases hn : n = 0 <;> by_cases hm : m = 0
  · omega
  · rw [if_pos hn, if_neg hm] at h'
    exact absurd h'.symm (hz m hm)
  · rw [if_neg hn, if_pos hm] at h'
    exact absurd h' (hz n hn)
  · rw [if_neg hn, if_neg hm] at h'
    exact Nat.digits_inj_iff.1 (List.reverse_injective h')

theorem decimal_length {n : ℕ} (hn : n < 1000) : (decimal n).length ≤ 3 := by
  unfold decimal
  split
  · simp
  · simp only [List.length_map, List.length_reverse]
    exact (Nat.digits_length_le_iff (by norm_num) n).2 (by norm_num; exact hn)

theorem snap_length {n : ℕ} (hn : n < 1000) : (snap n).length = 3 := by
  unfold snap
  rw [List.length_append, List.length_replicate]
  have := decimal_length hn
  omega

/-- The value of the digits of a padded number. -/
def value (l : SnapNames.Name) : ℕ := l.foldl (fun a d => 10 * a + (d - 48)) 0

theorem value_zeros (k : ℕ) (l : SnapNames.Name) : value (List.replicate k 48 ++ l) = value l := by
  induction k with
  | zero => rfl
  | succ k ih =>
    rw [List.replicate_succ, List.cons_append]
    exact ih

theorem value_decimal (n : ℕ) : value (decimal n) = n := by
  have key : ∀ l : List ℕ, value (l.reverse.map (48 + ·)) = Nat.ofDigits 10 l := by
    intro l
    induction l with
    | nil => rfl
    | cons d l ih =>
      rw [List.reverse_cons, List.map_append, Nat.ofDigits_cons, ← ih]
      unfold value
      rw [List.foldl_append]
      simp
      omega
  unfold decimal
  split
  · rename_i h; rw [h]; rfl
  · rw [key, Nat.ofDigits_digits]

theorem snap_inj {n m : ℕ} (h : snap n = snap m) : n = m := by
  have := congrArg value h
  unfold snap at this
  rwa [value_zeros, value_zeros, value_decimal, value_decimal] at this

/-! ### Patterns -/

theorem mem_glob {pre suf : SnapNames.Name} {dir : List SnapNames.Name} {f : SnapNames.Name} :
    f ∈ glob pre suf dir ↔ f ∈ dir ∧ ∃ mid, f = pre ++ mid ++ suf := by
  unfold glob
  rw [List.mem_filter, Bool.and_eq_true, List.isPrefixOf_iff_prefix, List.isSuffixOf_iff_suffix]
  constructor
  · rintro ⟨h, ⟨r, rfl⟩, ⟨mid, hm⟩⟩
    rw [List.drop_left] at hm
    exact ⟨h, mid, by rw [List.append_assoc, hm]⟩
  · rintro ⟨h, mid, rfl⟩
    refine ⟨h, ⟨mid ++ suf, by rw [List.append_assoc]⟩, ⟨mid, ?_⟩⟩
    rw [List.append_assoc, List.drop_left]

theorem fileOf_mem {stem : String} {num : ℕ} {f : SnapNames.Name} (hf : FileOf stem num f) {dir : List SnapNames.Name} (hd : f ∈ dir) :
    f ∈ glob (codes stem ++ snap num) (codes "hdf5") dir := by
  obtain ⟨rest, rfl, -, hs⟩ := hf
  rw [List.isSuffixOf_iff_suffix] at hs
  obtain ⟨mid, rfl⟩ := hs
  exact mem_glob.2 ⟨hd, mid, by simp [List.append_assoc]⟩

theorem fileOf_other {stem : String} {n m : ℕ} (hn : n < 1000) (hm : m < 1000) {f : SnapNames.Name} (hf : FileOf stem m f)
    {dir : List SnapNames.Name} (h : f ∈ glob (codes stem ++ snap n) (codes "hdf5") dir) : n = m := by
  obtain ⟨-, mid, hmid⟩ := mem_glob.1 h
  obtain ⟨rest, hrest, -, -⟩ := hf
  rw [hrest, List.append_assoc, List.append_assoc, List.append_assoc] at hmid
  have := List.append_cancel_left hmid
  have := (List.append_inj this (by rw [snap_length hn, snap_length hm])).1
  exact (snap_inj this).symm

theorem stems_apart {n m : ℕ} {f : SnapNames.Name} (hf : FileOf "snapshot_" m f) {dir : List SnapNames.Name} :
    f ∉ glob (codes "snap_" ++ snap n) (codes "hdf5") dir := by
  intro h
  obtain ⟨-, mid, hmid⟩ := mem_glob.1 h
  obtain ⟨rest, hrest, -, -⟩ := hf
  rw [hrest] at hmid
  have := congrArg (fun l => l[4]?) hmid
  simp [codes] at this

theorem filter_sorted {l : List SnapNames.Name} {p : SnapNames.Name → Bool} (hp : ∀ f ∈ l, p f) : (pySort l).filter p = pySort l := by
  rw [List.filter_eq_self]
  intro f hf
  exact hp f (List.mem_mergeSort.1 hf)

/-! ### The properties -/

/-- C110, partial: if every file in the directory belongs to a snapshot with a number below 1000 and is an HDF5 file, opening number
`num` gives exactly the files of that snapshot. The directory is `snapdir_NNN` if there is one, else the simulation directory. -/
theorem finds_own_files_partial {sub : Option (List SnapNames.Name)} {base : List SnapNames.Name} {isHdf5 : SnapNames.Name → Bool}
    {num : ℕ} (hnum : num < 1000) (hall : ∀ f ∈ sub.getD base, isHdf5 f = true ∧ ∃ m < 1000, FileOf "snap_" m f)
    (hown : ∃ f ∈ sub.getD base, FileOf "snap_" num f) :
    ∃ files, allFiles sub base isHdf5 num none = .ok files ∧
      ∀ f, f ∈ files ↔ f ∈ sub.getD base ∧ FileOf "snap_" num f := by
  set G := glob (codes "snap_" ++ snap num) (codes "hdf5") (sub.getD base) with hG
  have hmem : ∀ f, f ∈ G ↔ f ∈ sub.getD base ∧ FileOf "snap_" num f := by
    intro f
    constructor
    · intro h
      have hd := (mem_glob.1 h).1
      obtain ⟨-, m, hm, hf⟩ := hall f hd
      have := fileOf_other hnum hm hf h
      subst this
      exact ⟨hd, hf⟩
    · rintro ⟨hd, hf⟩
      exact fileOf_mem hf hd
  have hne : G ≠ [] := by
    obtain ⟨f, h1, h2⟩ := hown
    exact List.ne_nil_of_mem ((hmem f).2 ⟨h1, h2⟩)
  have hsub : (diskOf sub base isHdf5 num).snap (sub.isSome) = G := by
    unfold diskOf
    dsimp only
    rw [hG]
    cases sub <;> rfl
  have hfind : findFiles (diskOf sub base isHdf5 num) none = .ok (pySort G) := by
    unfold findFiles
    have h1 : ((none : Option Comm).isNone && (diskOf sub base isHdf5 num).snapdirExists) = sub.isSome := by
      unfold diskOf; simp
    dsimp only
    rw [h1, hsub]
    have : G.length ≠ 0 := by simpa using hne
    rw [if_neg this, if_neg this]
  refine ⟨pySort G, ?_, fun f => ?_⟩
  · unfold allFiles get_all_files
    rw [hfind]
    change Except.ok _ = _
    congr 1
    apply filter_sorted
    intro f hf
    exact (hall f (mem_glob.1 hf).1).1
  · unfold pySort
    rw [List.mem_mergeSort]
    exact hmem f

theorem decimal_ten {n d : ℕ} (hn : 0 < n) (hd : d < 10) : decimal (10 * n + d) = decimal n ++ [48 + d] := by
  unfold decimal
  rw [if_neg (by omega), if_neg (by omega)]
  have : Nat.digits 10 (10 * n + d) = d :: Nat.digits 10 n := by
    rw [add_comm]
    exact Nat.digits_add 10 (by norm_num) d n (by simpa using hd) (Or.inr (by omega))
  rw [this]
  simp

/-- C110 is false of the code: in one directory, opening number 100 to 999 also gives the files of the ten snapshots whose number has one
more digit: the pattern has a star right after the number. -/
theorem finds_other_files {sub : Option (List SnapNames.Name)} {base : List SnapNames.Name} {isHdf5 : SnapNames.Name → Bool}
    {num d : ℕ} (hnum : 100 ≤ num) (hd : d < 10) {f : SnapNames.Name} (hf : FileOf "snap_" (10 * num + d) f) (hin : f ∈ sub.getD base)
    (hh : isHdf5 f = true) : ∃ files, allFiles sub base isHdf5 num none = .ok files ∧ f ∈ files := by
  have hlen : ∀ k, 100 ≤ k → snap k = decimal k := by
    intro k hk
    have : 3 ≤ (decimal k).length := by
      unfold decimal
      rw [if_neg (by omega), List.length_map, List.length_reverse]
      have := Nat.lt_digits_length_iff (b := 10) (by norm_num) (k := 2) k
      have := this.2 (by norm_num; exact hk)
      omega
    unfold snap
    rw [show 3 - (decimal k).length = 0 by omega]
    rfl
  have hmem : f ∈ glob (codes "snap_" ++ snap num) (codes "hdf5") (sub.getD base) := by
    obtain ⟨rest, rfl, -, hs⟩ := hf
    rw [List.isSuffixOf_iff_suffix] at hs
    obtain ⟨mid, rfl⟩ := hs
    refine mem_glob.2 ⟨hin, [48 + d] ++ mid, ?_⟩
    rw [hlen _ (by omega), hlen _ hnum, decimal_ten (by omega) hd]
    simp [List.append_assoc]
  set G := glob (codes "snap_" ++ snap num) (codes "hdf5") (sub.getD base) with hG
  have hsub : (diskOf sub base isHdf5 num).snap (sub.isSome) = G := by
    unfold diskOf
    dsimp only
    rw [hG]
    cases sub <;> rfl
  have hfind : findFiles (diskOf sub base isHdf5 num) none = .ok (pySort G) := by
    unfold findFiles
    have h1 : ((none : Option Comm).isNone && (diskOf sub base isHdf5 num).snapdirExists) = sub.isSome := by
      unfold diskOf; simp
    dsimp only
    rw [h1, hsub]
    have : G.length ≠ 0 := by simpa using List.ne_nil_of_mem hmem
    rw [if_neg this, if_neg this]
  refine ⟨(pySort G).filter isHdf5, ?_, List.mem_filter.2 ⟨?_, hh⟩⟩
  · unfold allFiles get_all_files
    rw [hfind]
    rfl
  · unfold pySort
    rw [List.mem_mergeSort]
    exact hmem

/-- Snapshots 100 and 1000 beside each other. -/
example : FileOf "snap_" (10 * 100 + 0) (codes "snap_1000.3.hdf5") ∧ FileOf "snap_" 100 (codes "snap_100.hdf5") ∧
    FileOf "snap_" 7 (codes "snap_007.12.hdf5") := by
  have h1 : snap (10 * 100 + 0) = codes "1000" := by unfold snap decimal; norm_num; decide
  have h2 : snap 100 = codes "100" := by unfold snap decimal; norm_num; decide
  have h3 : snap 7 = codes "007" := by unfold snap decimal; norm_num; decide
  refine ⟨⟨codes ".3.hdf5", ?_, by decide, by decide⟩, ⟨codes ".hdf5", ?_, by decide, by decide⟩, ⟨codes ".12.hdf5", ?_, by decide, by decide⟩⟩
  · rw [h1]; decide
  · rw [h2]; decide
  · rw [h3]; decide

/-- C110: files named after another stem are found only if there are none named `snap_NNN`; then the same holds for them. -/
theorem finds_second_stem_partial {sub : Option (List SnapNames.Name)} {base : List SnapNames.Name} {isHdf5 : SnapNames.Name → Bool}
    {num : ℕ} (hnum : num < 1000) (hall : ∀ f ∈ sub.getD base, isHdf5 f = true ∧ ∃ m < 1000, FileOf "snapshot_" m f)
    (hown : ∃ f ∈ sub.getD base, FileOf "snapshot_" num f) :
    ∃ files, allFiles sub base isHdf5 num none = .ok files ∧
      ∀ f, f ∈ files ↔ f ∈ sub.getD base ∧ FileOf "snapshot_" num f := by
  set G := glob (codes "snapshot_" ++ snap num) (codes "hdf5") (sub.getD base) with hG
  have hmem : ∀ f, f ∈ G ↔ f ∈ sub.getD base ∧ FileOf "snapshot_" num f := by
    intro f
    constructor
    · intro h
      have hd := (mem_glob.1 h).1
      obtain ⟨-, m, hm, hf⟩ := hall f hd
      have := fileOf_other hnum hm hf h
      subst this
      exact ⟨hd, hf⟩
    · rintro ⟨hd, hf⟩
      exact fileOf_mem hf hd
  have hne : G ≠ [] := by
    obtain ⟨f, h1, h2⟩ := hown
    exact List.ne_nil_of_mem ((hmem f).2 ⟨h1, h2⟩)
  have hsub : (diskOf sub base isHdf5 num).snapshot (sub.isSome) = G := by
    unfold diskOf
    dsimp only
    rw [hG]
    cases sub <;> rfl
  have hsnap : (diskOf sub base isHdf5 num).snap (sub.isSome) = [] := by
    unfold diskOf
    dsimp only
    rw [List.eq_nil_iff_forall_not_mem]
    intro f hf
    have hd : f ∈ sub.getD base := by
      have := (mem_glob.1 hf).1
      cases sub <;> exact this
    obtain ⟨-, m, -, hfm⟩ := hall f hd
    exact stems_apart hfm hf
  have hfind : findFiles (diskOf sub base isHdf5 num) none = .ok (pySort G) := by
    unfold findFiles
    have h1 : ((none : Option Comm).isNone && (diskOf sub base isHdf5 num).snapdirExists) = sub.isSome := by
      unfold diskOf; simp
    dsimp only
    rw [h1, hsub, hsnap]
    have : G.length ≠ 0 := by simpa using hne
    simp [this]
  refine ⟨pySort G, ?_, fun f => ?_⟩
  · unfold allFiles get_all_files
    rw [hfind]
    change Except.ok _ = _
    congr 1
    apply filter_sorted
    intro f hf
    exact (hall f (mem_glob.1 hf).1).1
  · unfold pySort
    rw [List.mem_mergeSort]
    exact hmem f

/-- C110: without any file of the snapshot in the directory, `IOError`. -/
theorem no_files {sub : Option (List SnapNames.Name)} {base : List SnapNames.Name} {isHdf5 : SnapNames.Name → Bool} {num : ℕ}
    (hnum : num < 1000) (hall : ∀ f ∈ sub.getD base, ∃ m < 1000, m ≠ num ∧ FileOf "snap_" m f) :
    allFiles sub base isHdf5 num none = .error .ioError := by
  have h1 : ((none : Option Comm).isNone && (diskOf sub base isHdf5 num).snapdirExists) = sub.isSome := by
    unfold diskOf; simp
  have hsnap : (diskOf sub base isHdf5 num).snap (sub.isSome) = [] := by
    unfold diskOf
    dsimp only
    rw [List.eq_nil_iff_forall_not_mem]
    intro f hf
    have hd : f ∈ sub.getD base := by
      have := (mem_glob.1 hf).1
      cases sub <;> exact this
    obtain ⟨m, hm, hne, hfm⟩ := hall f hd
    exact hne (fileOf_other hnum hm hfm hf).symm
  have hshot : (diskOf sub base isHdf5 num).snapshot (sub.isSome) = [] := by
    unfold diskOf
    dsimp only
    rw [List.eq_nil_iff_forall_not_mem]
    intro f hf
    have hd : f ∈ sub.getD base := by
      have := (mem_glob.1 hf).1
      cases sub <;> exact this
    obtain ⟨m, hm, hne, rest, hrest, -, -⟩ := hall f hd
    obtain ⟨-, mid, hmid⟩ := mem_glob.1 hf
    rw [hrest] at hmid
    have := congrArg (fun l => l[4]?) hmid
    simp [codes] at this
  unfold allFiles get_all_files findFiles
  dsimp only
  rw [h1, hsnap, hshot]
  rfl

/-- C110: a BigFile snapshot is taken from the directory of its number if that is there, and from the simulation directory if not; it
is accepted exactly if it has a header; two numbers never share a directory. -/
theorem bigfile_path {entries : List SnapNames.Name} {openBig : Option SnapNames.Name → Except Readers.BigErr (List String)} {num : ℕ} :
    (∀ p, openBigFile entries openBig num = .ok p ↔
      p = (if codes "PART_" ++ snap num ∈ entries then some (codes "PART_" ++ snap num) else none) ∧
      ∃ blocks, openBig p = .ok blocks ∧ "Header" ∈ blocks) ∧
    ∀ m, codes "PART_" ++ snap num = codes "PART_" ++ snap m → num = m := by
  refine ⟨fun p => ?_, fun m h => snap_inj (List.append_cancel_left h)⟩
  unfold openBigFile
  dsimp only
  generalize (if codes "PART_" ++ snap num ∈ entries then some (codes "PART_" ++ snap num) else none) = q
  cases hq : openBig q with
  | error e =>
    constructor
    · intro h; cases h
    · rintro ⟨rfl, b, hb, -⟩
      rw [hq] at hb
      cases hb
  | ok blocks =>
    change (if "Header" ∈ blocks then Except.ok q else _) = _ ↔ _
    by_cases hH : "Header" ∈ blocks
    · rw [if_pos hH]
      constructor
      · intro h; cases h; exact ⟨rfl, blocks, hq, hH⟩
      · rintro ⟨rfl, -⟩; rfl
    · rw [if_neg hH]
      constructor
      · intro h; cases h
      · rintro ⟨rfl, b, hb, hb'⟩
        rw [hq] at hb
        cases hb
        exact absurd hb' hH

/-! ### The header -/

/-- C111: a number of the header comes back as that number whether it is stored as a number or as an array of one; arrays of several
numbers come back as they are. -/
theorem header_attr {α : Type} (x y : α) (l : List α) :
    get_header_attr (.scalar x) = .scalar x ∧ get_header_attr (.array [x]) = .scalar x ∧
    get_header_attr (.array (x :: y :: l)) = .array (x :: y :: l) := ⟨rfl, rfl, rfl⟩

/-- C111, partial: with NumPy 1 the numbers of particles are those written, for all numbers below `2^64`, each split into two words of
32 bits. -/
theorem npart_partial (n : List ℕ) (hn : ∀ k ∈ n, k < 2 ^ 64) :
    get_npart .one (n.map (· % 2 ^ 32)) (n.map (· / 2 ^ 32)) = .ok n := by
  unfold get_npart timesTwo32
  change Except.ok _ = Except.ok _
  congr 1
  induction n with
  | nil => rfl
  | cons k n ih =>
    rw [List.map_cons, List.map_cons, List.map_cons, List.zipWith_cons_cons, ih (fun j hj => hn j (by simp [hj]))]
    congr 1
    have := hn k (by simp)
    omega

/-- C111 is false of the code with NumPy 2: `2**32` does not fit the type of the array, so the number of particles of no HDF5 snapshot
can be read, and no spectra can be made from one. -/
theorem npart_numpy2_fails (total highword : List ℕ) : get_npart .two total highword = .error .overflowError := rfl

/-- Six types of particles, one of them with more than `2^32`. -/
example : ∃ n : List ℕ, n.length = 6 ∧ (∀ k ∈ n, k < 2 ^ 64) ∧ ∃ k ∈ n, 2 ^ 32 < k :=
  ⟨[5000000000, 5000000000, 0, 0, 12, 0], rfl, by simp, 5000000000, by simp, by norm_num⟩

/-! Two snapshots in a directory, one of them in two files. -/

theorem exFiles : FileOf "snap_" 7 (codes "snap_007.0.hdf5") ∧ FileOf "snap_" 7 (codes "snap_007.1.hdf5") ∧
    FileOf "snap_" 12 (codes "snap_012.0.hdf5") ∧ FileOf "snapshot_" 7 (codes "snapshot_007.hdf5") := by
  have h1 : snap 7 = codes "007" := by unfold snap decimal; norm_num; decide
  have h2 : snap 12 = codes "012" := by unfold snap decimal; norm_num; decide
  refine ⟨⟨codes ".0.hdf5", ?_, by decide, by decide⟩, ⟨codes ".1.hdf5", ?_, by decide, by decide⟩, ⟨codes ".0.hdf5", ?_, by decide, by decide⟩,
    ⟨codes ".hdf5", ?_, by decide, by decide⟩⟩
  · rw [h1]; decide
  · rw [h1]; decide
  · rw [h2]; decide
  · rw [h1]; decide

example : ∃ files, allFiles none [codes "snap_007.0.hdf5", codes "snap_012.0.hdf5", codes "snap_007.1.hdf5"] (fun _ => true) 7 none = .ok files ∧
    codes "snap_007.1.hdf5" ∈ files := by
  obtain ⟨files, h, hm⟩ := finds_own_files_partial (sub := none)
    (base := [codes "snap_007.0.hdf5", codes "snap_012.0.hdf5", codes "snap_007.1.hdf5"]) (isHdf5 := fun _ => true) (num := 7) (by norm_num)
    (by
      intro f hf
      simp only [Option.getD_none, List.mem_cons, List.not_mem_nil, or_false] at hf
      rcases hf with rfl | rfl | rfl
      · exact ⟨rfl, 7, by norm_num, exFiles.1⟩
      · exact ⟨rfl, 12, by norm_num, exFiles.2.2.1⟩
      · exact ⟨rfl, 7, by norm_num, exFiles.2.1⟩)
    ⟨_, by simp, exFiles.1⟩
  exact ⟨files, h, (hm _).2 ⟨by simp, exFiles.2.1⟩⟩

example := finds_second_stem_partial (sub := some [codes "snapshot_007.hdf5"]) (base := []) (isHdf5 := fun _ => true) (num := 7) (by norm_num)
  (by
    intro f hf
    simp only [Option.getD_some, List.mem_singleton] at hf
    subst hf
    exact ⟨rfl, 7, by norm_num, exFiles.2.2.2⟩) ⟨_, by simp, exFiles.2.2.2⟩

example : allFiles none [codes "snap_012.0.hdf5"] (fun _ => true) 7 none = .error .ioError :=
  no_files (by norm_num) (by
    intro f hf
    simp only [Option.getD_none, List.mem_singleton] at hf
    subst hf
    exact ⟨12, by norm_num, by norm_num, exFiles.2.2.1⟩)

end Verif.Props.SnapNames
