import Verif.Model.CTools
import Mathlib.Tactic.Linarith
import Mathlib.Data.Nat.Find

/-!
C46 and C47: the files and the sightline table which the stand-alone extractor reads.
-/

namespace Verif.Props.CExtract
open Verif Verif.CTools

/-! ### Decimal numbers -/

/-- The number a string of decimal digits stands for. -/
def value (w : List Char) : ℕ := w.foldl (fun a c => 10 * a + (c.toNat - 48)) 0

theorem value_acc (w : List Char) (a : ℕ) :
    w.foldl (fun a c => 10 * a + (c.toNat - 48)) a = a * 10 ^ w.length + value w := by
  induction w generalizing a with
  | nil => simp [value]
  | cons c w ih =>
    unfold value
    rw [List.foldl_cons, List.foldl_cons, ih, ih]
    simp only [List.length_cons]
    ring

theorem value_append (u w : List Char) : value (u ++ w) = value u * 10 ^ w.length + value w := by
  unfold value
  rw [List.foldl_append, value_acc]
  rfl

theorem digit_toNat {d : ℕ} (hd : d < 10) : (Char.ofNat (48 + d)).toNat = 48 + d := by
  interval_cases d <;> rfl

/-- The digits written for a number stand for that number. -/
theorem value_dec (n : ℕ) : value (dec n) = n := by
  induction n using Nat.strong_induction_on with
  | _ n ih =>
    rw [dec]
    split
    · rename_i h
      unfold value
      rw [List.foldl_cons, List.foldl_nil, digit_toNat h]
      omega
    · rename_i h
      rw [value_append, ih (n / 10) (by omega)]
      unfold value
      rw [List.foldl_cons, List.foldl_nil, digit_toNat (by omega : n % 10 < 10)]
      simp only [List.length_singleton]
      omega

theorem dec_inj {m n : ℕ} (h : dec m = dec n) : m = n := by rw [← value_dec m, ← value_dec n, h]

theorem dec_ne (n : ℕ) : dec n ≠ [] := by
  rw [dec]
  split <;> simp

theorem dec_small {n : ℕ} (h : n < 10) : (dec n).length = 1 := by
  rw [dec, if_pos h]
  rfl

theorem dec_long {n : ℕ} (h : 10 ≤ n) : 2 ≤ (dec n).length := by
  rw [dec, if_neg (by omega), List.length_append]
  have := List.length_pos_iff.2 (dec_ne (n / 10))
  simp only [List.length_singleton]
  omega

theorem dec_two {n : ℕ} (h : 10 ≤ n) (h2 : n < 100) : (dec n).length = 2 := by
  rw [dec, if_neg (by omega), List.length_append, dec_small (by omega)]
  rfl

theorem dec_three {n : ℕ} (h : 100 ≤ n) (h2 : n < 1000) : (dec n).length = 3 := by
  rw [dec, if_neg (by omega), List.length_append, dec_two (by omega) (by omega)]
  rfl

/-! ### The files of a snapshot -/

/-- The name of file `j` of the snapshot `base`. -/
def fileName (base : List Char) (j : ℕ) : List Char := base ++ ['.'] ++ dec j ++ ['.', 'h', 'd', 'f', '5']

/-- The snapshot consists of the files 0 to `N - 1`, and nothing else is there. -/
def Snapshot (isHdf : List Char → Bool) (base : List Char) (N : ℕ) : Prop :=
  ∀ s, isHdf s = true ↔ ∃ j < N, s = fileName base j

/-- `.0.hdf5` occurs in the name of the first file only at its end. -/
def OnlyAtEnd (base : List Char) : Prop := ∀ i < base.length, ¬ firstSuffix <+: (base ++ firstSuffix).drop i

theorem first_name (base : List Char) : base ++ firstSuffix = fileName base 0 := by
  unfold fileName firstSuffix
  rw [dec, if_pos (by norm_num)]
  simp

theorem prefix_beq (s pat : List Char) : (s.take pat.length == pat) = true ↔ pat <+: s := by
  rw [beq_iff_eq]
  constructor
  · intro h
    rw [← h]
    exact List.take_prefix _ _
  · intro h
    exact (List.prefix_iff_eq_take.1 h).symm

theorem iFileno_first {base : List Char} (h : OnlyAtEnd base) : iFileno (base ++ firstSuffix) = base.length + 1 := by
  have : strFind (base ++ firstSuffix) firstSuffix = some base.length := by
    unfold strFind
    rw [List.find?_range_eq_some]
    refine ⟨?_, ?_, ?_⟩
    · rw [prefix_beq, List.drop_left]
    · rw [List.mem_range]
      simp
    · intro j hj
      have := h j hj
      rw [← prefix_beq] at this
      simpa using this
  unfold iFileno
  rw [this]

/-- The number in the name tried at pass `n` of the loop: only the first character of the previous one is replaced. -/
def nth : ℕ → List Char
  | 0 => ['0']
  | n + 1 => dec (n + 1) ++ (nth n).tail

/-- The name with the number `w`. -/
def named (base w : List Char) : List Char := base ++ ['.'] ++ w ++ ['.', 'h', 'd', 'f', '5']

theorem named_inj {base v w : List Char} (h : named base v = named base w) : v = w := by
  unfold named at h
  have := List.append_inj_left' h rfl
  exact List.append_cancel_left this

theorem replace_named (base w t : List Char) (hw : w ≠ []) :
    strReplace (named base w) (base.length + 1) t = named base (t ++ w.tail) := by
  unfold strReplace named
  obtain ⟨c, w, rfl⟩ := List.exists_cons_of_ne_nil hw
  have hl : (base ++ ['.']).length = base.length + 1 := by simp
  have e1 : (base ++ ['.'] ++ c :: w ++ ['.', 'h', 'd', 'f', '5']).take (base.length + 1) = base ++ ['.'] := by
    rw [List.append_assoc (base ++ ['.'])]
    exact List.take_left' hl
  have e2 : (base ++ ['.'] ++ c :: w ++ ['.', 'h', 'd', 'f', '5']).drop (base.length + 1 + 1) =
      w ++ ['.', 'h', 'd', 'f', '5'] := by
    have : base ++ ['.'] ++ c :: w ++ ['.', 'h', 'd', 'f', '5'] = (base ++ ['.'] ++ [c]) ++ (w ++ ['.', 'h', 'd', 'f', '5']) := by
      simp
    rw [this]
    exact List.drop_left' (by simp)
  rw [e1, e2]
  simp

theorem nth_ne (n : ℕ) : nth n ≠ [] := by
  cases n with
  | zero => simp [nth]
  | succ n => simp [nth, dec_ne]

theorem value_nth (n : ℕ) : n ≤ value (nth n) := by
  cases n with
  | zero => omega
  | succ n =>
    rw [nth, value_append, value_dec]
    have : 1 ≤ 10 ^ ((nth n).tail).length := Nat.one_le_pow _ _ (by norm_num)
    nlinarith

theorem nth_small {n : ℕ} (h : n ≤ 9) : nth n = dec n := by
  induction n with
  | zero => rw [nth, dec, if_pos (by norm_num)]
  | succ n ih =>
    rw [nth, ih (by omega)]
    have := dec_small (n := n) (by omega)
    have : (dec n).tail = [] := by
      rw [← List.length_eq_zero_iff, List.length_tail]
      omega
    rw [this, List.append_nil]

theorem nth_ten : nth 10 = dec 10 := by
  rw [nth, nth_small (by norm_num)]
  have := dec_small (n := 9) (by omega)
  have : (dec 9).tail = [] := by
    rw [← List.length_eq_zero_iff, List.length_tail]
    omega
  rw [this, List.append_nil]

theorem nth_eleven : nth 11 = dec 110 := by
  rw [nth, nth_ten]
  simp [dec]

theorem nth_grows {n : ℕ} (h : 9 ≤ n) : (nth n).length < (nth (n + 1)).length := by
  rw [nth, List.length_append, List.length_tail]
  have := List.length_pos_iff.2 (nth_ne n)
  have := dec_long (n := n + 1) (by omega)
  omega

theorem nth_length_lt {m n : ℕ} (h : 9 ≤ m) (hmn : m < n) : (nth m).length < (nth n).length := by
  induction n with
  | zero => omega
  | succ n ih =>
    have := nth_grows (n := n) (by omega)
    by_cases h2 : m = n
    · subst h2
      exact this
    · have := ih (by omega)
      omega

theorem nth_lt_ne {m n : ℕ} (hmn : m < n) : nth m ≠ nth n := by
  intro h
  by_cases h9 : 9 ≤ m
  · have := nth_length_lt h9 hmn
    rw [h] at this
    omega
  · by_cases hn : n ≤ 9
    · rw [nth_small (by omega), nth_small hn] at h
      have := dec_inj h
      omega
    · have := nth_length_lt (m := 9) (n := n) le_rfl (by omega)
      rw [← h, nth_small (n := m) (by omega), nth_small le_rfl, dec_small (by omega), dec_small (by omega)] at this
      omega

theorem nth_inj {m n : ℕ} (h : nth m = nth n) : m = n := by
  rcases Nat.lt_trichotomy m n with h1 | h1 | h1
  · exact absurd h (nth_lt_ne h1)
  · exact h1
  · exact absurd h.symm (nth_lt_ne h1)

theorem exists_iff {isHdf : List Char → Bool} {base : List Char} {N : ℕ} (h : Snapshot isHdf base N) (w : List Char) :
    isHdf (named base w) = true ↔ ∃ j < N, w = dec j := by
  rw [h]
  constructor
  · rintro ⟨j, hj, he⟩
    exact ⟨j, hj, named_inj (base := base) he⟩
  · rintro ⟨j, hj, rfl⟩
    exact ⟨j, hj, rfl⟩

/-- What the loop reads when the names up to pass `m` exist and that of pass `m` does not. -/
theorem loop_spec {isHdf : List Char → Bool} {base : List Char} (d : ℕ) : ∀ (n fuel : ℕ), d < fuel →
    (∀ k, n < k → k ≤ n + d → isHdf (named base (nth k)) = true) → isHdf (named base (nth (n + d + 1))) = false →
    hdfLoop isHdf (base.length + 1) fuel (named base (nth n)) n =
      some ((List.range' (n + 1) d).map (fun k => Read.hdf (named base (nth k)))) := by
  induction d with
  | zero =>
    intro n fuel hf _ hm
    obtain ⟨f, rfl⟩ : ∃ f, fuel = f + 1 := ⟨fuel - 1, by omega⟩
    rw [hdfLoop]
    rw [replace_named base _ _ (nth_ne n)]
    change (if isHdf (named base (nth (n + 1))) = true then _ else _) = _
    rw [if_neg (by simpa using hm)]
    rfl
  | succ d ih =>
    intro n fuel hf hk hm
    obtain ⟨f, rfl⟩ : ∃ f, fuel = f + 1 := ⟨fuel - 1, by omega⟩
    rw [hdfLoop]
    rw [replace_named base _ _ (nth_ne n)]
    change (if isHdf (named base (nth (n + 1))) = true then
      (hdfLoop isHdf (base.length + 1) f (named base (nth (n + 1))) (n + 1)).map (fun r => Read.hdf (named base (nth (n + 1))) :: r)
      else some []) = _
    rw [if_pos (hk (n + 1) (by omega) (by omega)), ih (n + 1) f (by omega) (fun k h1 h2 => hk k (by omega) (by omega))
      (by rw [← hm]; congr 3; omega)]
    rw [Option.map_some, List.range'_succ, List.map_cons]

theorem named_first (base : List Char) : base ++ firstSuffix = named base (nth 0) := by
  rw [first_name, nth_small (by omega)]
  rfl

/-- The name of the snapshot, or of its first file. -/
def Given (base infname : List Char) : Prop := infname = base ∨ infname = fileName base 0

theorem filesRead_eq {isHdf : List Char → Bool} {base infname : List Char} {N : ℕ} (h : Snapshot isHdf base N) (hN : 0 < N)
    (hend : OnlyAtEnd base) (hg : Given base infname) (fuel : ℕ) :
    filesRead isHdf infname fuel = hdfLoop isHdf (base.length + 1) fuel (named base (nth 0)) 0 := by
  have hfirst : isHdf (base ++ firstSuffix) = true := (h _).2 ⟨0, hN, first_name base⟩
  have hbase : isHdf base = false := by
    rw [Bool.eq_false_iff]
    intro hb
    obtain ⟨j, _, hj⟩ := (h _).1 hb
    have := congrArg List.length hj
    simp [fileName] at this
  have hfind : find_first_hdf_file isHdf infname = some (base ++ firstSuffix) := by
    unfold find_first_hdf_file
    rcases hg with rfl | rfl
    · rw [hbase, hfirst]
      rfl
    · rw [← first_name, hfirst]
      rfl
  unfold filesRead
  rw [hfind]
  dsimp only
  rw [iFileno_first hend, if_neg (by omega), ← named_first]

/-- C46, in general: there is a pass at which the loop stops, and it has read one file in each pass before it. -/
theorem stops {isHdf : List Char → Bool} {base infname : List Char} {N : ℕ} (h : Snapshot isHdf base N) (hN : 0 < N)
    (hend : OnlyAtEnd base) (hg : Given base infname) :
    ∃ m, m < N ∧ (∀ k, 0 < k → k ≤ m → ∃ j < N, nth k = dec j) ∧ (¬ ∃ j < N, nth (m + 1) = dec j) ∧
      ∀ fuel, N ≤ fuel → filesRead isHdf infname fuel =
        some ((List.range' 1 m).map (fun k => Read.hdf (named base (nth k)))) := by
  classical
  have hex : ∃ m, ¬ ∃ j < N, nth (m + 1) = dec j := by
    refine ⟨N - 1, ?_⟩
    rintro ⟨j, hj, he⟩
    have := value_nth (N - 1 + 1)
    rw [he, value_dec] at this
    omega
  have hmin := fun k => Nat.find_min hex (m := k)
  have hspec := Nat.find_spec hex
  have hle : Nat.find hex ≤ N - 1 := by
    apply Nat.find_min'
    rintro ⟨j, hj, he⟩
    have := value_nth (N - 1 + 1)
    rw [he, value_dec] at this
    omega
  refine ⟨Nat.find hex, by omega, ?_, hspec, ?_⟩
  · intro k h0 hk
    have := hmin (k - 1) (by omega)
    rw [not_not] at this
    rwa [show k - 1 + 1 = k by omega] at this
  · intro fuel hf
    rw [filesRead_eq h hN hend hg]
    have := loop_spec (isHdf := isHdf) (base := base) (Nat.find hex) 0 fuel (by omega) (by
      intro k h0 hk
      rw [exists_iff h]
      have := hmin (k - 1) (by omega)
      rw [not_not] at this
      rwa [show k - 1 + 1 = k by omega] at this) (by
      rw [Bool.eq_false_iff, ne_eq, exists_iff h]
      rwa [zero_add])
    rw [this]

/-- C46. Reading a snapshot of any number of files ends, and no file is read twice. -/
theorem reads_once_partial {isHdf : List Char → Bool} {base infname : List Char} {N : ℕ} (h : Snapshot isHdf base N)
    (hN : 0 < N) (hend : OnlyAtEnd base) (hg : Given base infname) :
    ∃ l : List ℕ, l.Nodup ∧ (∀ j ∈ l, j < N) ∧
      ∀ fuel, N ≤ fuel → filesRead isHdf infname fuel = some (l.map (fun j => Read.hdf (fileName base j))) := by
  obtain ⟨m, h1, h2, _, h4⟩ := stops h hN hend hg
  have hval : ∀ k, 0 < k → k ≤ m → value (nth k) < N ∧ nth k = dec (value (nth k)) := by
    intro k h0 hk
    obtain ⟨j, hj, he⟩ := h2 k h0 hk
    rw [he, value_dec]
    exact ⟨hj, rfl⟩
  refine ⟨(List.range' 1 m).map (fun k => value (nth k)), ?_, ?_, ?_⟩
  · apply List.Nodup.map_on _ List.nodup_range'
    intro a ha b hb hab
    rw [List.mem_range'_1] at ha hb
    apply nth_inj
    rw [(hval a (by omega) (by omega)).2, (hval b (by omega) (by omega)).2, hab]
  · intro j hj
    obtain ⟨k, hk, rfl⟩ := List.mem_map.1 hj
    rw [List.mem_range'_1] at hk
    exact (hval k (by omega) (by omega)).1
  · intro fuel hf
    rw [h4 fuel hf, List.map_map]
    congr 1
    apply List.map_congr_left
    intro k hk
    rw [List.mem_range'_1] at hk
    simp only [Function.comp]
    unfold fileName
    rw [← (hval k (by omega) (by omega)).2]
    rfl

/-- C46 is false for every number of files: the first file is never read. -/
theorem first_never_read {isHdf : List Char → Bool} {base infname : List Char} {N : ℕ} (h : Snapshot isHdf base N)
    (hN : 0 < N) (hend : OnlyAtEnd base) (hg : Given base infname) {fuel : ℕ} (hf : N ≤ fuel) :
    ∃ r, filesRead isHdf infname fuel = some r ∧ Read.hdf (fileName base 0) ∉ r := by
  obtain ⟨m, h1, h2, _, h4⟩ := stops h hN hend hg
  refine ⟨_, h4 fuel hf, ?_⟩
  intro hmem
  obtain ⟨k, hk, he⟩ := List.mem_map.1 hmem
  rw [List.mem_range'_1] at hk
  injection he with he
  have := value_nth k
  rw [named_inj (base := base) (w := dec 0) he, value_dec] at this
  omega

/-- C46. With up to 110 files, those read are the second to the eleventh. -/
theorem reads_ten {isHdf : List Char → Bool} {base infname : List Char} {N : ℕ} (h : Snapshot isHdf base N)
    (hN : 0 < N) (hN2 : N ≤ 110) (hend : OnlyAtEnd base) (hg : Given base infname) {fuel : ℕ} (hf : N ≤ fuel) :
    filesRead isHdf infname fuel = some ((List.range' 1 (min (N - 1) 10)).map (fun j => Read.hdf (fileName base j))) := by
  have hname : ∀ k, k ≤ 10 → nth k = dec k := by
    intro k hk
    by_cases h9 : k ≤ 9
    · exact nth_small h9
    · have : k = 10 := by omega
      subst this
      exact nth_ten
  rw [filesRead_eq h hN hend hg]
  rw [loop_spec (isHdf := isHdf) (base := base) (min (N - 1) 10) 0 fuel (by omega) ?_ ?_]
  · congr 1
    apply List.map_congr_left
    intro k hk
    rw [List.mem_range'_1] at hk
    rw [hname k (by omega)]
    rfl
  · intro k h0 hk
    rw [exists_iff h]
    exact ⟨k, by omega, hname k (by omega)⟩
  · rw [Bool.eq_false_iff, ne_eq, exists_iff h]
    rintro ⟨j, hj, he⟩
    by_cases hb : N - 1 < 10
    · rw [min_eq_left (by omega), hname _ (by omega)] at he
      have := dec_inj he
      omega
    · rw [min_eq_right (by omega)] at he
      have := dec_inj (nth_eleven.symm.trans he)
      omega

/-- C46 is false beyond eleven files: whatever their number, the files 11 to 109 are never read. -/
theorem rest_never_read {isHdf : List Char → Bool} {base infname : List Char} {N : ℕ} (h : Snapshot isHdf base N)
    (hN : 0 < N) (hend : OnlyAtEnd base) (hg : Given base infname) {fuel : ℕ} (hf : N ≤ fuel) {j : ℕ} (hj : 11 ≤ j)
    (hj2 : j < 110) : ∃ r, filesRead isHdf infname fuel = some r ∧ Read.hdf (fileName base j) ∉ r := by
  obtain ⟨m, h1, h2, _, h4⟩ := stops h hN hend hg
  refine ⟨_, h4 fuel hf, ?_⟩
  intro hmem
  obtain ⟨k, hk, he⟩ := List.mem_map.1 hmem
  injection he with he
  have hk2 : nth k = dec j := named_inj (base := base) (w := dec j) he
  have l10 : (nth 10).length = 2 := by rw [nth_ten, dec_two (by omega) (by omega)]
  have l11 : (nth 11).length = 3 := by rw [nth_eleven, dec_three (by omega) (by omega)]
  rcases Nat.lt_trichotomy k 10 with hk3 | hk3 | hk3
  · rw [nth_small (by omega)] at hk2
    have := dec_inj hk2
    omega
  · subst hk3
    rw [nth_ten] at hk2
    have := dec_inj hk2
    omega
  · rcases Nat.lt_trichotomy k 11 with hk4 | hk4 | hk4
    · omega
    · subst hk4
      rw [nth_eleven] at hk2
      have := dec_inj hk2
      omega
    · have := nth_length_lt (m := 11) (n := k) (by omega) hk4
      rw [hk2, l11] at this
      by_cases h100 : j < 100
      · rw [dec_two (by omega) h100] at this
        omega
      · rw [dec_three (by omega) (by omega)] at this
        omega

/-- An HDF5 file whose name does not contain `.0.hdf5` is read as if it were a Gadget file. -/
theorem single_hdf5 {isHdf : List Char → Bool} {infname : List Char} (h : isHdf infname = true)
    (hno : ¬ firstSuffix <:+: infname) (fuel : ℕ) : filesRead isHdf infname fuel = some [.gadget infname] := by
  have hs : strFind infname firstSuffix = none := by
    unfold strFind
    rw [List.find?_eq_none]
    intro i _ hi
    rw [prefix_beq] at hi
    exact hno (hi.isInfix.trans (List.drop_suffix i infname).isInfix)
  unfold filesRead find_first_hdf_file
  rw [h, if_pos rfl]
  dsimp only
  have : iFileno infname = 0 := by
    unfold iFileno
    rw [hs]
  rw [if_pos this]

/-- The hypotheses hold for a snapshot of twenty files. -/
example : ∃ isHdf, Snapshot isHdf ['s', 'n'] 20 ∧ OnlyAtEnd ['s', 'n'] ∧ Given ['s', 'n'] ['s', 'n'] := by
  classical
  refine ⟨fun s => decide (∃ j < 20, s = fileName ['s', 'n'] j), fun s => by simp, ?_, Or.inl rfl⟩
  intro i hi
  simp only [List.length_cons, List.length_nil] at hi
  interval_cases i <;> decide

/-! ### The table of sightlines -/

/-- A coordinate in the box, or not a number. -/
def InBox (box : ℝ) (x : CFloat) : Prop := ∀ v, x = some v → 0 ≤ v ∧ v ≤ box

theorem inBox_of {boxm : ℝ} {x : CFloat} (h1 : fgt x boxm = false) (h2 : flt x 0 = false) : InBox (boxm * 1000) (times1000 x) := by
  intro v hv
  cases x with
  | none => simp [times1000] at hv
  | some x =>
    simp only [times1000, Option.map_some, Option.some.injEq] at hv
    simp only [fgt, decide_eq_false_iff_not, gt_iff_lt, not_lt] at h1
    simp only [flt, decide_eq_false_iff_not, not_lt] at h2
    subst hv
    constructor <;> linarith

/-- C47. Whatever the table, every sightline accepted has an axis from 0 to 3 and no coordinate outside the box, and there
are as many as were asked for. -/
theorem accepted_partial {boxm : ℝ} (n : ℕ) : ∀ {input : List Scan} {v : Vars} {los : List Los},
    readTable boxm n input v = .ok los → los.length = n ∧ ∀ l ∈ los, 0 ≤ l.axis ∧ l.axis ≤ 3 ∧
      InBox (boxm * 1000) l.x ∧ InBox (boxm * 1000) l.y ∧ InBox (boxm * 1000) l.z := by
  induction n with
  | zero =>
    intro input v los h
    rw [readTable] at h
    cases h
    simp
  | succ n ih =>
    intro input v los h
    cases input with
    | nil => simp [readTable] at h
    | cons s rest =>
      cases s with
      | eof => simp [readTable] at h
      | items a x y z =>
        rw [readTable] at h
        dsimp only at h
        split at h
        · rename_i axis xx yy zz h1 h2 h3 h4
          split at h
          · simp at h
          · rename_i hax
            split at h
            · simp at h
            · rename_i hb
              simp only [bind, Except.bind] at h
              split at h
              · simp at h
              · rename_i r hr
                simp only [pure, Except.pure, Except.ok.injEq] at h
                subst h
                obtain ⟨i1, i2⟩ := ih hr
                refine ⟨by simp [i1], ?_⟩
                intro l hl
                rw [List.mem_cons] at hl
                rcases hl with rfl | hl
                · simp only [Bool.or_eq_true, not_or, Bool.not_eq_true] at hb
                  obtain ⟨⟨⟨⟨⟨b1, b2⟩, b3⟩, b4⟩, b5⟩, b6⟩ := hb
                  exact ⟨by dsimp only; omega, by dsimp only; omega, inBox_of b1 b2, inBox_of b3 b4, inBox_of b5 b6⟩
                · exact i2 l hl
        · simp at h

/-- A complete row of finite numbers. -/
def full (r : ℤ × ℝ × ℝ × ℝ) : Scan := .items (some r.1) (some (some r.2.1)) (some (some r.2.2.1)) (some (some r.2.2.2))

/-- The row describes a sightline in the box. -/
def RowOk (boxm : ℝ) (r : ℤ × ℝ × ℝ × ℝ) : Prop :=
  (0 ≤ r.1 ∧ r.1 ≤ 3) ∧ (0 ≤ r.2.1 ∧ r.2.1 ≤ boxm) ∧ (0 ≤ r.2.2.1 ∧ r.2.2.1 ≤ boxm) ∧ (0 ≤ r.2.2.2 ∧ r.2.2.2 ≤ boxm)

/-- The sightline of a row: positions are in thousandths. -/
noncomputable def losOf (r : ℤ × ℝ × ℝ × ℝ) : Los := ⟨r.1, some (r.2.1 * 1000), some (r.2.2.1 * 1000), some (r.2.2.2 * 1000)⟩

theorem step_ok {boxm : ℝ} {r : ℤ × ℝ × ℝ × ℝ} (hr : RowOk boxm r) (n : ℕ) (rest : List Scan) (v : Vars) :
    ∃ v', readTable boxm (n + 1) (full r :: rest) v = (readTable boxm n rest v').map (fun l => losOf r :: l) := by
  obtain ⟨⟨a1, a2⟩, ⟨x1, x2⟩, ⟨y1, y2⟩, z1, z2⟩ := hr
  refine ⟨⟨some r.1, some (some r.2.1), some (some r.2.2.1), some (some r.2.2.2)⟩, ?_⟩
  unfold full
  rw [readTable]
  dsimp only [Option.or]
  rw [if_neg (by omega), if_neg]
  · simp only [bind, Except.bind, Except.map]
    cases readTable boxm n rest ⟨some r.1, some (some r.2.1), some (some r.2.2.1), some (some r.2.2.2)⟩ with
    | error e => rfl
    | ok l => rfl
  · simp only [fgt, flt, Bool.or_eq_true, decide_eq_true_eq]
    rintro (((((h | h) | h) | h) | h) | h) <;> linarith

/-- C47. A table of valid rows is read as it stands, line after line. -/
theorem table_read {boxm : ℝ} (rows : List (ℤ × ℝ × ℝ × ℝ)) (h : ∀ r ∈ rows, RowOk boxm r) (rest : List Scan) (v : Vars) :
    readTable boxm rows.length (rows.map full ++ rest) v = .ok (rows.map losOf) := by
  induction rows generalizing v with
  | nil => rfl
  | cons r rows ih =>
    obtain ⟨v', hv⟩ := step_ok (h r (by simp)) rows.length (rows.map full ++ rest) v
    rw [List.map_cons, List.cons_append, List.length_cons, hv, ih (fun r hr => h r (by simp [hr]))]
    rfl

/-- C47. A complete row which does not describe a sightline in the box stops the program. -/
theorem bad_row_stops {boxm : ℝ} (rows : List (ℤ × ℝ × ℝ × ℝ)) (h : ∀ r ∈ rows, RowOk boxm r) (r : ℤ × ℝ × ℝ × ℝ)
    (hr : ¬ RowOk boxm r) (rest : List Scan) (v : Vars) {n : ℕ} (hn : rows.length < n) :
    readTable boxm n (rows.map full ++ full r :: rest) v = .error (.exit 3) := by
  induction rows generalizing v n with
  | nil =>
    obtain ⟨n, rfl⟩ : ∃ m, n = m + 1 := ⟨n - 1, by simp at hn; omega⟩
    rw [List.map_nil, List.nil_append]
    unfold full
    rw [readTable]
    dsimp only [Option.or]
    by_cases ha : r.1 > 3 ∨ r.1 < 0
    · rw [if_pos ha]
    · rw [if_neg ha, if_pos]
      simp only [fgt, flt, Bool.or_eq_true, decide_eq_true_eq]
      by_contra hc
      apply hr
      push Not at hc ha
      obtain ⟨⟨⟨⟨⟨b1, b2⟩, b3⟩, b4⟩, b5⟩, b6⟩ := hc
      exact ⟨⟨ha.2, ha.1⟩, ⟨b2, b1⟩, ⟨b4, b3⟩, b6, b5⟩
  | cons r' rows ih =>
    obtain ⟨n, rfl⟩ : ∃ m, n = m + 1 := ⟨n - 1, by simp at hn; omega⟩
    obtain ⟨v', hv⟩ := step_ok (h r' (by simp)) n (rows.map full ++ full r :: rest) v
    rw [List.map_cons, List.cons_append, hv, ih (fun r hr => h r (by simp [hr])) v' (by simp at hn; omega)]
    rfl

/-- C47. A table with too few rows stops the program. -/
theorem truncated_stops {boxm : ℝ} (rows : List (ℤ × ℝ × ℝ × ℝ)) (h : ∀ r ∈ rows, RowOk boxm r) (v : Vars) {n : ℕ}
    (hn : rows.length < n) : readTable boxm n (rows.map full) v = .error (.exit 3) := by
  induction rows generalizing v n with
  | nil =>
    obtain ⟨n, rfl⟩ : ∃ m, n = m + 1 := ⟨n - 1, by simp at hn; omega⟩
    rfl
  | cons r' rows ih =>
    obtain ⟨n, rfl⟩ : ∃ m, n = m + 1 := ⟨n - 1, by simp at hn; omega⟩
    obtain ⟨v', hv⟩ := step_ok (h r' (by simp)) n (rows.map full) v
    rw [List.map_cons, hv, ih (fun r hr => h r (by simp [hr])) v' (by simp at hn; omega)]
    rfl

/-- C47 is false of axis 0, which is accepted: there is no such axis. -/
theorem axis_zero_accepted : populateTable 1 [full (0, 1, 2, 3)] 10000 = .ok [losOf (0, 1, 2, 3)] := by
  have := table_read (boxm := 10000 / 1000) [(0, 1, 2, 3)] (by
    intro r hr
    rw [List.mem_singleton] at hr
    subst hr
    refine ⟨⟨by norm_num, by norm_num⟩, ⟨by norm_num, by norm_num⟩, ⟨by norm_num, by norm_num⟩, by norm_num, by norm_num⟩) []
    ⟨none, none, none, none⟩
  exact this

/-- C47 is false of a coordinate which is not a number. -/
theorem nan_accepted (box : ℝ) : populateTable 1 [.items (some 1) (some none) (some none) (some none)] box =
    .ok [⟨1, none, none, none⟩] := by
  unfold populateTable
  rw [readTable]
  dsimp only [Option.or]
  rw [if_neg (by norm_num), if_neg (by simp [fgt, flt])]
  rfl

/-- C47 is false of a row which is not made of numbers: the sightline before it is silently taken again. -/
theorem words_repeat {boxm : ℝ} {r : ℤ × ℝ × ℝ × ℝ} (hr : RowOk boxm r) (rest : List Scan) (v : Vars) :
    readTable boxm 2 (full r :: .items none none none none :: rest) v = .ok [losOf r, losOf r] := by
  have e : readTable boxm 2 (full r :: .items none none none none :: rest) v = readTable boxm 2 (full r :: full r :: rest) v := by
    simp only [full, Option.or, readTable]
  rw [e]
  exact table_read [r, r] (by simpa using hr) rest v

/-- If it is the first row, the sightline is made of variables which were never set. -/
theorem words_first (box : ℝ) (rest : List Scan) : populateTable 1 (.items none none none none :: rest) box = .error .assertFailed := by
  unfold populateTable
  rw [readTable]
  rfl

example : RowOk 10 (1, 1, 2, 3) := by
  refine ⟨⟨by norm_num, by norm_num⟩, ⟨by norm_num, by norm_num⟩, ⟨by norm_num, by norm_num⟩, by norm_num, by norm_num⟩

/-! ### Random sightlines -/

theorem drawAxis_spec {us : List ℝ} (hu : ∀ u ∈ us, 0 ≤ u ∧ u < 1) {a : ℤ} {rest : List ℝ} (h : drawAxis us = some (a, rest)) :
    (1 ≤ a ∧ a ≤ 3) ∧ rest <:+ us := by
  induction us with
  | nil => simp [drawAxis] at h
  | cons u us ih =>
    rw [drawAxis] at h
    split at h
    · obtain ⟨h1, h2⟩ := ih (fun u hu' => hu u (by simp [hu'])) h
      exact ⟨h1, h2.trans (List.suffix_cons _ _)⟩
    · rename_i hn
      cases h
      obtain ⟨u0, u1⟩ := hu u (by simp)
      have f0 : (0 : ℤ) ≤ ⌊u * 4⌋ := Int.floor_nonneg.2 (by linarith)
      have f1 : ⌊u * 4⌋ < (4 : ℤ) := by
        rw [Int.floor_lt]
        push_cast
        linarith
      exact ⟨⟨by omega, by omega⟩, List.suffix_cons _ _⟩

/-- C47. Random sightlines are along one of the three axes and inside the box. -/
theorem random_valid {box : ℝ} (hbox : 0 < box) (n : ℕ) : ∀ {us : List ℝ}, (∀ u ∈ us, 0 ≤ u ∧ u < 1) → ∀ {los : List Los},
    populateRandom box n us = some los → los.length = n ∧ ∀ l ∈ los, (1 ≤ l.axis ∧ l.axis ≤ 3) ∧
      ∃ x y z, l.x = some x ∧ l.y = some y ∧ l.z = some z ∧ (0 ≤ x ∧ x < box) ∧ (0 ≤ y ∧ y < box) ∧ (0 ≤ z ∧ z < box) := by
  induction n with
  | zero =>
    intro us _ los h
    rw [populateRandom] at h
    cases h
    simp
  | succ n ih =>
    intro us hu los h
    rw [populateRandom] at h
    split at h
    · rename_i a u1 u2 u3 rest hd
      obtain ⟨ha, hsuf⟩ := drawAxis_spec hu hd
      have hu' : ∀ u ∈ u1 :: u2 :: u3 :: rest, 0 ≤ u ∧ u < 1 := fun u hm => hu u (hsuf.subset hm)
      obtain ⟨r, hr, rfl⟩ := Option.map_eq_some_iff.1 h
      obtain ⟨i1, i2⟩ := ih (fun u hm => hu' u (by simp [hm])) hr
      refine ⟨by simp [i1], ?_⟩
      intro l hl
      rw [List.mem_cons] at hl
      rcases hl with rfl | hl
      · have hin : ∀ u, (0 ≤ u ∧ u < 1) → 0 ≤ u * box ∧ u * box < box := by
          intro u hu
          constructor
          · exact mul_nonneg hu.1 hbox.le
          · have := mul_lt_mul_of_pos_right hu.2 hbox
            linarith
        exact ⟨ha, _, _, _, rfl, rfl, rfl, hin u1 (hu' u1 (by simp)), hin u2 (hu' u2 (by simp)), hin u3 (hu' u3 (by simp))⟩
      · exact i2 l hl
    · simp at h

/-- Two random numbers too many and four which do: a sightline along the second axis. -/
example : ∃ los, populateRandom 10 1 [0, 1 / 2, 1 / 4, 0, 3 / 4] = some los := by
  have : drawAxis [0, 1 / 2, 1 / 4, 0, 3 / 4] = some (2, [1 / 4, 0, 3 / 4]) := by
    have e : ⌊(1 / 2 : ℝ) * 4⌋ = 2 := by rw [Int.floor_eq_iff]; norm_num
    simp only [drawAxis, zero_mul, Int.floor_zero, true_or, if_true, e]
    norm_num
  exact ⟨_, by rw [populateRandom, this]; rfl⟩

/-! Witnesses: the theorems on files hold of a snapshot of twenty files, those on tables of two good rows. -/

example : ∃ isHdf, Snapshot isHdf ['s', 'n'] 20 ∧
    (∃ l : List ℕ, l.Nodup ∧ (∀ j ∈ l, j < 20) ∧
      ∀ fuel, 20 ≤ fuel → filesRead isHdf ['s', 'n'] fuel = some (l.map (fun j => Read.hdf (fileName ['s', 'n'] j)))) ∧
    (∃ r, filesRead isHdf ['s', 'n'] 20 = some r ∧ Read.hdf (fileName ['s', 'n'] 0) ∉ r) ∧
    filesRead isHdf ['s', 'n'] 20 = some ((List.range' 1 10).map (fun j => Read.hdf (fileName ['s', 'n'] j))) ∧
    ∃ r, filesRead isHdf ['s', 'n'] 20 = some r ∧ Read.hdf (fileName ['s', 'n'] 15) ∉ r := by
  classical
  have h : Snapshot (fun s => decide (∃ j < 20, s = fileName ['s', 'n'] j)) ['s', 'n'] 20 := fun s => by simp
  have he : OnlyAtEnd ['s', 'n'] := by
    intro i hi
    simp only [List.length_cons, List.length_nil] at hi
    interval_cases i <;> decide
  have hg : Given ['s', 'n'] ['s', 'n'] := Or.inl rfl
  exact ⟨_, h, reads_once_partial h (by norm_num) he hg, first_never_read h (by norm_num) he hg le_rfl,
    reads_ten h (by norm_num) (by norm_num) he hg le_rfl, rest_never_read h (by norm_num) he hg le_rfl (by norm_num) (by norm_num)⟩

theorem rowOk_ex : RowOk 10 (1, 1, 2, 3) :=
  ⟨⟨by norm_num, by norm_num⟩, ⟨by norm_num, by norm_num⟩, ⟨by norm_num, by norm_num⟩, by norm_num, by norm_num⟩

example (rest : List Scan) (v : Vars) := table_read [(1, 1, 2, 3), (1, 1, 2, 3)] (by simpa using rowOk_ex) rest v

example (rest : List Scan) (v : Vars) := bad_row_stops [(1, 1, 2, 3)] (by simpa using rowOk_ex) (1, 1, 2, 30)
  (fun h => by have := h.2.2.2.2; norm_num at this) rest v (n := 2) (by simp)

example (v : Vars) := truncated_stops [(1, 1, 2, 3)] (by simpa using rowOk_ex) v (n := 2) (by simp)

example (rest : List Scan) (v : Vars) := words_repeat rowOk_ex rest v

end Verif.Props.CExtract
