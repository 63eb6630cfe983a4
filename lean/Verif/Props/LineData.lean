import Verif.Model.LineData

/-!
C44: roman numerals, species and the table of lines.
-/

namespace Verif.Props.LineData
open Verif Verif.LineData

/-! ### Roman numerals -/

/-- A decimal digit written with the symbols for one, five and ten. -/
def digit (one five ten : Char) : ℕ → List Char
  | 1 => [one]
  | 2 => [one, one]
  | 3 => [one, one, one]
  | 4 => [one, five]
  | 5 => [five]
  | 6 => [five, one]
  | 7 => [five, one, one]
  | 8 => [five, one, one, one]
  | 9 => [one, ten]
  | _ => []

/-- The roman numeral of a number: as many `M` as thousands, then hundreds, tens and units. -/
def numeral (n : ℕ) : List Char :=
  List.replicate (n / 1000) 'M' ++ digit 'C' 'D' 'M' (n / 100 % 10) ++ digit 'X' 'L' 'C' (n / 10 % 10) ++
    digit 'I' 'V' 'X' (n % 10)

/-- The sum when a numeral is followed by one which starts with no larger symbol than it ends with. -/
theorem places_append (xs ys : List ℤ) (h : ∀ x y, xs.getLast? = some x → ys.head? = some y → y ≤ x) :
    (places (xs ++ ys)).sum = (places xs).sum + (places ys).sum := by
  induction xs with
  | nil => simp [places]
  | cons v xs ih =>
    cases xs with
    | nil =>
      cases ys with
      | nil => simp [places]
      | cons w r =>
        have hle := h v w rfl rfl
        have : ¬ w > v := by omega
        simp [places, this]
    | cons w r =>
      have := ih (fun x y hx hy => h x y (by simpa using hx) hy)
      simp only [List.cons_append, places, List.sum_cons] at this ⊢
      rw [this]
      ring

/-- The values of a string of symbols. -/
def vals (s : List Char) : List ℤ := s.map (fun c => (romanDigit c).getD 0)

/-- All characters are symbols. -/
def Symbols (s : List Char) : Prop := ∀ c ∈ s, c ∈ ['M', 'D', 'C', 'L', 'X', 'V', 'I']

theorem romanDigit_some {c : Char} (h : c ∈ ['M', 'D', 'C', 'L', 'X', 'V', 'I']) : ∃ v, romanDigit c = some v := by
  simp only [List.mem_cons, List.not_mem_nil, or_false] at h
  rcases h with rfl | rfl | rfl | rfl | rfl | rfl | rfl <;> exact ⟨_, rfl⟩

theorem romanDigit_none {c : Char} (h : c ∉ ['M', 'D', 'C', 'L', 'X', 'V', 'I']) : romanDigit c = none := by
  unfold romanDigit
  split <;> first | rfl | (exfalso; exact h (by decide))

theorem roman_ok {s : List Char} (h : Symbols s) : roman_to_int s = .ok (places (vals s)).sum := by
  have : s.mapM romanDigit = some (vals s) := by
    induction s with
    | nil => rfl
    | cons c s ih =>
      obtain ⟨v, hv⟩ := romanDigit_some (h c (by simp))
      rw [List.mapM_cons, hv, ih (fun d hd => h d (by simp [hd]))]
      simp [vals, hv]
  unfold roman_to_int
  rw [this]

/-- C44. Strings with any other character are rejected, and no others. -/
theorem roman_rejects (s : List Char) :
    roman_to_int s = .error .valueError ↔ ∃ c ∈ s, c ∉ ['M', 'D', 'C', 'L', 'X', 'V', 'I'] := by
  constructor
  · intro h
    by_contra hc
    push Not at hc
    rw [roman_ok hc] at h
    cases h
  · rintro ⟨c, hc, hn⟩
    have : s.mapM romanDigit = none := by
      induction s with
      | nil => simp at hc
      | cons d s ih =>
        rw [List.mapM_cons]
        rcases List.mem_cons.1 hc with rfl | hc
        · rw [romanDigit_none hn]; rfl
        · rw [ih hc]
          cases romanDigit d <;> rfl
    unfold roman_to_int
    rw [this]

/-- One digit: its value, and its symbols. -/
theorem digit_val (d : ℕ) (hd : d < 10) :
    (places (vals (digit 'I' 'V' 'X' d))).sum = d ∧ (places (vals (digit 'X' 'L' 'C' d))).sum = 10 * d ∧
    (places (vals (digit 'C' 'D' 'M' d))).sum = 100 * d := by
  interval_cases d <;> decide

theorem digit_mem {one five ten c : Char} {d : ℕ} (h : c ∈ digit one five ten d) : c = one ∨ c = five ∨ c = ten := by
  unfold digit at h
  split at h <;> simp at h <;> tauto

theorem digit_head (one five ten : Char) (d : ℕ) : ∀ c, (digit one five ten d).head? = some c → c = one ∨ c = five := by
  intro c h
  unfold digit at h
  split at h <;> simp at h <;> subst h <;> simp

theorem digit_last (one five ten : Char) (d : ℕ) :
    ∀ c, (digit one five ten d).getLast? = some c → c = one ∨ c = five ∨ c = ten :=
  fun _ h => digit_mem (List.mem_of_getLast? h)

theorem vals_last {s : List Char} {x : ℤ} (h : (vals s).getLast? = some x) :
    ∃ c, s.getLast? = some c ∧ (romanDigit c).getD 0 = x := by
  unfold vals at h
  rw [List.getLast?_map] at h
  cases hs : s.getLast? with
  | none => rw [hs] at h; cases h
  | some c => rw [hs] at h; exact ⟨c, rfl, Option.some.inj h⟩

theorem vals_head {s : List Char} {x : ℤ} (h : (vals s).head? = some x) :
    ∃ c, s.head? = some c ∧ (romanDigit c).getD 0 = x := by
  unfold vals at h
  rw [List.head?_map] at h
  cases hs : s.head? with
  | none => rw [hs] at h; cases h
  | some c => rw [hs] at h; exact ⟨c, rfl, Option.some.inj h⟩

theorem vals_append (s t : List Char) : vals (s ++ t) = vals s ++ vals t := by simp [vals]

theorem thousands (k : ℕ) : (places (vals (List.replicate k 'M'))).sum = 1000 * k := by
  induction k with
  | zero => rfl
  | succ k ih =>
    have : List.replicate (k + 1) 'M' = ['M'] ++ List.replicate k 'M' := by
      rw [List.replicate_succ]; rfl
    rw [this, vals_append, places_append, ih]
    · simp [vals, romanDigit, places]; ring
    · intro x y hx hy
      obtain ⟨c, h1, rfl⟩ := vals_last hx
      obtain ⟨d, h2, rfl⟩ := vals_head hy
      have hd : d = 'M' := by
        have := List.mem_of_head? h2
        exact (List.mem_replicate.1 this).2
      simp at h1
      subst h1 hd
      decide

/-- C44. Every number, of any size, is read back from its roman numeral. -/
theorem roman_value (n : ℕ) : roman_to_int (numeral n) = .ok n := by
  have hsym : Symbols (numeral n) := by
    intro c hc
    unfold numeral at hc
    simp only [List.mem_append] at hc
    rcases hc with ((hc | hc) | hc) | hc
    · rw [(List.mem_replicate.1 hc).2]; decide
    all_goals
      rcases digit_mem hc with rfl | rfl | rfl <;> decide
  rw [roman_ok hsym]
  congr 1
  have v1 := (digit_val (n / 100 % 10) (Nat.mod_lt _ (by norm_num))).2.2
  have v2 := (digit_val (n / 10 % 10) (Nat.mod_lt _ (by norm_num))).2.1
  have v3 := (digit_val (n % 10) (Nat.mod_lt _ (by norm_num))).1
  have v0 := thousands (n / 1000)
  unfold numeral
  rw [vals_append, places_append, vals_append, places_append, vals_append, places_append, v0, v1, v2, v3]
  · omega
  · intro x y hx hy
    obtain ⟨c, h1, rfl⟩ := vals_last hx
    obtain ⟨d, h2, rfl⟩ := vals_head hy
    have hc : c = 'M' := (List.mem_replicate.1 (List.mem_of_getLast? h1)).2
    subst hc
    rcases digit_head _ _ _ _ _ h2 with rfl | rfl <;> decide
  · intro x y hx hy
    obtain ⟨c, h1, rfl⟩ := vals_last hx
    obtain ⟨d, h2, rfl⟩ := vals_head hy
    have hc : c = 'M' ∨ c = 'C' ∨ c = 'D' := by
      have := List.mem_of_getLast? h1
      rcases List.mem_append.1 this with h | h
      · exact Or.inl (List.mem_replicate.1 h).2
      · rcases digit_mem h with h | h | h <;> tauto
    rcases hc with rfl | rfl | rfl <;> rcases digit_head _ _ _ _ _ h2 with rfl | rfl <;> decide
  · intro x y hx hy
    obtain ⟨c, h1, rfl⟩ := vals_last hx
    obtain ⟨d, h2, rfl⟩ := vals_head hy
    have hc : c = 'M' ∨ c = 'C' ∨ c = 'D' ∨ c = 'X' ∨ c = 'L' := by
      have := List.mem_of_getLast? h1
      simp only [List.mem_append] at this
      rcases this with (h | h) | h
      · exact Or.inl (List.mem_replicate.1 h).2
      · rcases digit_mem h with h | h | h <;> tauto
      · rcases digit_mem h with h | h | h <;> tauto
    rcases hc with rfl | rfl | rfl | rfl | rfl <;> rcases digit_head _ _ _ _ _ h2 with rfl | rfl <;> decide

/-- The values of the symbols. -/
theorem vals_mem {s : List Char} (h : Symbols s) : ∀ v ∈ vals s, v ∈ ([1000, 500, 100, 50, 10, 5, 1] : List ℤ) := by
  intro v hv
  unfold vals at hv
  obtain ⟨c, hc, rfl⟩ := List.mem_map.1 hv
  have := h c hc
  simp only [List.mem_cons, List.not_mem_nil, or_false] at this
  rcases this with rfl | rfl | rfl | rfl | rfl | rfl | rfl <;> decide

/-- C44. A string which is accepted has a positive value unless it is empty, so no ion is rejected for being negative. -/
theorem roman_positive {s : List Char} {v : ℤ} (hs : s ≠ []) (h : roman_to_int s = .ok v) : 0 < v := by
  have hsym : Symbols s := by
    by_contra hc
    unfold Symbols at hc
    push Not at hc
    rw [(roman_rejects s).2 hc] at h
    cases h
  rw [roman_ok hsym] at h
  cases h
  have hm := vals_mem hsym
  have key : ∀ (r : List ℤ) (w : ℤ), (∀ v ∈ w :: r, v ∈ ([1000, 500, 100, 50, 10, 5, 1] : List ℤ)) →
      w ≤ (places (w :: r)).sum := by
    intro r
    induction r with
    | nil => intro w _; simp [places]
    | cons x r ih =>
      intro w hw
      have hx := ih x (fun v hv => hw v (by simp at hv ⊢; tauto))
      have h1 := hw w (by simp)
      have h2 := hw x (by simp)
      simp only [places, List.sum_cons]
      simp only [List.mem_cons, List.not_mem_nil, or_false] at h1 h2
      split <;> omega
  cases hv : vals s with
  | nil => unfold vals at hv; simp at hv; exact absurd hv hs
  | cons w r =>
    rw [hv] at hm
    have h1 := key r w hm
    have h2 := hm w (by simp)
    simp only [List.mem_cons, List.not_mem_nil, or_false] at h2
    omega

example := roman_positive (s := ['I', 'V']) (v := 4) (by simp) (by decide)

/-- The examples of the documentation which are said to raise an error are accepted. -/
theorem not_numerals_accepted : roman_to_int ['V', 'V', 'V', 'I', 'V'] = .ok 19 ∧ roman_to_int ['I', 'L'] = .ok 49 ∧
    (∀ n, numeral n ≠ ['I', 'L']) := by
  refine ⟨by decide, by decide, ?_⟩
  intro n hn
  have h := roman_value n
  rw [hn] at h
  have h49 : (49 : ℤ) = n := by
    have : roman_to_int ['I', 'L'] = .ok 49 := by decide
    rw [this] at h
    exact Except.ok.inj h
  have : n = 49 := by omega
  subst this
  exact absurd hn (by decide)

/-! ### The species of a row -/

/-- A row matches the pattern: a capital, blanks, perhaps a lower case letter; then a capital and three characters of the same
line. -/
structure Row (line : List Char) (element ion : List Char) : Prop where
  shape : ∃ c blanks low rest, line = c :: (blanks ++ low ++ ion ++ rest) ∧ element = c :: low ∧ isUpper c = true ∧
    (∀ b ∈ blanks, isSpace b = true) ∧ (low = [] ∨ ∃ l, low = [l] ∧ isLower l = true)
  ion4 : ∃ u a b d, ion = [u, a, b, d] ∧ isUpper u = true ∧ a ≠ '\n' ∧ b ≠ '\n' ∧ d ≠ '\n'

theorem upper_not_space {c : Char} (h : isUpper c = true) : isSpace c = false := by
  simp only [isUpper, isSpace, Bool.and_eq_true, decide_eq_true_eq, Char.le_def, UInt32.le_iff_toNat_le] at *
  have h1 : 65 ≤ c.toNat := h.1
  simp; omega

theorem lower_not_space {c : Char} (h : isLower c = true) : isSpace c = false := by
  simp only [isLower, isSpace, Bool.and_eq_true, decide_eq_true_eq, Char.le_def, UInt32.le_iff_toNat_le] at *
  have h1 : 97 ≤ c.toNat := h.1
  simp; omega

theorem upper_not_lower {c : Char} (h : isUpper c = true) : isLower c = false := by
  simp only [isUpper, isLower, Bool.and_eq_true, decide_eq_true_eq, Char.le_def, UInt32.le_iff_toNat_le] at *
  have h1 : c.toNat ≤ 90 := h.2
  simp
  intro h2
  have : 97 ≤ c.toNat := h2
  omega

theorem dropWhile_blanks {blanks rest : List Char} (hb : ∀ b ∈ blanks, isSpace b = true)
    (hr : ∀ c, rest.head? = some c → isSpace c = false) : (blanks ++ rest).dropWhile isSpace = rest := by
  induction blanks with
  | nil =>
    cases rest with
    | nil => rfl
    | cons c r => simp [List.dropWhile_cons, hr c rfl]
  | cons b bs ih =>
    rw [List.cons_append, List.dropWhile_cons, hb b (by simp)]
    exact ih (fun x hx => hb x (by simp [hx]))

/-- The match of the regular expression is found exactly when there is one, and then it is the only one. -/
theorem reMatch_iff (line element ion : List Char) : reMatch line = some (element, ion) ↔ Row line element ion := by
  constructor
  · intro h
    unfold reMatch at h
    split at h
    · rename_i c rest
      split at h
      · rename_i hc
        have hsplit := List.takeWhile_append_dropWhile (p := isSpace) (l := rest)
        have hbl : ∀ b ∈ rest.takeWhile isSpace, isSpace b = true := fun b hb => List.all_eq_true.1 List.all_takeWhile b hb
        generalize hr : rest.dropWhile isSpace = r at *
        generalize rest.takeWhile isSpace = bl at *
        unfold matchTail at h
        split at h
        rename_i low r' hlow
        split at h
        · rename_i u a b d tl
          split at h
          · rename_i hu
            simp only [Bool.and_eq_true, bne_iff_ne, ne_eq] at hu
            simp only [Option.some.injEq, Prod.mk.injEq] at h
            obtain ⟨rfl, rfl⟩ := h
            refine ⟨⟨c, bl, low, tl, ?_, rfl, hc, hbl, ?_⟩, ⟨u, a, b, d, rfl, hu.1.1.1, hu.1.1.2, hu.1.2, hu.2⟩⟩
            · rw [← hsplit]
              split at hlow
              · split at hlow <;> cases hlow <;> simp
              · cases hlow
            · split at hlow
              · rename_i hl
                split at hlow
                · rename_i hl
                  cases hlow
                  exact Or.inr ⟨_, rfl, hl⟩
                · cases hlow; exact Or.inl rfl
              · cases hlow
          · cases h
        · cases h
      · cases h
    · cases h
  · rintro ⟨⟨c, bl, low, rest, rfl, rfl, hc, hbl, hlow⟩, ⟨u, a, b, d, rfl, hu, ha, hb, hd⟩⟩
    unfold reMatch
    dsimp only
    rw [if_pos hc]
    have hne : ∀ {x}, x ≠ '\n' → (x != '\n') = true := fun h => by simpa using h
    rcases hlow with rfl | ⟨l, rfl, hl⟩
    · rw [List.append_nil, List.append_assoc, dropWhile_blanks hbl (fun x hx => by
        simp at hx; subst hx; exact upper_not_space hu)]
      simp [matchTail, upper_not_lower hu, hu, ha, hb, hd]
    · rw [List.append_assoc, List.append_assoc, dropWhile_blanks hbl (fun x hx => by
        simp at hx; subst hx; exact lower_not_space hl)]
      simp [matchTail, hl, hu, ha, hb, hd]

/-- C44. What `find_species` returns for a row. -/
theorem find_species_regex (line element : List Char) (n : ℤ) :
    find_species line = .ok (element, n) ↔
      ∃ ion, Row line element ion ∧ roman_to_int (ion.filter (fun c => !isSpace c)) = .ok n := by
  unfold find_species
  constructor
  · intro h
    split at h
    · cases h
    · rename_i sp ion hm
      split at h
      · rename_i n' hn
        cases h
        exact ⟨ion, (reMatch_iff _ _ _).1 hm, hn⟩
      · cases h
  · rintro ⟨ion, hr, hn⟩
    rw [(reMatch_iff _ _ _).2 hr]
    dsimp only
    have : noSpace ion = ion.filter (fun c => !isSpace c) := rfl
    rw [this, hn]

/-- C44. A row with the name of an element, blanks and a roman numeral of at most four symbols, in a column of four, is
read as that element and that number. -/
theorem row_species (c : Char) (low blanks rest : List Char) (n : ℕ) (hc : isUpper c = true)
    (hlow : low = [] ∨ ∃ l, low = [l] ∧ isLower l = true) (hb : ∀ b ∈ blanks, isSpace b = true) (hn : 0 < n)
    (h4 : (numeral n).length ≤ 4) :
    find_species (c :: (blanks ++ low ++ (numeral n ++ List.replicate (4 - (numeral n).length) ' ') ++ rest)) =
      .ok (c :: low, n) := by
  rw [find_species_regex]
  have hval := roman_value n
  have hsym : Symbols (numeral n) := by
    by_contra hcon
    unfold Symbols at hcon
    push Not at hcon
    rw [(roman_rejects _).2 hcon] at hval
    cases hval
  have hup : ∀ x, x ∈ ['M', 'D', 'C', 'L', 'X', 'V', 'I'] → isUpper x = true ∧ x ≠ '\n' := by decide
  have hne : numeral n ≠ [] := by
    intro h
    rw [h] at hval
    have : (0 : ℤ) = n := by
      have h0 : roman_to_int [] = .ok 0 := by decide
      rw [h0] at hval
      exact Except.ok.inj hval
    omega
  generalize hnum : numeral n = s at *
  refine ⟨s ++ List.replicate (4 - s.length) ' ', ⟨⟨c, blanks, low, rest, rfl, rfl, hc, hb, hlow⟩, ?_⟩, ?_⟩
  · match s, hne, h4, hsym with
    | [x], _, _, hs =>
      obtain ⟨h1, _⟩ := hup x (hs x (by simp))
      exact ⟨x, ' ', ' ', ' ', rfl, h1, by decide, by decide, by decide⟩
    | [x, y], _, _, hs =>
      obtain ⟨h1, _⟩ := hup x (hs x (by simp))
      obtain ⟨_, h2⟩ := hup y (hs y (by simp))
      exact ⟨x, y, ' ', ' ', rfl, h1, h2, by decide, by decide⟩
    | [x, y, z], _, _, hs =>
      obtain ⟨h1, _⟩ := hup x (hs x (by simp))
      obtain ⟨_, h2⟩ := hup y (hs y (by simp))
      obtain ⟨_, h3⟩ := hup z (hs z (by simp))
      exact ⟨x, y, z, ' ', rfl, h1, h2, h3, by decide⟩
    | [x, y, z, t], _, _, hs =>
      obtain ⟨h1, _⟩ := hup x (hs x (by simp))
      obtain ⟨_, h2⟩ := hup y (hs y (by simp))
      obtain ⟨_, h3⟩ := hup z (hs z (by simp))
      obtain ⟨_, h4⟩ := hup t (hs t (by simp))
      exact ⟨x, y, z, t, rfl, h1, h2, h3, h4⟩
  · rw [List.filter_append]
    have e1 : s.filter (fun c => !isSpace c) = s := by
      rw [List.filter_eq_self]
      intro x hx
      rw [upper_not_space (hup x (hsym x hx)).1]
      rfl
    have e2 : (List.replicate (4 - s.length) ' ').filter (fun c => !isSpace c) = [] := by
      rw [List.filter_eq_nil_iff]
      intro x hx
      rw [(List.mem_replicate.1 hx).2]
      decide
    rw [e1, e2, List.append_nil, hval]

/-- `SiIV` and `C III`. -/
example : (numeral 4).length ≤ 4 ∧ numeral 4 = ['I', 'V'] ∧ isUpper 'S' = true ∧ isLower 'i' = true ∧
    find_species ("SiIV  1393.7602".toList) = .ok ("Si".toList, 4) := by decide

/-- C44 is false for longer numerals: the eighteenth ion is read as the seventeenth. -/
theorem long_numeral_truncated : numeral 18 = "XVIII".toList ∧
    find_species ("FeXVIII 974.86".toList) = .ok ("Fe".toList, 17) := by decide

/-- C44. A row with fewer than three characters after the first symbol of the ion's column, or with the wavelength too close to
the numeral, is passed over. -/
theorem close_wavelength_skipped : find_species ("H I 1215.67".toList) = .error .valueError := by decide

/-! ### The numbers of a row -/

theorem firstFloats_spec (float : List Char → Option ℝ) : ∀ (ss : List (List Char)) (res : List ℝ), res.length < 3 →
    firstFloats float ss res = (res ++ ss.filterMap float).take 3 := by
  intro ss
  induction ss with
  | nil => intro res h; simp [firstFloats]; omega
  | cons s ss ih =>
    intro res h
    unfold firstFloats
    cases hs : float s with
    | none =>
      dsimp only
      rw [if_neg (by omega), ih res h, List.filterMap_cons_none hs]
    | some x =>
      dsimp only
      rw [List.filterMap_cons_some hs]
      by_cases h3 : (res ++ [x]).length = 3
      · rw [if_pos h3]
        have : res ++ x :: ss.filterMap float = (res ++ [x]) ++ ss.filterMap float := by simp
        rw [this, ← h3, List.take_left]
      · rw [if_neg h3, ih _ (by simp at h3 ⊢; omega)]
        simp

/-- C44. The three numbers of a row are the first three of its words which are numbers. -/
theorem parse_spec (float : List Char → Option ℝ) (line : List Char) (ln : Line) :
    parse_line_contents float line = .ok ln ↔
      ((splitWs line).filterMap float).take 3 = [ln.lambda, ln.fosc, ln.gamma] := by
  unfold parse_line_contents
  rw [firstFloats_spec float _ [] (by simp), List.nil_append]
  have hlen := List.length_take_le 3 ((splitWs line).filterMap float)
  generalize ((splitWs line).filterMap float).take 3 = l at *
  match l with
  | [] => simp
  | [a] => simp
  | [a, b] => simp
  | [a, b, c] =>
    constructor
    · intro h; cases h; rfl
    · intro h
      simp only [List.cons.injEq, and_true] at h
      obtain ⟨rfl, rfl, rfl⟩ := h
      rfl
  | a :: b :: c :: d :: r => simp at hlen; omega

/-! ### The table -/

/-- A row of the file is an entry: of a wanted species, with three numbers; its key. -/
def Entry (float : List Char → Option ℝ) (species : List (List Char)) (row : List Char) (k : Key) (ln : Line) : Prop :=
  find_species row = .ok (k.1, k.2.1) ∧ k.1 ∈ species ∧ parse_line_contents float row = .ok ln ∧
    k.2.2 = Construct.trunc ln.lambda

theorem species_error {row : List Char} {e : PyErr} (h : find_species row = .error e) : e = .valueError := by
  unfold find_species at h
  split at h
  · cases h; rfl
  · rename_i sp ion _
    split at h
    · cases h
    · rename_i e' he
      cases h
      unfold roman_to_int at he
      split at he <;> cases he
      rfl

theorem species_nonneg {row sp : List Char} {n : ℤ} (h : find_species row = .ok (sp, n)) : 0 < n := by
  obtain ⟨ion, hr, hn⟩ := (find_species_regex _ _ _).1 h
  apply roman_positive _ hn
  obtain ⟨u, a, b, d, rfl, hu, _⟩ := hr.ion4
  rw [List.filter_cons, upper_not_space hu]
  simp

theorem readRow_spec (float : List Char → Option ℝ) (species : List (List Char)) (t t' : Key → Option Line) (row : List Char)
    (h : readRow float species t row = .ok t') (k : Key) :
    (∀ ln, Entry float species row k ln → t' k = some ln) ∧ ((∀ ln, ¬ Entry float species row k ln) → t' k = t k) := by
  unfold readRow at h
  cases hf : find_species row with
  | error e =>
    have := species_error hf
    subst this
    rw [hf] at h
    cases h
    exact ⟨fun ln he => (by have := he.1; rw [hf] at this; cases this), fun _ => rfl⟩
  | ok r =>
    obtain ⟨sp, ion⟩ := r
    rw [hf] at h
    dsimp only at h
    have hpos := species_nonneg hf
    split at h
    · rename_i hc
      cases h
      refine ⟨fun ln he => ?_, fun _ => rfl⟩
      have h1 := he.1
      rw [hf] at h1
      simp only [Except.ok.injEq, Prod.mk.injEq] at h1
      obtain ⟨h1, _⟩ := h1
      rcases hc with hc | hc
      · rw [List.count_eq_zero, h1] at hc
        exact absurd he.2.1 hc
      · omega
    · rename_i hc
      push Not at hc
      have hmem : sp ∈ species := by
        by_contra hcon
        exact hc.1 (List.count_eq_zero.2 hcon)
      cases hp : parse_line_contents float row with
      | error e => rw [hp] at h; cases h
      | ok ln =>
        rw [hp] at h
        cases h
        dsimp only
        constructor
        · intro ln' he
          obtain ⟨h1, h2, h3, h4⟩ := he
          rw [hf] at h1
          simp only [Except.ok.injEq, Prod.mk.injEq] at h1
          rw [hp] at h3
          cases h3
          rw [if_pos]
          obtain ⟨k1, k2, k3⟩ := k
          simp only at h1 h4
          rw [h1.1, h1.2, h4]
        · intro hno
          rw [if_neg]
          intro hk
          subst hk
          exact hno ln ⟨hf, hmem, hp, rfl⟩

/-- C44. The table: under each species, ion and integer wavelength is the last row of the file with these, and nothing if
there is none. -/
theorem table_spec (float : List Char → Option ℝ) (species : List (List Char)) (rows : List (List Char))
    (t : Key → Option Line) (h : read_vpfit float species rows = .ok t) (k : Key) (ln : Line) :
    t k = some ln ↔ ∃ (i : ℕ) (row : List Char), rows[i]? = some row ∧ Entry float species row k ln ∧
      ∀ (j : ℕ) row' ln', i < j → rows[j]? = some row' → ¬ Entry float species row' k ln' := by
  have key : ∀ (rows : List (List Char)) (t0 t : Key → Option Line), rows.foldlM (readRow float species) t0 = .ok t →
      (t k = some ln ↔ (∃ (i : ℕ) (row : List Char), rows[i]? = some row ∧ Entry float species row k ln ∧
        ∀ (j : ℕ) row' ln', i < j → rows[j]? = some row' → ¬ Entry float species row' k ln') ∨
        (t0 k = some ln ∧ ∀ row ∈ rows, ∀ ln', ¬ Entry float species row k ln')) := by
    intro rows
    induction rows with
    | nil =>
      intro t0 t h
      simp only [List.foldlM_nil, pure, Except.pure, Except.ok.injEq] at h
      subst h
      simp
    | cons r rows ih =>
      intro t0 t h
      rw [List.foldlM_cons] at h
      cases hr : readRow float species t0 r with
      | error e => rw [hr] at h; cases h
      | ok t1 =>
        rw [hr] at h
        obtain ⟨s1, s2⟩ := readRow_spec float species t0 t1 r hr k
        rw [ih t1 t h]
        constructor
        · rintro (⟨i, row, h1, h2, h3⟩ | ⟨h1, h2⟩)
          · refine Or.inl ⟨i + 1, row, by simpa using h1, h2, ?_⟩
            intro j row' ln' hij hj
            obtain ⟨j', rfl⟩ : ∃ j', j = j' + 1 := ⟨j - 1, by omega⟩
            exact h3 j' row' ln' (by omega) (by simpa using hj)
          · by_cases he : ∃ ln', Entry float species r k ln'
            · obtain ⟨ln', he⟩ := he
              have := s1 ln' he
              rw [h1] at this
              cases this
              refine Or.inl ⟨0, r, rfl, he, ?_⟩
              intro j row' ln' hij hj
              obtain ⟨j', rfl⟩ : ∃ j', j = j' + 1 := ⟨j - 1, by omega⟩
              exact h2 row' (List.mem_of_getElem? (by simpa using hj)) ln'
            · push Not at he
              rw [s2 he] at h1
              refine Or.inr ⟨h1, ?_⟩
              intro row hrow ln'
              rcases List.mem_cons.1 hrow with rfl | hrow
              · exact he ln'
              · exact h2 row hrow ln'
        · rintro (⟨i, row, h1, h2, h3⟩ | ⟨h1, h2⟩)
          · cases i with
            | zero =>
              simp at h1
              subst h1
              refine Or.inr ⟨s1 ln h2, ?_⟩
              intro row' hrow' ln'
              obtain ⟨j, hj⟩ := List.getElem?_of_mem hrow'
              exact h3 (j + 1) row' ln' (by omega) (by simpa using hj)
            | succ i =>
              refine Or.inl ⟨i, row, by simpa using h1, h2, ?_⟩
              intro j row' ln' hij hj
              exact h3 (j + 1) row' ln' (by omega) (by simpa using hj)
          · refine Or.inr ⟨?_, fun row hrow => h2 row (by simp [hrow])⟩
            rw [s2 (h2 r (by simp))]
            exact h1
  have := key rows _ t h
  simpa using this

/-- C44. Reading fails only if a row of a wanted species has fewer than three numbers. -/
theorem read_fails_iff (float : List Char → Option ℝ) (species : List (List Char)) (rows : List (List Char)) :
    (∃ t, read_vpfit float species rows = .ok t) ↔
      ∀ row ∈ rows, ∀ sp ion, find_species row = .ok (sp, ion) → sp ∈ species →
        3 ≤ ((splitWs row).filterMap float).length := by
  have hp : ∀ row, (∃ ln, parse_line_contents float row = .ok ln) ↔ 3 ≤ ((splitWs row).filterMap float).length := by
    intro row
    constructor
    · rintro ⟨ln, h⟩
      have := congrArg List.length ((parse_spec float row ln).1 h)
      rw [List.length_take] at this
      simp at this
      omega
    · intro h
      generalize hl : (splitWs row).filterMap float = l at *
      match l, h with
      | a :: b :: c :: r, _ => exact ⟨⟨a, b, c⟩, (parse_spec float row _).2 (by rw [hl]; rfl)⟩
  have hrow : ∀ t row, (∃ t', readRow float species t row = .ok t') ↔
      ∀ sp ion, find_species row = .ok (sp, ion) → sp ∈ species → 3 ≤ ((splitWs row).filterMap float).length := by
    intro t row
    rw [← hp row]
    unfold readRow
    cases hf : find_species row with
    | error e =>
      have := species_error hf
      subst this
      simp
    | ok r =>
      obtain ⟨sp, ion⟩ := r
      have hpos := species_nonneg hf
      dsimp only
      by_cases hc : sp ∈ species
      · have hcount : ¬ (species.count sp = 0 ∨ ion < 0) := by
          rw [List.count_eq_zero]
          push Not
          exact ⟨hc, hpos.le⟩
        rw [if_neg hcount]
        cases hpl : parse_line_contents float row with
        | error e =>
          simp only [bind, Except.bind]
          constructor
          · rintro ⟨_, h⟩; cases h
          · intro h
            obtain ⟨_, h⟩ := h sp ion rfl hc
            cases h
        | ok ln =>
          exact ⟨fun _ _ _ _ _ => ⟨ln, rfl⟩, fun _ => ⟨_, rfl⟩⟩
      · rw [if_pos (Or.inl (List.count_eq_zero.2 hc))]
        refine ⟨fun _ sp' ion' h hs => ?_, fun _ => ⟨t, rfl⟩⟩
        cases h
        exact absurd hs hc
  unfold read_vpfit
  generalize (fun _ => none : Key → Option Line) = t0
  induction rows generalizing t0 with
  | nil => simp [pure, Except.pure]
  | cons r rows ih =>
    rw [List.foldlM_cons]
    cases hr : readRow float species t0 r with
    | error e =>
      constructor
      · rintro ⟨_, h⟩; cases h
      · intro h
        obtain ⟨_, h'⟩ := (hrow t0 r).2 (h r (by simp))
        rw [hr] at h'
        cases h'
    | ok t1 =>
      have hi := ih t1
      refine Iff.trans hi ?_
      constructor
      · intro h row hm
        rcases List.mem_cons.1 hm with rfl | hm
        · exact (hrow t0 row).1 ⟨t1, hr⟩
        · exact h row hm
      · intro h row hm
        exact h row (by simp [hm])

/-- Two rows of the file supplied, and their numbers. -/
def lyman : List (List Char) := ["H I    914.919 0.000321 8.533E5".toList, "H I    914.576 0.000270 7.186E5".toList]

/-- The numbers in them. -/
noncomputable def lymanFloat (s : List Char) : Option ℝ :=
  if s = "914.919".toList then some 914.919 else if s = "914.576".toList then some 914.576
  else if s = "0.000321".toList then some 0.000321 else if s = "0.000270".toList then some 0.000270
  else if s = "8.533E5".toList then some 8.533e5 else if s = "7.186E5".toList then some 7.186e5 else none

theorem lyman_words : lymanFloat "H".toList = none ∧ lymanFloat "I".toList = none ∧ lymanFloat "914.919".toList = some 914.919 ∧
    lymanFloat "914.576".toList = some 914.576 ∧ lymanFloat "0.000321".toList = some 0.000321 ∧
    lymanFloat "0.000270".toList = some 0.000270 ∧ lymanFloat "8.533E5".toList = some 8.533e5 ∧
    lymanFloat "7.186E5".toList = some 7.186e5 := by
  unfold lymanFloat
  refine ⟨?_, ?_, ?_, ?_, ?_, ?_, ?_, ?_⟩ <;>
    repeat first | rw [if_pos (by decide)] | rw [if_neg (by decide)]

/-- The comment in the code says that the first transition is kept. Of two Lyman lines with the same integer wavelength the
second is kept and the first is lost. -/
theorem lyman_lost : ∃ t, read_vpfit lymanFloat species lyman = .ok t ∧
    t (['H'], 1, 914) = some ⟨914.576, 0.000270, 7.186e5⟩ ∧ ∀ k ln, t k = some ln → ln = ⟨914.576, 0.000270, 7.186e5⟩ := by
  obtain ⟨a1, a2, a3, a4, a5, a6, a7, a8⟩ := lyman_words
  have f1 : find_species "H I    914.919 0.000321 8.533E5".toList = .ok (['H'], 1) := by decide
  have f2 : find_species "H I    914.576 0.000270 7.186E5".toList = .ok (['H'], 1) := by decide
  have w1 : splitWs "H I    914.919 0.000321 8.533E5".toList =
      ["H".toList, "I".toList, "914.919".toList, "0.000321".toList, "8.533E5".toList] := by decide
  have w2 : splitWs "H I    914.576 0.000270 7.186E5".toList =
      ["H".toList, "I".toList, "914.576".toList, "0.000270".toList, "7.186E5".toList] := by decide
  have p1 : parse_line_contents lymanFloat "H I    914.919 0.000321 8.533E5".toList = .ok ⟨914.919, 0.000321, 8.533e5⟩ := by
    rw [parse_spec, w1]
    simp only [List.filterMap_cons, a1, a2, a3, a5, a7, List.filterMap_nil]
    rfl
  have p2 : parse_line_contents lymanFloat "H I    914.576 0.000270 7.186E5".toList = .ok ⟨914.576, 0.000270, 7.186e5⟩ := by
    rw [parse_spec, w2]
    simp only [List.filterMap_cons, a1, a2, a4, a6, a8, List.filterMap_nil]
    rfl
  have t1 : Construct.trunc 914.919 = 914 := by
    unfold Construct.trunc
    rw [if_pos (by norm_num), Int.floor_eq_iff]
    norm_num
  have t2 : Construct.trunc 914.576 = 914 := by
    unfold Construct.trunc
    rw [if_pos (by norm_num), Int.floor_eq_iff]
    norm_num
  obtain ⟨t, ht⟩ := (read_fails_iff lymanFloat species lyman).2 (by
    intro row hrow sp ion _ _
    simp only [lyman, List.mem_cons, List.not_mem_nil, or_false] at hrow
    rcases hrow with rfl | rfl
    · rw [w1]
      simp only [List.filterMap_cons, a1, a2, a3, a5, a7, List.filterMap_nil, List.length_cons, List.length_nil]
      norm_num
    · rw [w2]
      simp only [List.filterMap_cons, a1, a2, a4, a6, a8, List.filterMap_nil, List.length_cons, List.length_nil]
      norm_num)
  have e2 : Entry lymanFloat species "H I    914.576 0.000270 7.186E5".toList (['H'], 1, 914) ⟨914.576, 0.000270, 7.186e5⟩ :=
    ⟨f2, by decide, p2, t2.symm⟩
  refine ⟨t, ht, ?_, ?_⟩
  · rw [table_spec _ _ _ t ht]
    refine ⟨1, _, rfl, e2, ?_⟩
    intro j row' ln' hj hrow
    obtain ⟨j', rfl⟩ : ∃ j', j = j' + 2 := ⟨j - 2, by omega⟩
    simp [lyman] at hrow
  · intro k ln hk
    rw [table_spec _ _ _ t ht] at hk
    obtain ⟨i, row, h1, h2, h3⟩ := hk
    rcases i with _ | _ | i
    · simp only [lyman, List.getElem?_cons_zero, Option.some.injEq] at h1
      subst h1
      exfalso
      obtain ⟨g1, _, g3, g4⟩ := h2
      rw [f1] at g1
      rw [p1] at g3
      cases g3
      simp only [Except.ok.injEq, Prod.mk.injEq] at g1
      have hk : k = (['H'], 1, 914) := by
        obtain ⟨a, b, c⟩ := k
        simp only at g1 g4
        rw [← g1.1, ← g1.2, g4, t1]
      subst hk
      exact h3 1 _ _ (by norm_num) rfl e2
    · simp only [lyman, List.getElem?_cons_succ, List.getElem?_cons_zero, Option.some.injEq] at h1
      subst h1
      have := h2.2.2.1
      rw [p2] at this
      cases this
      rfl
    · simp [lyman] at h1

end Verif.Props.LineData
