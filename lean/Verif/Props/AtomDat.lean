import Verif.Model.AtomDat
import Verif.Props.LineData
import Verif.Spec.Codata
import Mathlib.Analysis.Real.Pi.Bounds

/-!
C101: the Lyman series of the shipped table.
-/

namespace Verif.Props
open Verif Verif.LineData Verif.Spec
open Verif.Spec.Codata (Near)

/-- Wavelength of the transition from the n-th level of hydrogen to the first in angstrom, by Rydberg's formula. -/
noncomputable def rydberg (n : ℕ) : ℝ := 1e8 / (109677.583 * (1 - 1 / (n : ℝ) ^ 2))

/-- Its oscillator strength, from the wave functions of the hydrogen atom. -/
noncomputable def lymanF (n : ℕ) : ℝ :=
  2 ^ 8 * (n : ℝ) ^ 5 * ((n : ℝ) - 1) ^ (2 * n - 4) / (3 * ((n : ℝ) + 1) ^ (2 * n + 4))

/-- The rate of spontaneous decay from the upper level to the first, for a wavelength in angstrom. -/
noncomputable def einsteinA (lambda f : ℝ) : ℝ :=
  8 * Real.pi ^ 2 * Codata.r_e * Codata.c * f / (3 * (lambda * 1e-8) ^ 2)

/-- The numbers in the rows: mantissas and powers of ten. -/
def lymanNumbers : List (List (ℤ × ℤ)) := [
  [(12156701, -4), (416400, -6), (6265, 5)],
  [(10257223, -4), (79120, -6), (1897, 5)],
  [(9725368, -4), (29000, -6), (8127, 4)],
  [(9497431, -4), (13940, -6), (4204, 4)],
  [(9378035, -4), (7799, -6), (2450, 4)],
  [(9307483, -4), (4814, -6), (1236, 4)],
  [(9262257, -4), (3183, -6), (8255, 3)],
  [(9231504, -4), (2216, -6), (5785, 3)],
  [(9209631, -4), (1605, -6), (4210, 3)],
  [(9193514, -4), (120, -5), (3160, 3)],
  [(9181294, -4), (921, -6), (2432, 3)],
  [(9171806, -4), (7226, -7), (1911, 3)],
  [(916429, -3), (577, -6), (1529, 3)],
  [(915824, -3), (469, -6), (1243, 3)],
  [(915329, -3), (386, -6), (1024, 3)],
  [(914919, -3), (321, -6), (8533, 2)],
  [(914576, -3), (270, -6), (7186, 2)],
  [(914286, -3), (230, -6), (6109, 2)],
  [(914039, -3), (197, -6), (5237, 2)],
  [(913826, -3), (170, -6), (4523, 2)],
  [(913641, -3), (148, -6), (3933, 2)],
  [(913480, -3), (129, -6), (3443, 2)],
  [(913339, -3), (114, -6), (3030, 2)],
  [(913215, -3), (101, -6), (2679, 2)],
  [(913104, -3), (89, -6), (2382, 2)],
  [(913006, -3), (80, -6), (2127, 2)],
  [(912918, -3), (71, -6), (1907, 2)],
  [(912839, -3), (64, -6), (1716, 2)],
  [(912768, -3), (58, -6), (1550, 2)],
  [(912703, -3), (53, -6), (1405, 2)],
  [(912645, -3), (48, -6), (1277, 2)],
  [(9117633, -4), (630, -20), (10000, -4)]]

set_option maxRecDepth 100000 in
theorem hydrogen_species : ∀ row ∈ hydrogen, find_species row.toList = .ok (['H'], 1) := by decide +kernel

set_option maxRecDepth 100000 in
theorem hydrogen_numbers : hydrogen.map (fun row => ((splitWs row.toList).filterMap decParse).take 3) = lymanNumbers := by
  decide +kernel

theorem filterMap_decFloat (ws : List (List Char)) : ws.filterMap decFloat = (ws.filterMap decParse).map decVal := by
  unfold decFloat
  rw [List.map_filterMap]

theorem row_line {i : ℕ} {row : String} {a b c : ℤ × ℤ} (hr : hydrogen[i]? = some row) (hn : lymanNumbers[i]? = some [a, b, c]) :
    parse_line_contents decFloat row.toList = .ok ⟨decVal a, decVal b, decVal c⟩ := by
  rw [LineData.parse_spec, filterMap_decFloat, ← List.map_take]
  have : (hydrogen.map (fun row => ((splitWs row.toList).filterMap decParse).take 3))[i]? = some [a, b, c] := by
    rw [hydrogen_numbers, hn]
  rw [List.getElem?_map, hr] at this
  have h3 := Option.some.inj this
  dsimp only at h3
  rw [h3]
  rfl

theorem einstein_bounds {l f g : ℝ} (hl : 0 < l) (hf : 0 < f) (h1 : 0.991 * (2.223e15 * f) ≤ g * l ^ 2)
    (h2 : g * l ^ 2 ≤ 1.249 * (2.223e15 * f)) : 0.99 * einsteinA l f ≤ g ∧ g ≤ 1.25 * einsteinA l f := by
  have p1 := Real.pi_gt_d20
  have p2 := Real.pi_lt_d20
  have hpi := Real.pi_pos
  have e : einsteinA l f = 8 * Real.pi ^ 2 * Codata.r_e * Codata.c * 1e16 / 3 * f / l ^ 2 := by
    unfold einsteinA
    field_simp
    norm_num
    ring
  have hk1 : 8 * Real.pi ^ 2 * Codata.r_e * Codata.c * 1e16 / 3 ≤ 2.2235e15 := by
    unfold Codata.r_e Codata.c
    nlinarith
  have hk2 : 2.223e15 ≤ 8 * Real.pi ^ 2 * Codata.r_e * Codata.c * 1e16 / 3 := by
    unfold Codata.r_e Codata.c
    nlinarith
  rw [e]
  generalize 8 * Real.pi ^ 2 * Codata.r_e * Codata.c * 1e16 / 3 = K at *
  constructor
  · rw [← mul_div_assoc, div_le_iff₀ (by positivity)]
    refine le_trans ?_ h1
    nlinarith
  · rw [← mul_div_assoc, le_div_iff₀ (by positivity)]
    refine h2.trans ?_
    nlinarith

/-- C101: the n-th level of hydrogen, up to the thirty-second, has its row, and the wavelength, oscillator strength and damping
constant read from it are those of the hydrogen atom. -/
theorem lyman_series (n : ℕ) (h1 : 2 ≤ n) (h2 : n ≤ 32) :
    ∃ row ln, hydrogen[n - 2]? = some row ∧ find_species row.toList = .ok (['H'], 1) ∧
      parse_line_contents decFloat row.toList = .ok ln ∧ Near 2e-5 ln.lambda (rydberg n) ∧ Near 1e-2 ln.fosc (lymanF n) ∧
      0.99 * einsteinA ln.lambda ln.fosc ≤ ln.gamma ∧ ln.gamma ≤ 1.25 * einsteinA ln.lambda ln.fosc := by
  have key : ∀ {i : ℕ} {row : String} {a b c : ℤ × ℤ} {r f : ℝ}, hydrogen[i]? = some row → lymanNumbers[i]? = some [a, b, c] →
      0 < r → 0 < f → (1 - 2e-5) * r ≤ decVal a → decVal a ≤ (1 + 2e-5) * r → (1 - 1e-2) * f ≤ decVal b →
      decVal b ≤ (1 + 1e-2) * f → 0.991 * (2.223e15 * decVal b) ≤ decVal c * decVal a ^ 2 →
      decVal c * decVal a ^ 2 ≤ 1.249 * (2.223e15 * decVal b) →
      ∃ row ln, hydrogen[i]? = some row ∧ find_species row.toList = .ok (['H'], 1) ∧
        parse_line_contents decFloat row.toList = .ok ln ∧ Near 2e-5 ln.lambda r ∧ Near 1e-2 ln.fosc f ∧
        0.99 * einsteinA ln.lambda ln.fosc ≤ ln.gamma ∧ ln.gamma ≤ 1.25 * einsteinA ln.lambda ln.fosc := by
    intro i row a b c r f hr hn r0 f0 a1 a2 b1 b2 c1 c2
    have hla : 0 < decVal a := lt_of_lt_of_le (by positivity) a1
    have hfb : 0 < decVal b := lt_of_lt_of_le (by norm_num; positivity) b1
    refine ⟨row, _, hr, hydrogen_species row (List.mem_of_getElem? hr), row_line hr hn, ?_, ?_, einstein_bounds hla hfb c1 c2⟩
    · unfold Near
      rw [abs_of_pos r0, abs_le]
      constructor <;> linarith
    · unfold Near
      rw [abs_of_pos f0, abs_le]
      constructor <;> linarith
  interval_cases n <;> refine key rfl rfl ?_ ?_ ?_ ?_ ?_ ?_ ?_ ?_ <;> norm_num [rydberg, lymanF, decVal]

/-- Lyman alpha, and the last line of the table. -/
example := lyman_series 2 (by norm_num) (by norm_num)

example := lyman_series 32 (by norm_num) (by norm_num)

/-- The whole part of the wavelength of each row, under which it is filed. -/
def lymanKeys : List ℤ := [1215, 1025, 972, 949, 937, 930, 926, 923, 920, 919, 918, 917, 916, 915, 915, 914, 914, 914, 914, 913, 913, 913,
  913, 913, 913, 913, 912, 912, 912, 912, 912, 911]

/-- The line of a row. -/
noncomputable def lymanLine (i : ℕ) : Line :=
  ⟨decVal ((lymanNumbers.getD i []).getD 0 0), decVal ((lymanNumbers.getD i []).getD 1 0), decVal ((lymanNumbers.getD i []).getD 2 0)⟩

theorem lymanLine_spec {i : ℕ} {row : String} (hr : hydrogen[i]? = some row) :
    parse_line_contents decFloat row.toList = .ok (lymanLine i) ∧ Construct.trunc (lymanLine i).lambda = lymanKeys.getD i 0 := by
  have hi : i < 32 := (List.getElem?_eq_some_iff.1 hr).1
  constructor
  · interval_cases i <;> exact row_line hr rfl
  · interval_cases i <;> norm_num [lymanLine, lymanNumbers, lymanKeys, decVal, Construct.trunc, Int.floor_eq_iff]

theorem lymanLine_inj {i j : ℕ} (hi : i < 32) (hj : j < 32) (h : lymanLine i = lymanLine j) : i = j := by
  have key : ∀ i < 31, (lymanLine (i + 1)).lambda < (lymanLine i).lambda := by
    intro i hi
    interval_cases i <;> norm_num [lymanLine, lymanNumbers, decVal]
  have mono : ∀ d i, i + d + 1 < 32 → (lymanLine (i + d + 1)).lambda < (lymanLine i).lambda := by
    intro d
    induction d with
    | zero => intro i hi; exact key i (by omega)
    | succ d ih => intro i hi; exact (key (i + (d + 1)) (by omega)).trans (ih i (by omega))
  rcases lt_trichotomy i j with h' | h' | h'
  · have := mono (j - i - 1) i (by omega)
    rw [show i + (j - i - 1) + 1 = j by omega, h] at this
    exact absurd this (lt_irrefl _)
  · exact h'
  · have := mono (i - j - 1) j (by omega)
    rw [show j + (i - j - 1) + 1 = i by omega, h] at this
    exact absurd this (lt_irrefl _)

/-- Rows of other ions do not matter for an ion. -/
theorem read_filter (float : List Char → Option ℝ) (species : List (List Char)) (sp : List Char) (ion : ℤ) (rows : List (List Char))
    {t : Key → Option Line} (h : read_vpfit float species rows = .ok t) :
    ∃ t', read_vpfit float species (rows.filter (fun r => decide (find_species r = .ok (sp, ion)))) = .ok t' ∧
      ∀ w, t (sp, ion, w) = t' (sp, ion, w) := by
  unfold read_vpfit at *
  have key : ∀ (rows : List (List Char)) (t0 t1 t : Key → Option Line), (∀ w, t0 (sp, ion, w) = t1 (sp, ion, w)) →
      rows.foldlM (readRow float species) t0 = .ok t →
      ∃ t', (rows.filter (fun r => decide (find_species r = .ok (sp, ion)))).foldlM (readRow float species) t1 = .ok t' ∧
        ∀ w, t (sp, ion, w) = t' (sp, ion, w) := by
    intro rows
    induction rows with
    | nil =>
      intro t0 t1 t h0 h
      cases h
      exact ⟨t1, rfl, h0⟩
    | cons r rows ih =>
      intro t0 t1 t h0 h
      rw [List.foldlM_cons] at h
      cases hr : readRow float species t0 r with
      | error e => rw [hr] at h; cases h
      | ok t0' =>
        rw [hr] at h
        by_cases hf : find_species r = .ok (sp, ion)
        · rw [List.filter_cons_of_pos (by simpa using hf), List.foldlM_cons]
          have : ∃ t1', readRow float species t1 r = .ok t1' ∧ ∀ w, t0' (sp, ion, w) = t1' (sp, ion, w) := by
            unfold readRow at hr ⊢
            rw [hf] at hr ⊢
            dsimp only at hr ⊢
            split_ifs at hr ⊢ with hc
            · cases hr
              exact ⟨t1, rfl, h0⟩
            · cases hp : parse_line_contents float r with
              | error e => rw [hp] at hr; cases hr
              | ok ln =>
                rw [hp] at hr
                cases hr
                refine ⟨_, rfl, fun w => ?_⟩
                dsimp only
                split_ifs
                · rfl
                · exact h0 w
          obtain ⟨t1', h1, h2⟩ := this
          rw [h1]
          exact ih t0' t1' t h2 h
        · rw [List.filter_cons_of_neg (by simpa using hf)]
          refine ih t0' t1 t (fun w => ?_) h
          rw [← h0 w]
          unfold readRow at hr
          cases hs : find_species r with
          | error e =>
            rw [hs] at hr
            cases e <;> cases hr
            rfl
          | ok p =>
            obtain ⟨sp', ion'⟩ := p
            rw [hs] at hr hf
            dsimp only at hr
            split_ifs at hr with hc
            · cases hr
              rfl
            · cases hp : parse_line_contents float r with
              | error e => rw [hp] at hr; cases hr
              | ok ln =>
                rw [hp] at hr
                cases hr
                dsimp only
                rw [if_neg]
                intro hk
                apply hf
                simp only [Prod.mk.injEq] at hk
                rw [hk.1, hk.2.1]
  exact key rows _ _ t (fun _ => rfl) h

/-- C101 is false for fourteen of the thirty-one lines: lines whose wavelengths have the same whole part are filed under the same
key, so that all but the last are lost. Here `rows` is any file whose rows for neutral hydrogen are those of the shipped one. -/
theorem lyman_lines_lost {rows : List (List Char)} {t : Key → Option Line} (h : read_vpfit decFloat species rows = .ok t)
    (hrows : rows.filter (fun r => decide (find_species r = .ok (['H'], 1))) = hydrogen.map String.toList) (n : ℕ) (h1 : 2 ≤ n)
    (h2 : n ≤ 32) :
    (∃ w, t (['H'], 1, w) = some (lymanLine (n - 2))) ↔ n ≤ 14 ∨ n = 16 ∨ n = 20 ∨ n = 27 ∨ n = 32 := by
  obtain ⟨t', ht, htt⟩ := read_filter decFloat species ['H'] 1 rows h
  rw [hrows] at ht
  have hlen : hydrogen.length = 32 := rfl
  have entry : ∀ {i : ℕ} {row : List Char} {w : ℤ} {ln : Line}, (hydrogen.map String.toList)[i]? = some row →
      (LineData.Entry decFloat species row (['H'], 1, w) ln ↔ w = lymanKeys.getD i 0 ∧ ln = lymanLine i) := by
    intro i row w ln hi
    rw [List.getElem?_map, Option.map_eq_some_iff] at hi
    obtain ⟨row', hr, rfl⟩ := hi
    obtain ⟨e1, e2⟩ := lymanLine_spec hr
    unfold LineData.Entry
    rw [e1]
    constructor
    · rintro ⟨-, -, e, hw⟩
      obtain rfl := Except.ok.inj e
      exact ⟨hw.trans e2, rfl⟩
    · rintro ⟨rfl, rfl⟩
      exact ⟨hydrogen_species _ (List.mem_of_getElem? hr), by simp [species], rfl, e2.symm⟩
  have main : ∀ i < 32, (∃ w, t' (['H'], 1, w) = some (lymanLine i)) ↔ ∀ j < 32, i < j → lymanKeys.getD j 0 ≠ lymanKeys.getD i 0 := by
    intro i hi
    constructor
    · rintro ⟨w, hw⟩ j hj hij heq
      obtain ⟨i', row, hr, he, hlast⟩ := (LineData.table_spec _ _ _ _ ht _ _).1 hw
      have hi' : i' < 32 := by
        have := (List.getElem?_eq_some_iff.1 hr).1
        rwa [List.length_map, hlen] at this
      obtain ⟨rfl, hl⟩ := (entry hr).1 he
      obtain rfl := lymanLine_inj hi hi' hl
      have hjr : (hydrogen.map String.toList)[j]? = some ((hydrogen.map String.toList)[j]'(by rw [List.length_map, hlen]; exact hj)) :=
        List.getElem?_eq_getElem _
      exact hlast j _ (lymanLine j) hij hjr ((entry hjr).2 ⟨heq.symm, rfl⟩)
    · intro hlast
      refine ⟨lymanKeys.getD i 0, (LineData.table_spec _ _ _ _ ht _ _).2 ?_⟩
      have hir : (hydrogen.map String.toList)[i]? = some ((hydrogen.map String.toList)[i]'(by rw [List.length_map, hlen]; exact hi)) :=
        List.getElem?_eq_getElem _
      refine ⟨i, _, hir, (entry hir).2 ⟨rfl, rfl⟩, ?_⟩
      intro j row' ln' hij hj he
      have hj' : j < 32 := by
        have := (List.getElem?_eq_some_iff.1 hj).1
        rwa [List.length_map, hlen] at this
      exact hlast j hj' hij ((entry hj).1 he).1.symm
  simp only [htt]
  rw [main (n - 2) (by omega)]
  have dec : ∀ n < 33, 2 ≤ n → ((∀ j < 32, n - 2 < j → lymanKeys.getD j 0 ≠ lymanKeys.getD (n - 2) 0) ↔
      (n ≤ 14 ∨ n = 16 ∨ n = 20 ∨ n = 27 ∨ n = 32)) := by decide +kernel
  exact dec n (by omega) h1

/-- Witness: the rows of hydrogen alone are such a file, and it is read. -/
example : (hydrogen.map String.toList).filter (fun r => decide (find_species r = .ok (['H'], 1))) = hydrogen.map String.toList ∧
    ∃ t, read_vpfit decFloat species (hydrogen.map String.toList) = .ok t := by
  constructor
  · rw [List.filter_eq_self]
    intro row hrow
    rw [List.mem_map] at hrow
    obtain ⟨r, hr, rfl⟩ := hrow
    exact decide_eq_true (hydrogen_species r hr)
  rw [LineData.read_fails_iff]
  intro row hrow sp ion _ _
  rw [List.mem_map] at hrow
  obtain ⟨r, hr, rfl⟩ := hrow
  obtain ⟨i, hi⟩ := List.getElem?_of_mem hr
  have := (LineData.parse_spec decFloat r.toList _).1 (lymanLine_spec hi).1
  have := congrArg List.length this
  rw [List.length_take] at this
  simp at this
  omega
