import Verif.Model.SpecTools
import Verif.Lemmas.Numpy
import Mathlib.Data.List.Rotate

/-!
C26: rolled spectra. C30: projected positions. C49: the observed line of an ion.
-/

namespace Verif.Props
open Verif Verif.Np Verif.SpecTools

/-- Element `i` of a rolled array is element `i - k` of the array, modulo its length. -/
theorem roll_get {α : Type} (a : List α) (k : ℤ) {i : ℕ} (hi : i < a.length) :
    (roll a k)[i]? = a[(((i : ℤ) - k) % a.length).toNat]? := by
  unfold roll
  rw [List.getElem?_rotate hi]
  congr 1
  have hn : (0 : ℤ) < a.length := by exact_mod_cast (by omega : 0 < a.length)
  have h1 : 0 ≤ (-k) % (a.length : ℤ) := Int.emod_nonneg _ hn.ne'
  zify
  rw [Int.toNat_of_nonneg (Int.emod_nonneg ((i : ℤ) - k) hn.ne'), Int.toNat_of_nonneg h1, Int.add_emod_emod]
  rfl

example := roll_get [10, 20, 30] (-1) (i := 2) (by norm_num)

theorem roll_length {α : Type} (a : List α) (k : ℤ) : (roll a k).length = a.length := by
  unfold roll; exact List.length_rotate _ _

theorem roll_roll_neg {α : Type} (a : List α) (k : ℤ) : roll (roll a k) (-k) = a := by
  apply List.ext_getElem?
  intro i
  by_cases hi : i < a.length
  · have hn : (0 : ℤ) < a.length := by exact_mod_cast (by omega : 0 < a.length)
    rw [roll_get _ _ (by rw [roll_length]; exact hi), roll_length]
    set j := (((i : ℤ) - -k) % a.length).toNat with hj
    have hj' : (j : ℤ) = ((i : ℤ) - -k) % a.length := by rw [hj, Int.toNat_of_nonneg (Int.emod_nonneg _ hn.ne')]
    have hjl : j < a.length := by
      have := Int.emod_lt_of_pos ((i : ℤ) - -k) hn
      omega
    rw [roll_get _ _ hjl, hj']
    congr 1
    rw [Int.emod_sub_emod, show (i : ℤ) - -k - k = i by ring, Int.emod_eq_of_lt (by omega) (by exact_mod_cast hi)]
    simp
  · rw [List.getElem?_eq_none (by rw [roll_length, roll_length]; omega), List.getElem?_eq_none (by omega)]

/-- What rolling does to one spectrum: the returned offset `r` shifts it cyclically, its maximum ends up in pixel `n/2`, and
shifting by `-r` gives it back. -/
def Centred (row out : List ℝ) (r : ℤ) : Prop :=
  out.length = row.length ∧
  (∀ i < row.length, out[i]? = row[(((i : ℤ) - r) % row.length).toNat]?) ∧
  (∃ m, out[row.length / 2]? = some m ∧ ∀ y ∈ row, y ≤ m) ∧
  (∀ i < row.length, row[i]? = out[(((i : ℤ) + r) % row.length).toNat]?) ∧ out.Perm row

theorem roll_one_spec {row : List ℝ} (h : row ≠ []) : ∃ r out, roll_one row = .ok (r, out) ∧ Centred row out r := by
  obtain ⟨k, m, h1, -, hk, hkm, hmax, -⟩ := argmax_spec h
  have hlen : 0 < row.length := List.length_pos_iff.2 h
  have hn : (0 : ℤ) < row.length := by exact_mod_cast hlen
  refine ⟨((row.length / 2 : ℕ) : ℤ) - k, roll row (((row.length / 2 : ℕ) : ℤ) - k), ?_, roll_length _ _,
    fun i hi => roll_get _ _ hi, ⟨m, ?_, hmax⟩, ?_, ?_⟩
  · unfold roll_one
    rw [h1]; rfl
  · rw [roll_get _ _ (Nat.div_lt_self hlen (by norm_num)), sub_sub_cancel,
      Int.emod_eq_of_lt (by omega) (by exact_mod_cast hk)]
    simpa using hkm
  · intro i hi
    have := roll_roll_neg row (((row.length / 2 : ℕ) : ℤ) - k)
    conv_lhs => rw [← this]
    rw [roll_get _ _ (by rw [roll_length]; exact hi), roll_length, sub_neg_eq_add]
  · unfold roll
    exact List.rotate_perm _ _

example := roll_one_spec (row := [0.1, 3, 2]) (by simp)

/-- C26: for spectra with at least one pixel, every spectrum is shifted cyclically so that its maximum is in the middle
pixel; the offset returned for it undoes the shift, and no pixel is lost. -/
theorem rolled_spectra {tau : List (List ℝ)} (hne : tau ≠ []) (hrows : ∀ row ∈ tau, row ≠ []) :
    ∃ rolls out, get_rolled_spectra tau = .ok (rolls, out) ∧ rolls.length = tau.length ∧ out.length = tau.length ∧
      ∀ (k : ℕ) row, tau[k]? = some row → ∃ r o, rolls[k]? = some r ∧ out[k]? = some o ∧ Centred row o r := by
  obtain ⟨rs, hrs, hall⟩ := mapM_ok (f := roll_one) (P := fun row ro => Centred row ro.2 ro.1) (l := tau) (by
    intro row hrow
    obtain ⟨r, out, h1, h2⟩ := roll_one_spec (hrows row hrow)
    exact ⟨(r, out), h1, h2⟩)
  have hlen := hall.length_eq
  have hrne : rs ≠ [] := by
    intro hc
    rw [hc] at hlen
    exact hne (List.length_eq_zero_iff.1 hlen)
  refine ⟨rs.map Prod.fst, rs.map Prod.snd, ?_, by simp [hlen], by simp [hlen], ?_⟩
  · unfold get_rolled_spectra
    rw [hrs]
    change (if rs = [] then _ else _) = _
    rw [if_neg hrne, List.unzip_eq_map]
    rfl
  · intro k row hk
    obtain ⟨hkl, hkr⟩ := List.getElem?_eq_some_iff.1 hk
    have hkr' : k < rs.length := by omega
    refine ⟨rs[k].1, rs[k].2, by simp [hkr'], by simp [hkr'], ?_⟩
    have := List.forall₂_iff_get.1 hall |>.2 k hkl hkr'
    simp only [List.get_eq_getElem, hkr] at this
    exact this

example := rolled_spectra (tau := [[1, 3, 2], [0, 0, 1]]) (by simp) (by simp)

/-- C26: no spectra, or a spectrum without pixels, raise. -/
theorem rolled_spectra_empty : get_rolled_spectra [] = .error .valueError ∧ get_rolled_spectra [[]] = .error .valueError := by
  constructor
  · unfold get_rolled_spectra
    simp only [List.mapM_nil, bind, Except.bind, pure, Except.pure, if_true]
  · unfold get_rolled_spectra
    simp only [List.mapM_cons, roll_one, argmax, maxOf, bind, Except.bind]

example : ∃ tau : List (List ℝ), tau ≠ [] ∧ ∀ row ∈ tau, row ≠ [] := ⟨[[1, 3, 2], [0, 0, 1]], by simp, by simp⟩

/-- The two coordinates transverse to an axis. -/
def transverse (axis : ℤ) (p : Pos3) : ℝ × ℝ := if axis = 1 then (p.y, p.z) else if axis = 2 then (p.x, p.z) else (p.x, p.y)

theorem mean_all (a : ℤ) (as : List ℤ) (h : ∀ b ∈ as, b = a) : (((a :: as).sum : ℤ) : ℝ) / (a :: as).length = a := by
  have : (a :: as).sum = (a :: as).length * a := by
    rw [List.sum_eq_card_nsmul (a :: as) a (by
      intro b hb
      rcases List.mem_cons.1 hb with rfl | hb
      · rfl
      · exact h b hb)]
    simp
  rw [this]
  push_cast
  have : ((as.length : ℝ) + 1) ≠ 0 := by positivity
  simp only [List.length_cons]
  push_cast
  field_simp

/-- C30: sightlines that all run along one of the three axes: their two transverse coordinates. -/
theorem proj_pos_spec {a : ℤ} {as : List ℤ} (h : ∀ b ∈ as, b = a) (ha : a = 1 ∨ a = 2 ∨ a = 3) (cofm : List Pos3) :
    get_spectra_proj_pos (a :: as) cofm = .ok (cofm.map (transverse a)) := by
  have hm := mean_all a as h
  have hl : (a :: as).getLast (by simp) = a := by
    have := List.getLast_mem (l := a :: as) (by simp)
    rcases List.mem_cons.1 this with h' | h'
    · exact h'
    · exact h _ h'
  unfold get_spectra_proj_pos
  simp only
  rw [if_neg (by
    rw [not_or, not_not, not_not, hl]
    exact ⟨by exact_mod_cast hm, rfl⟩)]
  rcases ha with rfl | rfl | rfl
  · rw [if_pos rfl]; rfl
  · rw [if_neg (by norm_num), if_pos rfl]; rfl
  · rw [if_neg (by norm_num), if_neg (by norm_num), if_pos rfl]; rfl

example := proj_pos_spec (a := 2) (as := [2, 2]) (by simp) (by norm_num) [⟨1, 2, 3⟩, ⟨4, 5, 6⟩, ⟨7, 8, 9⟩]

/-- C30, partial: sightlines along different axes are refused when the list of axes is sorted, as made by `GriddedSpectra`,
or has at most three entries. Missing: all lists of axes (`proj_pos_accepts_mixed`). -/
theorem proj_pos_refuses_partial {axis : List ℤ} (hmix : ∃ x ∈ axis, ∃ y ∈ axis, x ≠ y)
    (h : axis.Pairwise (· ≤ ·) ∨ axis.length ≤ 3) (cofm : List Pos3) :
    get_spectra_proj_pos axis cofm = .error .valueError := by
  cases axis with
  | nil => obtain ⟨x, hx, -⟩ := hmix; simp at hx
  | cons a as =>
    unfold get_spectra_proj_pos
    simp only
    rw [if_pos]
    by_contra hc
    rw [not_or, not_not, not_not] at hc
    obtain ⟨h1, h2⟩ := hc
    obtain ⟨x, hx, y, hy, hxy⟩ := hmix
    apply hxy
    have hall : ∀ b ∈ a :: as, b = a := by
      rcases h with hs | hl
      · intro b hb
        have hle : a ≤ b := by
          rcases List.mem_cons.1 hb with rfl | hb
          · exact le_rfl
          · exact (List.pairwise_cons.1 hs).1 b hb
        have hge : b ≤ a := by
          conv_rhs => rw [h2]
          obtain ⟨i, hi, rfl⟩ := List.getElem_of_mem hb
          rw [List.getLast_eq_getElem]
          by_cases hlast : i = (a :: as).length - 1
          · simp only [hlast]; exact le_rfl
          · exact List.pairwise_iff_getElem.1 hs i ((a :: as).length - 1) hi (by simp) (by omega)
        omega
      · have hpos : ((a :: as).length : ℝ) ≠ 0 := by simp only [List.length_cons]; positivity
        rw [div_eq_iff hpos] at h1
        have h3 : (a :: as).sum = a * (a :: as).length := by exact_mod_cast h1
        match as, hl, h2, h3 with
        | [], _, _, _ => simp
        | [b], _, h2, _ => simp at h2; subst h2; simp
        | [b, c], _, h2, h3 =>
          simp at h2 h3
          subst h2
          intro d hd
          simp at hd
          rcases hd with rfl | rfl | rfl <;> omega
        | b :: c :: d :: as, hl, _, _ => simp at hl; omega
    rw [hall x hx, hall y hy]

example : ∃ axis : List ℤ, (∃ x ∈ axis, ∃ y ∈ axis, x ≠ y) ∧ axis.Pairwise (· ≤ ·) := ⟨[1, 2, 3], ⟨1, by simp, 2, by simp, by norm_num⟩, by simp⟩

/-- C30 is false of the code: mixed axes whose mean, first and last entry agree are accepted, and every position is projected
along the first axis. -/
theorem proj_pos_accepts_mixed (cofm : List Pos3) :
    get_spectra_proj_pos [2, 1, 3, 2] cofm = .ok (cofm.map (transverse 2)) := by
  unfold get_spectra_proj_pos
  simp only
  rw [if_neg (by norm_num), if_neg (by norm_num : ¬(2 : ℤ) = 1), if_pos trivial]
  rfl

/-- C30: without sightlines, or with an axis that is none of the three, the call raises. -/
theorem proj_pos_bad_axis {a : ℤ} (ha : a ≠ 1 ∧ a ≠ 2 ∧ a ≠ 3) (cofm : List Pos3) :
    get_spectra_proj_pos [] cofm = .error .indexError ∧ get_spectra_proj_pos [a] cofm = .error .unboundLocalError := by
  refine ⟨rfl, ?_⟩
  unfold get_spectra_proj_pos
  simp [ha.1, ha.2.1, ha.2.2]

example := proj_pos_bad_axis (a := 0) (by norm_num) [⟨1, 2, 3⟩]

/-- A peak optical depth an observer can measure. -/
def Measurable (m : ℝ) : Prop := m < 3 ∧ m > 0.1

/-- C49: the chosen line. If a line's peak is measurable, the strongest measurable line; else, if a line is visible at all, the
weakest visible one; else the strongest. -/
theorem choose_line_spec {maxtaus : List ℝ} (hne : maxtaus ≠ []) :
    ∃ k m, chooseLine maxtaus = .ok k ∧ maxtaus[k]? = some m ∧
      ((∃ x ∈ maxtaus, Measurable x) → Measurable m ∧ ∀ x ∈ maxtaus, Measurable x → x ≤ m) ∧
      ((∀ x ∈ maxtaus, ¬Measurable x) → (∃ x ∈ maxtaus, x > 0.1) → m > 0.1 ∧ ∀ x ∈ maxtaus, x > 0.1 → m ≤ x) ∧
      ((∀ x ∈ maxtaus, x ≤ 0.1) → ∀ x ∈ maxtaus, x ≤ m) := by
  have hfind : ∀ m ∈ maxtaus, maxtaus[maxtaus.findIdx (fun x => decide (x = m))]? = some m := by
    intro m hm
    have hlt : maxtaus.findIdx (fun x => decide (x = m)) < maxtaus.length :=
      List.findIdx_lt_length_of_exists ⟨m, hm, by simp⟩
    rw [List.getElem?_eq_getElem hlt]
    have := List.findIdx_getElem (p := fun x => decide (x = m)) (w := hlt)
    simpa using this
  unfold chooseLine
  by_cases h1 : maxtaus.filter (fun m => decide (m < 3 ∧ m > 0.1)) ≠ []
  · obtain ⟨m, hm, hmm, hml⟩ := maxOf_spec h1
    obtain ⟨hmem, hmeas⟩ := List.mem_filter.1 hmm
    have hmeas : Measurable m := by simpa [Measurable] using hmeas
    refine ⟨_, m, ?_, hfind m hmem, ?_, ?_, ?_⟩
    · simp only [if_pos h1, hm, bind, Except.bind]; rfl
    · exact fun _ => ⟨hmeas, fun x hx hmx => hml x (List.mem_filter.2 ⟨hx, by simpa [Measurable] using hmx⟩)⟩
    · exact fun h _ => absurd hmeas (h m hmem)
    · exact fun h => absurd (h m hmem) (not_le.2 hmeas.2)
  · have hnone : ∀ x ∈ maxtaus, ¬Measurable x := by
      intro x hx hc
      exact h1 (List.ne_nil_of_mem (List.mem_filter.2 ⟨hx, by simpa [Measurable] using hc⟩))
    by_cases h2 : maxtaus.filter (fun m => decide (m > 0.1)) ≠ []
    · obtain ⟨m, hm, hmm, hml⟩ := minOf_spec h2
      obtain ⟨hmem, hvis⟩ := List.mem_filter.1 hmm
      have hvis : m > 0.1 := of_decide_eq_true hvis
      refine ⟨_, m, ?_, hfind m hmem, ?_, ?_, ?_⟩
      · simp only [if_neg h1, if_pos h2, hm, bind, Except.bind]; rfl
      · rintro ⟨x, hx, hc⟩; exact absurd hc (hnone x hx)
      · exact fun _ _ => ⟨hvis, fun x hx hv => hml x (List.mem_filter.2 ⟨hx, decide_eq_true hv⟩)⟩
      · exact fun h => absurd (h m hmem) (not_le.2 hvis)
    · obtain ⟨m, hm, hmem, hml⟩ := maxOf_spec hne
      refine ⟨_, m, ?_, hfind m hmem, ?_, ?_, fun _ => hml⟩
      · simp only [if_neg h1, if_neg h2, hm, bind, Except.bind]; rfl
      · rintro ⟨x, hx, hc⟩; exact absurd hc (hnone x hx)
      · rintro - ⟨x, hx, hv⟩
        exact absurd (List.ne_nil_of_mem (List.mem_filter.2 ⟨hx, decide_eq_true hv⟩)) h2

example := choose_line_spec (maxtaus := [0.05, 0.7, 5]) (by simp)

/-- C49: the result is the optical depth of one of the ion's lines, and it is a line with a measurable peak (after
instrumental broadening) whenever there is one. -/
theorem observer_tau_spec {smooth : List ℝ → List ℝ} {taus : List (List ℝ)} (hne : taus ≠ []) {peak : List ℝ → ℝ}
    (hpeak : ∀ t ∈ taus, maxOf (smooth t) = .ok (peak t)) :
    ∃ t ∈ taus, observerTau smooth taus = .ok t ∧
      ((∃ x ∈ taus, Measurable (peak x)) → Measurable (peak t) ∧ ∀ x ∈ taus, Measurable (peak x) → peak x ≤ peak t) ∧
      ((∀ x ∈ taus, ¬Measurable (peak x)) → (∃ x ∈ taus, peak x > 0.1) →
        peak t > 0.1 ∧ ∀ x ∈ taus, peak x > 0.1 → peak t ≤ peak x) ∧
      ((∀ x ∈ taus, peak x ≤ 0.1) → ∀ x ∈ taus, peak x ≤ peak t) := by
  have hmap : taus.mapM (fun t => maxOf (smooth t)) = .ok (taus.map peak) := by
    clear hne
    induction taus with
    | nil => rfl
    | cons t ts ih =>
      rw [List.mapM_cons, hpeak t (by simp), ih (fun x hx => hpeak x (by simp [hx]))]
      rfl
  obtain ⟨k, m, hk, hkm, h1, h2, h3⟩ := choose_line_spec (maxtaus := taus.map peak) (by simpa using hne)
  rw [List.getElem?_map] at hkm
  obtain ⟨t, ht, rfl⟩ := Option.map_eq_some_iff.1 hkm
  have hkl : k < taus.length := (List.getElem?_eq_some_iff.1 ht).1
  refine ⟨t, List.mem_of_getElem? ht, ?_, ?_, ?_, ?_⟩
  · unfold observerTau
    rw [hmap]
    simp only [bind, Except.bind, hk]
    exact get_eq (index_nonneg (by omega) (by exact_mod_cast hkl)) (by simpa using ht)
  · simpa using h1
  · simpa using h2
  · simpa using h3

/-- C49: no line at all raises. -/
theorem observer_tau_no_lines (smooth : List ℝ → List ℝ) : observerTau smooth [] = .error .valueError := by
  unfold observerTau chooseLine
  simp [bind, Except.bind, pure, Except.pure, maxOf]

/-- C49, finding: the documentation says the peak closest to one is used; of two lines with peaks 1 and 2.9 the code takes the
second. -/
theorem observer_not_closest : chooseLine [1, 2.9] = .ok 1 := by
  unfold chooseLine
  have hf : ([1, 2.9] : List ℝ).filter (fun m => decide (m < 3 ∧ m > 0.1)) = [1, 2.9] := by
    rw [List.filter_eq_self]
    intro x hx
    simp at hx
    rcases hx with rfl | rfl <;> norm_num
  rw [hf]
  have hm : maxOf [(1 : ℝ), 2.9] = .ok 2.9 := by
    unfold maxOf
    norm_num
  simp only [ne_eq, reduceCtorEq, not_false_eq_true, if_true, hm, bind, Except.bind, pure, Except.pure]
  congr 1
  norm_num [List.findIdx_cons]

example : ∃ taus : List (List ℝ), taus ≠ [] ∧ ∀ t ∈ taus, maxOf (id t) = .ok (if t = [1] then 1 else 2) :=
  ⟨[[1], [2]], by simp, by intro t ht; simp at ht; rcases ht with rfl | rfl <;> simp [maxOf]⟩

end Verif.Props
