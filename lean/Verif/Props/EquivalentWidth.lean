import Verif.Model.Absorbers
import Verif.Lemmas.Absorbers
import Verif.Lemmas.Numpy
import Mathlib.Data.List.GetD

/-!
C24: equivalent widths. C65: the cut of a periodic spectrum. C66: the histogram of equivalent widths.
-/

namespace Verif.Props
open Verif Verif.Np Verif.Absorbers Verif.Units Verif.Spec

/-- The trapezium rule with equal spacing: each sample counts fully, the two ends half. -/
theorem trapzDx_eq (dx a : ℝ) (l : List ℝ) :
    trapzDx dx (a :: l) = dx * ((a :: l).sum - (a + (a :: l).getLast (by simp)) / 2) := by
  induction l generalizing a with
  | nil => simp [trapzDx]
  | cons b l ih =>
    rw [trapzDx, ih b, List.getLast_cons (by simp : b :: l ≠ [])]
    simp only [List.sum_cons]
    ring

theorem trapzDx_mono {dx : ℝ} (hdx : 0 ≤ dx) {l l' : List ℝ} (h : List.Forall₂ (· ≤ ·) l l') :
    trapzDx dx l ≤ trapzDx dx l' := by
  induction h with
  | nil => exact le_rfl
  | @cons a b l l' hab hl ih =>
    cases hl with
    | nil => simp [trapzDx]
    | @cons c d l l' hcd hl =>
      rw [trapzDx, trapzDx]
      have : dx * (a + c) ≤ dx * (b + d) := mul_le_mul_of_nonneg_left (add_le_add hab hcd) hdx
      linarith

theorem trapzDx_bounds {dx : ℝ} (hdx : 0 ≤ dx) {l : List ℝ} (h : ∀ x ∈ l, 0 ≤ x ∧ x ≤ 1) :
    0 ≤ trapzDx dx l ∧ trapzDx dx l ≤ dx * ((l.length - 1 : ℕ) : ℝ) := by
  induction l with
  | nil => simp [trapzDx]
  | cons a l ih =>
    cases l with
    | nil => simp [trapzDx]
    | cons b l =>
      obtain ⟨h1, h2⟩ := ih (fun x hx => h x (by simp [hx]))
      have ha := h a (by simp)
      have hb := h b (by simp)
      rw [trapzDx]
      simp only [List.length_cons, Nat.add_sub_cancel] at h2 ⊢
      push_cast
      have e1 : 0 ≤ dx * (a + b) := mul_nonneg hdx (by linarith)
      have e2 : dx * (a + b) ≤ dx * 2 := mul_le_mul_of_nonneg_left (by linarith) hdx
      exact ⟨by linarith, by linarith⟩

theorem trapzDx_zero_iff {dx : ℝ} (hdx : 0 < dx) {l : List ℝ} (h : ∀ x ∈ l, 0 ≤ x) (hl : 2 ≤ l.length) :
    trapzDx dx l = 0 ↔ ∀ x ∈ l, x = 0 := by
  have hnn : ∀ l : List ℝ, (∀ x ∈ l, 0 ≤ x) → 0 ≤ trapzDx dx l := by
    intro l
    induction l with
    | nil => intro _; simp [trapzDx]
    | cons a l ih =>
      intro h
      cases l with
      | nil => simp [trapzDx]
      | cons b l =>
        rw [trapzDx]
        have h1 := ih (fun x hx => h x (by simp [hx]))
        have ha := h a (by simp)
        have hb := h b (by simp)
        have : 0 ≤ dx * (a + b) := mul_nonneg hdx.le (by linarith)
        linarith
  constructor
  · intro h0
    induction l with
    | nil => simp
    | cons a l ih =>
      cases l with
      | nil => simp at hl
      | cons b l =>
        rw [trapzDx] at h0
        have ha := h a (by simp)
        have hb := h b (by simp)
        have h1 := hnn (b :: l) (fun x hx => h x (by simp [hx]))
        have h2 : 0 ≤ dx * (a + b) := mul_nonneg hdx.le (by linarith)
        have h3 : dx * (a + b) = 0 := by linarith
        have h4 : trapzDx dx (b :: l) = 0 := by linarith
        have h5 : a + b = 0 := (mul_eq_zero.1 h3).resolve_left hdx.ne'
        have ha0 : a = 0 := by linarith
        have hb0 : b = 0 := by linarith
        cases l with
        | nil => intro x hx; simp at hx; rcases hx with rfl | rfl <;> assumption
        | cons c l =>
          intro x hx
          rcases List.mem_cons.1 hx with rfl | hx
          · exact ha0
          · exact ih (fun x hx => h x (by simp [hx])) (by simp) h4 x hx
  · intro h0
    have : ∀ l : List ℝ, (∀ x ∈ l, x = 0) → trapzDx dx l = 0 := by
      intro l
      induction l with
      | nil => intro _; rfl
      | cons a l ih =>
        intro h
        cases l with
        | nil => rfl
        | cons b l =>
          rw [trapzDx, ih (fun x hx => h x (by simp [hx])), h a (by simp), h b (by simp)]
          simp
    exact this l h0

theorem pixelWidth_pos {dvbin line : ℝ} (hd : 0 < dvbin) (hl : 0 < line) : 0 < pixelWidth dvbin line := by
  unfold pixelWidth light
  positivity

/-- The fraction of light absorbed. -/
noncomputable def absorbed (t : ℝ) : ℝ := 1 - Real.exp (-t)

theorem absorbed_range {t : ℝ} (h : 0 ≤ t) : 0 ≤ absorbed t ∧ absorbed t ≤ 1 := by
  unfold absorbed
  have h1 := Real.exp_pos (-t)
  have h2 : Real.exp (-t) ≤ 1 := Real.exp_le_one_iff.2 (by linarith)
  constructor <;> linarith

theorem eqw_row (dvbin line : ℝ) (tau : List (List ℝ)) :
    equivalent_width dvbin line tau = tau.map (fun row => trapzDx (pixelWidth dvbin line) (row.map absorbed)) := by
  unfold equivalent_width
  apply List.map_congr_left
  intro row _
  congr 1
  apply List.map_congr_left
  intro t _
  unfold absorbed; ring

/-- C24: one value per sightline: the width of a pixel in wavelength (`dvbin/c*line`, `c` in km/s) times the sum of the
absorbed fractions, where the first and the last pixel count half. -/
theorem eq_width_spec {dvbin line : ℝ} {tau : List (List ℝ)} {k : ℕ} {t : ℝ} {row : List ℝ}
    (hk : tau[k]? = some (t :: row)) :
    (equivalent_width dvbin line tau)[k]? = some (dvbin / 299000 * line *
      (((t :: row).map (fun t => 1 - Real.exp (-t))).sum
        - ((1 - Real.exp (-t)) + (1 - Real.exp (-((t :: row).getLast (by simp))))) / 2)) := by
  rw [eqw_row, List.getElem?_map, hk]
  simp only [Option.map_some, List.map_cons]
  rw [trapzDx_eq]
  have hw : pixelWidth dvbin line = dvbin / 299000 * line := by
    unfold pixelWidth light; norm_num
  have hl : (absorbed t :: row.map absorbed).getLast (by simp) = absorbed ((t :: row).getLast (by simp)) := by
    have : absorbed t :: row.map absorbed = (t :: row).map absorbed := rfl
    simp only [this, List.getLast_map]
  rw [hl, hw]
  rfl

/-- C24: without negative optical depths each equivalent width is between zero and the wavelength length of the
spectrum; it is zero exactly when nothing is absorbed. -/
theorem eq_width_bounds {dvbin line : ℝ} (hd : 0 < dvbin) (hl : 0 < line) {tau : List (List ℝ)} {k : ℕ} {row : List ℝ}
    (hk : tau[k]? = some row) (h2 : 2 ≤ row.length) (hpos : ∀ t ∈ row, 0 ≤ t) :
    ∃ w, (equivalent_width dvbin line tau)[k]? = some w ∧ 0 ≤ w ∧ w < dvbin / 299000 * line * row.length ∧
      (w = 0 ↔ ∀ t ∈ row, t = 0) := by
  have hp := pixelWidth_pos hd hl
  have hw : pixelWidth dvbin line = dvbin / 299000 * line := by
    unfold pixelWidth light; norm_num
  refine ⟨trapzDx (pixelWidth dvbin line) (row.map absorbed), ?_, ?_, ?_, ?_⟩
  · rw [eqw_row, List.getElem?_map, hk]; rfl
  · exact (trapzDx_bounds hp.le (by
      intro x hx; obtain ⟨t, ht, rfl⟩ := List.mem_map.1 hx; exact absorbed_range (hpos t ht))).1
  · have := (trapzDx_bounds hp.le (l := row.map absorbed) (by
      intro x hx; obtain ⟨t, ht, rfl⟩ := List.mem_map.1 hx; exact absorbed_range (hpos t ht))).2
    rw [List.length_map] at this
    rw [← hw]
    refine this.trans_lt (mul_lt_mul_of_pos_left ?_ hp)
    exact_mod_cast (by omega : row.length - 1 < row.length)
  · rw [trapzDx_zero_iff hp (by
      intro x hx; obtain ⟨t, ht, rfl⟩ := List.mem_map.1 hx; exact (absorbed_range (hpos t ht)).1) (by simpa using h2)]
    constructor
    · intro h t ht
      have := h (absorbed t) (List.mem_map.2 ⟨t, ht, rfl⟩)
      unfold absorbed at this
      have h1 : Real.exp (-t) = 1 := by linarith
      have := Real.exp_eq_one_iff (-t) |>.1 h1
      linarith
    · intro h x hx
      obtain ⟨t, ht, rfl⟩ := List.mem_map.1 hx
      rw [h t ht]; simp [absorbed]

/-- C24: more optical depth never lowers an equivalent width. -/
theorem eq_width_mono {dvbin line : ℝ} (hd : 0 ≤ dvbin) (hl : 0 ≤ line) {tau tau' : List (List ℝ)}
    (h : List.Forall₂ (List.Forall₂ (· ≤ ·)) tau tau') :
    List.Forall₂ (· ≤ ·) (equivalent_width dvbin line tau) (equivalent_width dvbin line tau') := by
  have hp : 0 ≤ pixelWidth dvbin line := by unfold pixelWidth light; positivity
  rw [eqw_row, eqw_row]
  rw [List.forall₂_map_left_iff, List.forall₂_map_right_iff]
  refine h.imp (fun row row' hr => ?_)
  apply trapzDx_mono hp
  rw [List.forall₂_map_left_iff, List.forall₂_map_right_iff]
  refine hr.imp (fun t t' ht => ?_)
  unfold absorbed
  have := Real.exp_le_exp.2 (by linarith : -t' ≤ -t)
  linarith

example : ∃ tau tau' : List (List ℝ), List.Forall₂ (List.Forall₂ (· ≤ ·)) tau tau' ∧ tau ≠ tau' ∧
    ∃ row, tau[0]? = some row ∧ 2 ≤ row.length ∧ ∀ t ∈ row, 0 ≤ t := by
  refine ⟨[[0, 1, 2]], [[1, 1, 3]], ?_, by norm_num, [0, 1, 2], rfl, by simp, ?_⟩
  · refine .cons (.cons (by norm_num) (.cons le_rfl (.cons (by norm_num) .nil))) .nil
  · intro t ht; simp at ht; rcases ht with rfl | rfl | rfl <;> norm_num

/-- C65, partial: shifting a periodic spectrum cyclically changes the equivalent width by at most the width of a pixel.
Missing: that it does not change at all, which is false (`eq_width_depends_on_cut`). -/
theorem eq_width_shift_partial {dvbin line : ℝ} (hd : 0 ≤ dvbin) (hl : 0 ≤ line) {row row' : List ℝ}
    (hperm : row.Perm row') (hpos : ∀ t ∈ row, 0 ≤ t) {w w' : ℝ}
    (hw : equivalent_width dvbin line [row] = [w]) (hw' : equivalent_width dvbin line [row'] = [w']) :
    |w - w'| ≤ dvbin / 299000 * line := by
  have hp : 0 ≤ pixelWidth dvbin line := by unfold pixelWidth light; positivity
  have hpw : pixelWidth dvbin line = dvbin / 299000 * line := by unfold pixelWidth light; norm_num
  rw [eqw_row] at hw hw'
  simp only [List.map_cons, List.map_nil, List.cons.injEq, and_true] at hw hw'
  cases row with
  | nil =>
    have := hperm.nil_eq
    subst this
    subst hw hw'
    simp only [sub_self, abs_zero]; positivity
  | cons a l =>
    cases row' with
    | nil => exact absurd hperm.symm.nil_eq (by simp)
    | cons b l' =>
      have hpos' : ∀ t ∈ b :: l', 0 ≤ t := fun t ht => hpos t (hperm.mem_iff.2 ht)
      rw [List.map_cons, trapzDx_eq] at hw hw'
      have hsum : (absorbed a :: l.map absorbed).sum = (absorbed b :: l'.map absorbed).sum :=
        (hperm.map absorbed).sum_eq
      have ends : ∀ (a : ℝ) (l : List ℝ), (∀ t ∈ a :: l, 0 ≤ t) →
          0 ≤ (absorbed a + (absorbed a :: l.map absorbed).getLast (by simp)) / 2 ∧
          (absorbed a + (absorbed a :: l.map absorbed).getLast (by simp)) / 2 ≤ 1 := by
        intro a l h
        have h1 := absorbed_range (h a (by simp))
        have h2 : ∀ x ∈ absorbed a :: l.map absorbed, 0 ≤ x ∧ x ≤ 1 := by
          intro x hx
          obtain ⟨t, ht, rfl⟩ := List.mem_map.1 (show x ∈ (a :: l).map absorbed from hx)
          exact absorbed_range (h t ht)
        have h3 := h2 _ (List.getLast_mem (by simp : absorbed a :: l.map absorbed ≠ []))
        constructor <;> linarith
      have e1 := ends a l hpos
      have e2 := ends b l' hpos'
      rw [← hw, ← hw', hsum, ← mul_sub, abs_mul, abs_of_nonneg hp, hpw]
      rw [hpw] at hp
      refine mul_le_of_le_one_right hp ?_
      rw [abs_le]; constructor <;> linarith

/-- C65 is false of the code: the segment between the last and the first pixel of the periodic spectrum is left out, so
the equivalent width depends on where the spectrum is cut. -/
theorem eq_width_depends_on_cut : ∃ (dvbin line : ℝ) (row : List ℝ) (s : ℤ), 0 < dvbin ∧ 0 < line ∧ (∀ t ∈ row, 0 ≤ t) ∧
    equivalent_width dvbin line [roll row s] ≠ equivalent_width dvbin line [row] := by
  refine ⟨299000, 1, [1, 0, 0], 1, by norm_num, by norm_num, ?_, ?_⟩
  · intro t ht; simp at ht; rcases ht with rfl | rfl <;> norm_num
  · have hr : roll [(1 : ℝ), 0, 0] 1 = [0, 1, 0] := by
      unfold roll
      have : ((-1 : ℤ) % (([(1 : ℝ), 0, 0].length : ℕ) : ℤ)).toNat = 2 := by simp
      rw [this]; rfl
    rw [hr, eqw_row, eqw_row]
    have hw : pixelWidth 299000 1 = 1 := by unfold pixelWidth light; norm_num
    have hn : absorbed 1 ≠ 0 := by
      unfold absorbed
      have : Real.exp (-1) < 1 := by
        rw [Real.exp_lt_one_iff]; norm_num
      linarith
    have h0 : absorbed 0 = 0 := by simp [absorbed]
    simp only [List.map_cons, List.map_nil, trapzDx, hw, h0, ne_eq, List.cons.injEq, and_true]
    intro h
    apply hn
    linarith

/-- Edge `i` of the table of logarithms of equivalent widths. -/
noncomputable def widthEdge (lo dv : ℝ) (i : ℕ) : ℝ := Real.logb 10 lo + i * dv

theorem widthEdge_mono {lo dv : ℝ} (hd : 0 ≤ dv) : Monotone (widthEdge lo dv) := by
  intro i j hij
  unfold widthEdge
  have : (i : ℝ) ≤ j := by exact_mod_cast hij
  have := mul_le_mul_of_nonneg_right this hd
  linarith

/-- C66: the histogram covers the logarithms from the smallest positive equivalent width on in steps of `dv`; a value is the
number of positive widths in the bin divided by `dv` and by the number of those in all the bins, so that times `dv` they add
up to one. -/
theorem eq_width_hist_spec_partial {dv : ℝ} (hd : 0 < dv) {ew : List ℝ} (hpos : ∃ w ∈ ew, 0 < w) :
    ∃ lo hi n vbin dens, eq_width_hist dv ew = .ok (vbin, dens) ∧
      (lo ∈ ew ∧ 0 < lo ∧ ∀ w ∈ ew, 0 < w → lo ≤ w) ∧ (hi ∈ ew ∧ ∀ w ∈ ew, w ≤ hi) ∧
      n = ⌈(Real.logb 10 hi - Real.logb 10 lo) / dv⌉₊ - 1 ∧ vbin.length = n ∧
      (∀ i < n, vbin[i]? = some (Real.logb 10 lo + (i + 1 / 2) * dv)) ∧
      (n = 0 → dens = some []) ∧
      (0 < n → ∀ d, dens = some d → d.length = n ∧
        (∀ i < n, d[i]? = some (Spec.count (fun w => 0 < w ∧ InEdges (widthEdge lo dv) n i (Real.logb 10 w)) ew / dv /
          Spec.count (fun w => 0 < w ∧ widthEdge lo dv 0 ≤ Real.logb 10 w ∧ Real.logb 10 w ≤ widthEdge lo dv n) ew)) ∧
        ∑ i ∈ Finset.range n, d.getD i 0 * dv = 1) := by
  set pos := ew.filter (fun w => decide (w > 0)) with hp
  have hmem : ∀ w, w ∈ pos ↔ w ∈ ew ∧ 0 < w := by intro w; rw [hp]; simp
  have hne : pos ≠ [] := by
    obtain ⟨w, hw, h0⟩ := hpos
    exact List.ne_nil_of_mem ((hmem w).2 ⟨hw, h0⟩)
  obtain ⟨lo, hlo, hlom, hlol⟩ := minOf_spec hne
  obtain ⟨hi, hhi, hhim, hhil⟩ := maxOf_spec hne
  have hlo0 := ((hmem lo).1 hlom).2
  have hhi0 := ((hmem hi).1 hhim).2
  set n := ⌈(Real.logb 10 hi - Real.logb 10 lo) / dv⌉₊ - 1 with hn
  have hmono := widthEdge_mono (lo := lo) hd.le
  have hcount : ∀ P : ℝ → Prop, Spec.count P (pos.map (Real.logb 10)) = Spec.count (fun w => 0 < w ∧ P (Real.logb 10 w)) ew := by
    intro P
    rw [hp]
    clear hp hmem hne hlo hlom hlol hhi hhim hhil hpos
    induction ew with
    | nil => rfl
    | cons w ew ih =>
      rw [count_cons, ← ih, List.filter_cons]
      by_cases h0 : 0 < w
      · rw [if_pos (by simpa using h0), List.map_cons, count_cons]
        by_cases h1 : P (Real.logb 10 w)
        · rw [if_pos h1, if_pos ⟨h0, h1⟩]
        · rw [if_neg h1, if_neg (fun hc => h1 hc.2)]
      · rw [if_neg (by simpa using h0), if_neg (fun hc => h0 hc.1)]
        simp
  set H := (List.range n).map (fun i => (Spec.count (InEdges (widthEdge lo dv) n i) (pos.map (Real.logb 10)) : ℤ)) with hH
  have hrun : eq_width_hist dv ew = .ok ((List.range n).map (fun i => (widthEdge lo dv (i + 1) + widthEdge lo dv i) / 2),
      normalise H ((List.range n).map (fun i => widthEdge lo dv (i + 1) - widthEdge lo dv i))) := by
    unfold eq_width_hist
    rw [← hp]
    simp only [bind, Except.bind, hlo, hhi]
    unfold arange
    rw [if_neg hd.ne']
    simp only
    rw [show (fun i : ℕ => Real.logb 10 lo + (i : ℝ) * dv) = widthEdge lo dv from rfl, histogramOf_range _ hmono, zip_tail,
      zip_tail, ← hn]
    rfl
  refine ⟨lo, hi, n, _, _, hrun, ⟨((hmem lo).1 hlom).1, hlo0, fun w hw h0 => hlol w ((hmem w).2 ⟨hw, h0⟩)⟩,
    ⟨((hmem hi).1 hhim).1, ?_⟩, rfl, by simp, ?_, ?_, ?_⟩
  · intro w hw
    rcases lt_or_ge 0 w with h0 | h0
    · exact hhil w ((hmem w).2 ⟨hw, h0⟩)
    · linarith
  · intro i hi
    rw [List.getElem?_map, List.getElem?_range hi]
    simp only [Option.map_some, widthEdge, Option.some.injEq]
    push_cast; ring
  · intro h
    have : H = [] := by rw [hH, h]; rfl
    unfold normalise
    rw [if_pos this]
  · intro hn0 d hdd
    have hsum : H.sum = ((∑ i ∈ Finset.range n, Spec.count (InEdges (widthEdge lo dv) n i) (pos.map (Real.logb 10)) : ℕ) : ℤ) := by
      rw [hH]; push_cast; rfl
    have hHne : H ≠ [] := by
      intro hc
      have := congrArg List.length hc
      rw [hH] at this
      simp at this
      omega
    unfold normalise at hdd
    rw [if_neg hHne, hsum] at hdd
    split_ifs at hdd with hz
    have hd' := (Option.some.inj hdd).symm
    have htot := histogram_total hn0 (fun i _ => hmono (Nat.le_succ i)) (pos.map (Real.logb 10))
    rw [htot, hcount] at hd' hz
    have hw : ∀ i, widthEdge lo dv (i + 1) - widthEdge lo dv i = dv := by
      intro i; unfold widthEdge; push_cast; ring
    rw [hH, zip_maps] at hd'
    refine ⟨by rw [hd']; simp, ?_, ?_⟩
    · intro i hi
      rw [hd', List.getElem?_map, List.getElem?_range hi]
      simp only [Option.map_some, hw, hcount]
      push_cast
      rfl
    · have hget : ∀ i ∈ Finset.range n, d.getD i 0 * dv =
          (Spec.count (InEdges (widthEdge lo dv) n i) (pos.map (Real.logb 10)) : ℝ) /
            (Spec.count (fun w => 0 < w ∧ widthEdge lo dv 0 ≤ Real.logb 10 w ∧ Real.logb 10 w ≤ widthEdge lo dv n) ew : ℝ) := by
        intro i hi
        rw [hd', List.getD_eq_getElem?_getD, List.getElem?_map, List.getElem?_range (Finset.mem_range.1 hi)]
        simp only [Option.map_some, hw, Option.getD_some]
        push_cast
        field_simp
      rw [Finset.sum_congr rfl hget, ← Finset.sum_div, ← Nat.cast_sum, htot, hcount]
      apply div_self
      exact_mod_cast hz

/-- C66: without absorption the histogram raises. -/
theorem eq_width_hist_none {dv : ℝ} {ew : List ℝ} (h : ∀ w ∈ ew, w ≤ 0) : eq_width_hist dv ew = .error .valueError := by
  have : ew.filter (fun w => decide (w > 0)) = [] := by
    rw [List.filter_eq_nil_iff]
    intro w hw
    simpa using h w hw
  unfold eq_width_hist
  rw [this]
  rfl

/-- C66 is false of the code for the strongest absorber: when the weakest and the strongest differ, the last edge is below
the strongest, which is in no bin. -/
theorem eq_width_hist_misses_strongest {dv lo hi : ℝ} (hd : 0 < dv) (h0 : 0 < lo) (hlt : lo < hi) {n : ℕ}
    (hn : n = ⌈(Real.logb 10 hi - Real.logb 10 lo) / dv⌉₊ - 1) (i : ℕ) (hi' : i < n) :
    ¬InEdges (widthEdge lo dv) n i (Real.logb 10 hi) := by
  have hll : Real.logb 10 lo < Real.logb 10 hi := Real.logb_lt_logb (by norm_num) h0 hlt
  have hpos : 0 < (Real.logb 10 hi - Real.logb 10 lo) / dv := div_pos (by linarith) hd
  have hc := Nat.ceil_pos.2 hpos
  have hnlt : (n : ℝ) < (Real.logb 10 hi - Real.logb 10 lo) / dv := Nat.lt_ceil.1 (by omega)
  have hlast : widthEdge lo dv n < Real.logb 10 hi := by
    unfold widthEdge
    rw [lt_div_iff₀ hd] at hnlt
    linarith
  have hm := widthEdge_mono (lo := lo) hd.le (show i + 1 ≤ n by omega)
  rintro ⟨-, h | ⟨-, h⟩⟩ <;> linarith

example : ∃ w ∈ [(1 : ℝ), 10, 3], 0 < w := ⟨1, by simp, by norm_num⟩

/-! Witnesses for the other theorems of C26 and of the histogram. -/

example := eq_width_spec (dvbin := 2) (line := 1215) (tau := [[0, 0], [0, 1, 2]]) (k := 1) rfl

example := eq_width_bounds (dvbin := 2) (line := 1215) (by norm_num) (by norm_num) (tau := [[0, 0], [0, 1, 2]]) (k := 1) rfl (by simp) (by simp)

example := eq_width_shift_partial (dvbin := 2) (line := 1215) (by norm_num) (by norm_num) (List.Perm.swap 0 1 [2]) (by simp) rfl rfl

example := eq_width_hist_spec_partial (dv := 0.1) (by norm_num) (ew := [1, 10, 0, 3]) ⟨1, by simp, by norm_num⟩

example := eq_width_hist_none (dv := 0.1) (ew := [0, -1]) (by simp)

end Verif.Props
