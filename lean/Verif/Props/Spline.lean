import Verif.Lemmas.Spline

/-!
C81: the breakpoints of the spline fitted to noisy spectra.

scipy's least squares spline is arbitrary: `fit flux inds` is what it returns for breakpoints at the pixels `inds`.
-/

namespace Verif.Props
open Verif Verif.Np Verif.Curvature Verif.Spline

/-- The velocity between neighbouring pixels on the grid used by the code. -/
noncomputable def velStep (vmax : ℝ) (n : ℕ) : ℝ := vmax / ((n : ℝ) - 1)

/-- The pixels from `lo` to `hi`, both included, of a spectrum of `n` pixels. -/
def segPixels (n lo hi : ℕ) : List ℕ := (List.range n).filter (fun p => decide (lo ≤ p ∧ p ≤ hi))

/-- The sum over pixels of the squared difference of flux and spline, over the variance of the flux of these pixels. -/
noncomputable def misfit (flux : List ℝ) (spline : ℕ → ℝ) (ps : List ℕ) : ℝ :=
  (ps.map (fun p => (flux.getD p 0 - spline p) ^ 2 / variance (ps.map (fun p => flux.getD p 0)))).sum

/-- `lo` and `hi` are neighbours in `0, inds, n`: a segment. -/
def IsSegment (n : ℕ) (inds : List ℕ) (lo hi : ℕ) : Prop :=
  lo ∈ 0 :: inds ∧ hi ∈ inds ++ [n] ∧ lo < hi ∧ ∀ p ∈ inds, p ≤ lo ∨ hi ≤ p

/-- The breakpoints: increasing, inside the spectrum, at least `seg_min` apart and from the start. The end of the spectrum is
taken one pixel after the last. -/
def Separated (n : ℕ) (s seg_min : ℝ) (inds : List ℕ) : Prop :=
  ([0] ++ inds ++ [n]).Pairwise (fun p q => p < q ∧ seg_min ≤ ((q - p : ℕ) : ℝ) * s)

theorem slice_seg (flux : List ℝ) (lo hi : ℕ) : slice flux lo (hi + 1) = (segPixels flux.length lo hi).map (fun p => flux.getD p 0) := by
  have h : ∀ (l : List ℝ) (lo k : ℕ), slice l lo k = ((List.range l.length).filter (fun p => decide (lo ≤ p ∧ p < k))).map (fun p => l.getD p 0) := by
    intro l
    induction l using List.reverseRecOn with
    | nil => intro lo k; simp [slice]
    | append_singleton l x ih =>
      intro lo k
      rw [List.length_append, List.length_singleton, List.range_succ, List.filter_append, List.map_append]
      have e1 : ((List.range l.length).filter (fun p => decide (lo ≤ p ∧ p < k))).map (fun p => (l ++ [x]).getD p 0) = slice l lo k := by
        rw [ih]
        apply List.map_congr_left
        intro p hp
        have := List.mem_range.1 (List.mem_filter.1 hp).1
        rw [List.getD_eq_getElem?_getD, List.getD_eq_getElem?_getD, List.getElem?_append_left this]
      rw [e1]
      by_cases hc : lo ≤ l.length ∧ l.length < k
      · rw [List.filter_cons_of_pos (by simpa using hc)]
        unfold slice
        rw [List.take_of_length_le (by simp; omega), List.take_of_length_le (by omega), List.drop_append_of_le_length hc.1]
        simp
      · rw [List.filter_cons_of_neg (by simpa using hc)]
        unfold slice
        simp only [List.filter_nil, List.map_nil, List.append_nil]
        rcases Nat.lt_or_ge l.length k with hk | hk
        · have hlo : l.length < lo := by omega
          rw [List.drop_of_length_le (by rw [List.length_take]; simp; omega), List.drop_of_length_le (by rw [List.length_take]; omega)]
        · rw [List.take_append_of_le_length hk]
  rw [h]
  unfold segPixels
  congr 2
  ext p
  congr 1
  apply propext
  constructor <;> (rintro ⟨h1, h2⟩; exact ⟨h1, by omega⟩)

theorem chi_misfit (flux : List ℝ) (spline : ℕ → ℝ) (lo hi : ℕ) :
    chi_squared (slice flux lo (hi + 1)) (((List.range flux.length).filter (fun p => decide (lo ≤ p ∧ p < hi + 1))).map spline) =
      misfit flux spline (segPixels flux.length lo hi) := by
  have hf : (List.range flux.length).filter (fun p => decide (lo ≤ p ∧ p < hi + 1)) = segPixels flux.length lo hi := by
    unfold segPixels
    congr 1
    ext p
    congr 1
    apply propext
    constructor <;> (rintro ⟨h1, h2⟩; exact ⟨h1, by omega⟩)
  rw [hf, slice_seg]
  unfold chi_squared misfit
  congr 1
  generalize hV : variance _ = V
  generalize segPixels flux.length lo hi = ps
  induction ps with
  | nil => rfl
  | cons p ps ih => simp only [List.map_cons, List.zipWith_cons_cons, ih]

/-- Segment `lo, hi` would gain from a breakpoint at its middle: `chi^2` falls by more than `chi_min`, and both halves are at
least `seg_min` long. -/
def Gains (vmax : ℝ) (flux : List ℝ) (chi_min seg_min : ℝ) (cur next : ℕ → ℝ) (lo hi : ℕ) : Prop :=
  let ps := segPixels flux.length lo hi
  variance (ps.map (fun p => flux.getD p 0)) ≠ 0 ∧ chi_min < misfit flux cur ps - misfit flux next ps ∧
    seg_min ≤ ((min hi (flux.length - 1) : ℕ) : ℝ) * velStep vmax flux.length - (((lo + hi) / 2 : ℕ) : ℝ) * velStep vmax flux.length ∧
    seg_min ≤ (((lo + hi) / 2 : ℕ) : ℝ) * velStep vmax flux.length - (lo : ℝ) * velStep vmax flux.length

theorem wants_iff {vmax : ℝ} {flux : List ℝ} {chi_min seg_min : ℝ} {cur next : ℕ → ℝ} {lo hi : ℕ} :
    wants vmax flux.length flux chi_min seg_min cur next lo hi = true ↔ Gains vmax flux chi_min seg_min cur next lo hi := by
  unfold wants Gains gain
  simp only
  rw [decide_eq_true_eq, chi_misfit, chi_misfit, slice_seg]
  rfl

theorem segment_index {n : ℕ} {inds : List ℕ} (hg : Good n inds) {lo hi : ℕ} (h : IsSegment n inds lo hi) :
    ∃ (i : ℕ) (hi' : i + 1 < (allInds n inds).length), (allInds n inds)[i] = lo ∧ (allInds n inds)[i + 1] = hi := by
  obtain ⟨h1, h2, h3, h4⟩ := h
  have hlo : lo ∈ allInds n inds := by
    unfold allInds
    rcases List.mem_cons.1 h1 with rfl | h <;> simp [*]
  have hhi : hi ∈ allInds n inds := by
    unfold allInds
    rw [List.append_assoc]
    exact List.mem_append_right _ h2
  obtain ⟨i, hil, hie⟩ := List.getElem_of_mem hlo
  obtain ⟨j, hjl, hje⟩ := List.getElem_of_mem hhi
  have hij : i < j := by
    by_contra hc
    have := mono_get hg (i := j) (j := i) (by omega) hil
    omega
  rcases Nat.lt_or_ge (i + 1) j with hlt | hge
  · exfalso
    have a1 := all_get_lt hg (i := i) (j := i + 1) (by omega) (by omega)
    have a2 := all_get_lt hg (i := i + 1) (j := j) hlt hjl
    have hmem : (allInds n inds)[i + 1] ∈ allInds n inds := List.getElem_mem _
    unfold allInds at hmem
    simp only [List.mem_append, List.mem_singleton] at hmem
    have hle := all_get_le hg hjl
    rcases hmem with (h | h) | h
    · unfold allInds at a1 a2 hie hje hle; omega
    · have := h4 _ h
      unfold allInds at a1 a2 hie hje hle; omega
    · unfold allInds at a1 a2 hie hje hle; omega
  · have : j = i + 1 := by omega
    subst this
    exact ⟨i, hjl, hie, hje⟩

theorem added_nil {vmax : ℝ} {n : ℕ} {flux : List ℝ} {chi_min seg_min : ℝ} {cur next : ℕ → ℝ} {all : List ℕ}
    (h : added vmax n flux chi_min seg_min cur next all = []) {i : ℕ} (hi : i + 1 < all.length) :
    ¬ wants vmax n flux chi_min seg_min cur next all[i] all[i + 1] = true := by
  intro hw
  have : midRound all[i] all[i + 1] ∈ added vmax n flux chi_min seg_min cur next all := by
    unfold added
    refine List.mem_filterMap.2 ⟨i, List.mem_range.2 (by omega), ?_⟩
    have e1 : all.getD i 0 = all[i] := by rw [List.getD_eq_getElem?_getD, List.getElem?_eq_getElem (by omega)]; rfl
    have e2 : all.getD (i + 1) 0 = all[i + 1] := by rw [List.getD_eq_getElem?_getD, List.getElem?_eq_getElem (by omega)]; rfl
    rw [e1, e2, if_pos hw]
  rw [h] at this
  simp at this

theorem separated_good {n : ℕ} {s seg_min : ℝ} {inds : List ℕ} (h : Separated n s seg_min inds) : Good n inds :=
  h.imp (fun h => h.1)

/-- A breakpoint that is added leaves room on both sides. -/
theorem wants_room {vmax : ℝ} (hv : 0 < vmax) {n : ℕ} (hn : 2 ≤ n) {flux : List ℝ} {chi_min seg_min : ℝ}
    (hs : velStep vmax n < seg_min) {cur next : ℕ → ℝ} {lo hi : ℕ}
    (hw : wants vmax n flux chi_min seg_min cur next lo hi = true) (hlt : lo < hi) :
    lo < midRound lo hi ∧ midRound lo hi < hi ∧ seg_min ≤ ((midRound lo hi - lo : ℕ) : ℝ) * velStep vmax n ∧
      seg_min ≤ ((hi - midRound lo hi : ℕ) : ℝ) * velStep vmax n := by
  have hs0 : 0 < velStep vmax n := by
    unfold velStep
    apply div_pos hv
    have : (2 : ℝ) ≤ n := by exact_mod_cast hn
    linarith
  have hmono : ∀ {d e : ℕ}, d ≤ e → seg_min ≤ (d : ℝ) * velStep vmax n → seg_min ≤ (e : ℝ) * velStep vmax n := by
    intro d e hde hd
    have h1 : (d : ℝ) ≤ e := by exact_mod_cast hde
    exact le_trans hd (mul_le_mul_of_nonneg_right h1 hs0.le)
  have hb := added_between hv hn hs hw
  have hgap := wants_gap hv hn hs hw
  unfold wants at hw
  rw [decide_eq_true_eq] at hw
  obtain ⟨-, -, w1, w2⟩ := hw
  have g1 : seg_min ≤ (((lo + hi) / 2 - lo : ℕ) : ℝ) * velStep vmax n := by
    rw [Nat.cast_sub (by omega), sub_mul]
    exact w2
  have g2 : seg_min ≤ ((min hi (n - 1) - (lo + hi) / 2 : ℕ) : ℝ) * velStep vmax n := by
    rw [Nat.cast_sub (by omega), sub_mul]
    exact w1
  have hm := midRound_bounds lo hi
  have hu := midRound_upper lo hi hlt.le
  refine ⟨hb.1, by omega, hmono (by omega) g1, ?_⟩
  rcases Nat.le_total ((lo + hi) / 2 - lo) (hi - (lo + hi) / 2) with hc | hc
  · exact hmono (by omega) g1
  · exact hmono (by omega) g2

/-- Adding breakpoints keeps them apart. -/
theorem separated_merge {vmax : ℝ} (hv : 0 < vmax) {n : ℕ} (hn : 2 ≤ n) {flux : List ℝ} {chi_min seg_min : ℝ}
    (hs : velStep vmax n < seg_min) {cur next : ℕ → ℝ} {inds : List ℕ} (h : Separated n (velStep vmax n) seg_min inds) :
    Separated n (velStep vmax n) seg_min (merged inds (added vmax n flux chi_min seg_min cur next (allInds n inds))) := by
  have hg := separated_good h
  set new := added vmax n flux chi_min seg_min cur next (allInds n inds) with hnew
  have hg' : Good n (merged inds new) := merged_good hv hn hs hg
  have hs0 : 0 < velStep vmax n := by
    unfold velStep
    apply div_pos hv
    have : (2 : ℝ) ≤ n := by exact_mod_cast hn
    linarith
  set G : ℕ → Prop := fun d => seg_min ≤ (d : ℝ) * velStep vmax n with hG
  have hmono : ∀ {d e : ℕ}, d ≤ e → G d → G e := by
    intro d e hde hd
    have h1 : (d : ℝ) ≤ e := by exact_mod_cast hde
    exact le_trans hd (mul_le_mul_of_nonneg_right h1 hs0.le)
  -- every new breakpoint is well inside an old segment
  have hin : ∀ x ∈ new, ∃ (i : ℕ) (hi : i + 1 < (allInds n inds).length),
      (allInds n inds)[i] < x ∧ x < (allInds n inds)[i + 1] ∧ G (x - (allInds n inds)[i]) ∧ G ((allInds n inds)[i + 1] - x) := by
    intro x hx
    obtain ⟨i, hi, hw, rfl⟩ := added_mem hx
    have hlt := all_get_lt hg (i := i) (j := i + 1) (by omega) hi
    obtain ⟨g1, g2, g3, g4⟩ := wants_room hv hn hs hw hlt
    exact ⟨i, hi, g1, g2, g3, g4⟩
  have hold : ∀ p ∈ allInds n inds, ∀ q ∈ allInds n inds, p < q → G (q - p) := by
    intro p hp q hq hpq
    obtain ⟨i, hi, rfl⟩ := List.getElem_of_mem hp
    obtain ⟨j, hj, rfl⟩ := List.getElem_of_mem hq
    have hij : i < j := by
      by_contra hc
      have := mono_get hg (i := j) (j := i) (by omega) hi
      omega
    exact (List.pairwise_iff_getElem.1 h i j hi hj hij).2
  have hmem : ∀ x ∈ allInds n (merged inds new), x ∈ allInds n inds ∨ x ∈ new := by
    intro x hx
    unfold allInds at hx ⊢
    simp only [List.mem_append, List.mem_singleton] at hx ⊢
    rcases hx with (hx | hx) | hx
    · simp [hx]
    · rcases merged_mem.1 hx with hx | hx <;> simp [hx]
    · simp [hx]
  have hpairs : ∀ p ∈ allInds n (merged inds new), ∀ q ∈ allInds n (merged inds new), p < q → G (q - p) := by
    intro p hp q hq hpq
    rcases hmem p hp with hp | hp
    · rcases hmem q hq with hq | hq
      · exact hold p hp q hq hpq
      · obtain ⟨j, hj, a1, a2, a3, -⟩ := hin q hq
        rcases not_between hg hj hp with hc | hc
        · exact hmono (by omega) a3
        · omega
    · obtain ⟨i, hi, b1, b2, b3, b4⟩ := hin p hp
      rcases hmem q hq with hq | hq
      · rcases not_between hg hi hq with hc | hc
        · omega
        · exact hmono (by omega) b4
      · obtain ⟨j, hj, a1, a2, a3, -⟩ := hin q hq
        rcases Nat.lt_or_ge i j with hij | hij
        · have := mono_get hg (i := i + 1) (j := j) (by omega) (by omega)
          exact hmono (by omega) a3
        · exfalso
          rcases Nat.lt_or_ge j i with hji | hji
          · have := mono_get hg (i := j + 1) (j := i) (by omega) (by omega)
            omega
          · have hijeq : i = j := by omega
            subst hijeq
            obtain ⟨i1, hi1, hw1, e1⟩ := added_mem hp
            obtain ⟨j1, hj1, hw2, e2⟩ := added_mem hq
            have c1 := added_between hv hn hs hw1
            have c2 := added_between hv hn hs hw2
            have d1 : i1 = i := by
              by_contra hne
              rcases Nat.lt_or_ge i1 i with hh | hh
              · have := mono_get hg (i := i1 + 1) (j := i) (by omega) (by omega)
                omega
              · have := mono_get hg (i := i + 1) (j := i1) (by omega) (by omega)
                omega
            have d2 : j1 = i := by
              by_contra hne
              rcases Nat.lt_or_ge j1 i with hh | hh
              · have := mono_get hg (i := j1 + 1) (j := i) (by omega) (by omega)
                omega
              · have := mono_get hg (i := i + 1) (j := j1) (by omega) (by omega)
                omega
            subst d1
            subst d2
            omega
  unfold Separated
  rw [List.pairwise_iff_getElem]
  intro i j hi hj hij
  have hlt := List.pairwise_iff_getElem.1 hg' i j hi hj hij
  exact ⟨hlt, hpairs _ (List.getElem_mem hi) _ (List.getElem_mem hj) hlt⟩

/-- The loop ends, whatever the spline: it makes at most as many passes as there are pixels. -/
theorem loop_ends_spline (fit : Fit) {vmax : ℝ} (hv : 0 < vmax) {n : ℕ} (hn : 2 ≤ n) (flux : List ℝ) (chi_min : ℝ) {seg_min : ℝ}
    (hs : velStep vmax n < seg_min) : ∀ (fuel : ℕ) (inds : List ℕ), Good n inds → n ≤ fuel + inds.length →
      breakLoop fit (linspace vmax n) flux chi_min seg_min fuel inds ≠ none := by
  intro fuel
  induction fuel with
  | zero =>
    intro inds hg hf
    have := good_length hg
    omega
  | succ fuel ih =>
    intro inds hg hf
    unfold breakLoop
    rw [linspace_length]
    cases hc : fit flux inds with
    | error e => simp [Run.andThen]
    | ok cur =>
      simp only [Run.andThen]
      cases hnx : fit flux (nextInds (allInds n inds)) with
      | error e => simp
      | ok next =>
        simp only
        rw [newBreaks_eq hv hg]
        simp only
        split
        · rename_i hpos
          apply ih
          · exact merged_good hv hn hs hg
          · have := merged_length inds (added vmax n flux chi_min seg_min cur next (allInds n inds))
            unfold merged at this
            rw [this]
            omega
        · simp

/-- What the loop returns. -/
theorem loop_result_spline (fit : Fit) {vmax : ℝ} (hv : 0 < vmax) {n : ℕ} (hn : 2 ≤ n) (flux : List ℝ) (chi_min : ℝ) {seg_min : ℝ}
    (hs : velStep vmax n < seg_min) : ∀ (fuel : ℕ) (inds out : List ℕ) (f : ℕ → ℝ), Separated n (velStep vmax n) seg_min inds →
      breakLoop fit (linspace vmax n) flux chi_min seg_min fuel inds = some (.ok (out, f)) →
      Separated n (velStep vmax n) seg_min out ∧ inds ⊆ out ∧ fit flux out = .ok f ∧
        ∃ next, fit flux (nextInds (allInds n out)) = .ok next ∧ added vmax n flux chi_min seg_min f next (allInds n out) = [] := by
  intro fuel
  induction fuel with
  | zero => intro inds out f _ h; cases h
  | succ fuel ih =>
    intro inds out f hsep h
    have hg := separated_good hsep
    rw [breakLoop, linspace_length] at h
    cases hc : fit flux inds with
    | error e => rw [hc] at h; simp [Run.andThen] at h
    | ok cur =>
      rw [hc] at h
      simp only [Run.andThen] at h
      cases hnx : fit flux (nextInds (allInds n inds)) with
      | error e => rw [hnx] at h; simp at h
      | ok next =>
        rw [hnx] at h
        simp only at h
        rw [newBreaks_eq hv hg] at h
        simp only at h
        split at h
        · obtain ⟨a1, a2, a3, a4⟩ := ih _ _ _ (separated_merge hv hn hs hsep) h
          refine ⟨a1, ?_, a3, a4⟩
          intro x hx
          exact a2 (merged_mem.2 (Or.inl hx))
        · rename_i hpos
          simp only [Option.some.injEq, Except.ok.injEq, Prod.mk.injEq] at h
          obtain ⟨rfl, rfl⟩ := h
          exact ⟨hsep, fun x hx => hx, hc, next, hnx, List.length_eq_zero_iff.1 (by omega)⟩

theorem get_minus_one {α : Type} {l : List α} (h : l ≠ []) : get l (-1) = .ok (l.getLast h) := by
  have hl := List.length_pos_iff.2 h
  refine get_eq (k := l.length - 1) ?_ ?_
  · unfold index
    rw [if_neg (by omega), if_pos (by omega)]
    congr 1
    omega
  · rw [List.getElem?_eq_getElem (by omega), List.getLast_eq_getElem]

/-- The first breakpoints: multiples of the spacing, the last one left out when it is too close to the end. -/
theorem first_breaks {vmax : ℝ} (hv : 0 < vmax) {n : ℕ} {seg_min : ℝ} {k : ℕ} (hk : 1 ≤ k) (hkn : k < n)
    (hmin : seg_min ≤ (k : ℝ) * velStep vmax n) :
    ∃ inds, firstInds (linspace vmax n) seg_min k = .ok inds ∧ Separated n (velStep vmax n) seg_min inds := by
  have hn : 2 ≤ n := by omega
  have hs0 : 0 < velStep vmax n := by
    unfold velStep
    apply div_pos hv
    have : (2 : ℝ) ≤ n := by exact_mod_cast hn
    linarith
  set L : List ℕ := (List.range n).filter (fun (p : ℕ) => decide (0 < p ∧ (k : ℤ) ∣ (p : ℤ))) with hL
  have hmem : ∀ p, p ∈ L ↔ p < n ∧ 0 < p ∧ k ∣ p := by
    intro p
    rw [hL, List.mem_filter, List.mem_range, decide_eq_true_eq, Int.natCast_dvd_natCast]
  have hne : L ≠ [] := List.ne_nil_of_mem ((hmem k).2 ⟨hkn, hk, dvd_rfl⟩)
  have hsort : L.Pairwise (· < ·) := List.Pairwise.filter _ List.pairwise_lt_range
  have hgap : ∀ p q, k ∣ p → k ∣ q → p < q → k ≤ q - p := by
    intro p q hp hq hpq
    exact Nat.le_of_dvd (by omega) (Nat.dvd_sub hq hp)
  have harange : arangeInds (k : ℤ) (linspace vmax n).length = .ok L := by
    unfold arangeInds
    rw [if_neg (by omega), if_neg (by omega), linspace_length]
  have hlast := (hmem _).1 (List.getLast_mem hne)
  have hG : ∀ d : ℕ, k ≤ d → seg_min ≤ (d : ℝ) * velStep vmax n := by
    intro d hd
    have : (k : ℝ) ≤ d := by exact_mod_cast hd
    exact le_trans hmin (mul_le_mul_of_nonneg_right this hs0.le)
  have hsep : ∀ I : List ℕ, I.Sublist L → (∀ p ∈ I, seg_min ≤ ((n - p : ℕ) : ℝ) * velStep vmax n) →
      Separated n (velStep vmax n) seg_min I := by
    intro I hI hend
    have hIm : ∀ p ∈ I, p < n ∧ 0 < p ∧ k ∣ p := fun p hp => (hmem p).1 (hI.subset hp)
    unfold Separated
    rw [List.append_assoc, List.singleton_append, List.pairwise_cons, List.pairwise_append]
    refine ⟨?_, ?_, by simp, ?_⟩
    · intro q hq
      rcases List.mem_append.1 hq with hq | hq
      · obtain ⟨h1, h2, h3⟩ := hIm q hq
        exact ⟨h2, hG _ (hgap 0 q (dvd_zero k) h3 h2)⟩
      · simp at hq
        subst hq
        exact ⟨by omega, hG _ (by omega)⟩
    · have hp : I.Pairwise (· < ·) := hsort.sublist hI
      rw [List.pairwise_iff_getElem] at hp ⊢
      intro i j hi hj hij
      have hlt := hp i j hi hj hij
      exact ⟨hlt, hG _ (hgap _ _ (hIm _ (List.getElem_mem hi)).2.2 (hIm _ (List.getElem_mem hj)).2.2 hlt)⟩
    · intro p hp q hq
      simp at hq
      subst hq
      exact ⟨(hIm p hp).1, hend p hp⟩
  refine ⟨if ((n - 1 : ℕ) : ℝ) * velStep vmax n - (L.getLast hne : ℝ) * velStep vmax n < seg_min then L.dropLast else L, ?_, ?_⟩
  · unfold firstInds
    rw [harange]
    have hlin : linspace vmax n ≠ [] := by
      intro hc
      have := linspace_length vmax n
      rw [hc] at this; simp at this; omega
    have h2 : get (linspace vmax n) (-1) = .ok (((n - 1 : ℕ) : ℝ) * velStep vmax n) := by
      rw [get_minus_one hlin, List.getLast_eq_getElem]
      have := linspace_get (vmax := vmax) (n := n) (i := n - 1) (by omega)
      have hl := linspace_length vmax n
      rw [List.getElem?_eq_getElem (by omega)] at this
      simp only [hl]
      exact congrArg Except.ok (Option.some.inj this)
    have h3 : get (linspace vmax n) ((L.getLast hne : ℕ) : ℤ) = .ok ((L.getLast hne : ℝ) * velStep vmax n) :=
      get_nat (linspace_get hlast.1)
    simp only [bind, Except.bind, get_minus_one hne, h2, h3]
    rfl
  · split
    · apply hsep _ (List.dropLast_sublist L)
      intro p hp
      have hlt : p < L.getLast hne := by
        have hsplit := List.dropLast_append_getLast hne
        have := hsort
        rw [← hsplit, List.pairwise_append] at this
        exact this.2.2 p hp _ (by simp)
      have hpL := (hmem p).1 (List.dropLast_subset L hp)
      have := hgap p _ hpL.2.2 hlast.2.2 hlt
      exact hG _ (by omega)
    · rename_i hc
      rw [not_lt] at hc
      apply hsep _ (List.Sublist.refl L)
      intro p hp
      have hle : p ≤ L.getLast hne := by
        obtain ⟨i, hi, rfl⟩ := List.getElem_of_mem hp
        rw [List.getLast_eq_getElem]
        exact mono_get hsort (by omega) (by omega)
      have hpn := ((hmem p).1 hp).1
      rw [Nat.cast_sub (by omega)] at *
      have h1 : (p : ℝ) ≤ (L.getLast hne : ℝ) := by exact_mod_cast hle
      have h2 : (p : ℝ) * velStep vmax n ≤ (L.getLast hne : ℝ) * velStep vmax n := mul_le_mul_of_nonneg_right h1 hs0.le
      push_cast at hc
      linarith

/-- C81: for every spline routine that returns, the fit of a sightline ends, in at most as many passes as there are pixels. The
breakpoints it ends with are in order, inside the spectrum, at least `seg_min` from each other and from the start, and at least
`seg_min` less one pixel from the last pixel. The flux returned is the spline with these breakpoints. No segment would gain from
a breakpoint at its middle. -/
theorem spline_row_partial (fit : Fit) {vmax : ℝ} (hv : 0 < vmax) {flux : List ℝ} {chi_min seg_min : ℝ}
    (hs : velStep vmax flux.length < seg_min) {k : ℕ} (hk : 1 ≤ k) (hkn : k < flux.length)
    (hmin : seg_min ≤ (k : ℝ) * velStep vmax flux.length) (hfit : ∀ inds, ∃ f, fit flux inds = .ok f) :
    ∃ inds f next, splineRow fit (linspace vmax flux.length) flux chi_min seg_min k flux.length =
        some (.ok (inds, (List.range flux.length).map f)) ∧
      fit flux inds = .ok f ∧ Separated flux.length (velStep vmax flux.length) seg_min inds ∧
      fit flux (nextInds (allInds flux.length inds)) = .ok next ∧
      ∀ lo hi, IsSegment flux.length inds lo hi → ¬ Gains vmax flux chi_min seg_min f next lo hi := by
  set n := flux.length with hnd
  have hn : 2 ≤ n := by omega
  obtain ⟨i0, hi0, hsep0⟩ := first_breaks hv hk hkn hmin
  have hends := loop_ends_spline fit hv hn flux chi_min hs n i0 (separated_good hsep0) (by omega)
  have hnoerr : ∀ fuel inds, Good n inds → ∀ e, breakLoop fit (linspace vmax n) flux chi_min seg_min fuel inds ≠ some (.error e) := by
    intro fuel
    induction fuel with
    | zero => intro inds _ e h; cases h
    | succ fuel ih =>
      intro inds hg e h
      rw [breakLoop, linspace_length] at h
      obtain ⟨cur, hc⟩ := hfit inds
      obtain ⟨next, hnx⟩ := hfit (nextInds (allInds n inds))
      rw [hc] at h
      simp only [Run.andThen] at h
      rw [hnx] at h
      simp only at h
      rw [newBreaks_eq hv hg] at h
      simp only at h
      split at h
      · exact ih _ (merged_good hv hn hs hg) e h
      · cases h
  cases hb : breakLoop fit (linspace vmax n) flux chi_min seg_min n i0 with
  | none => exact absurd hb hends
  | some r =>
    cases r with
    | error e => exact absurd hb (hnoerr _ _ (separated_good hsep0) e)
    | ok r =>
      obtain ⟨inds, f⟩ := r
      obtain ⟨a1, -, a3, next, a4, a5⟩ := loop_result_spline fit hv hn flux chi_min hs n i0 inds f hsep0 hb
      refine ⟨inds, f, next, ?_, a3, a1, a4, ?_⟩
      · unfold splineRow
        rw [hi0]
        simp only [Run.andThen]
        rw [hb, linspace_length]
      · intro lo hi hseg hgain
        obtain ⟨i, hi', rfl, rfl⟩ := segment_index (separated_good a1) hseg
        exact added_nil a5 hi' (wants_iff.2 hgain)

/-! ### All sightlines -/

theorem step_of {vmax : ℝ} {n : ℕ} (hn : 2 ≤ n) :
    get (linspace vmax n) 1 = .ok (velStep vmax n) ∧ get (linspace vmax n) 0 = .ok 0 := by
  have h1 := get_nat (linspace_get (vmax := vmax) (n := n) (i := 1) (by omega))
  have h0 := get_nat (linspace_get (vmax := vmax) (n := n) (i := 0) (by omega))
  simp only [Nat.cast_one, Nat.cast_zero, one_mul, zero_mul] at h1 h0
  exact ⟨h1, h0⟩

theorem velStep_pos {vmax : ℝ} (hv : 0 < vmax) {n : ℕ} (hn : 2 ≤ n) : 0 < velStep vmax n := by
  unfold velStep
  apply div_pos hv
  have : (2 : ℝ) ≤ n := by exact_mod_cast hn
  linarith

theorem spline_fit_eq (fit : Fit) {vmax : ℝ} (hv : 0 < vmax) {n : ℕ} (hn : 2 ≤ n) (rows : List (List ℝ)) (chi_min : ℝ) {seg_min : ℝ}
    (hs : velStep vmax n < seg_min) (ini : ℝ) (fuel : ℕ) :
    spline_fit fit vmax n rows chi_min seg_min ini fuel =
      splineRows fit (linspace vmax n) chi_min seg_min (Absorbers.npRound (ini / velStep vmax n)) fuel rows := by
  obtain ⟨h1, h0⟩ := step_of (vmax := vmax) hn
  unfold spline_fit
  simp only
  rw [h1]
  simp only [Run.andThen]
  rw [h0]
  simp only [sub_zero]
  rw [if_neg (by rw [ge_iff_le, not_le]; exact hs), if_neg (velStep_pos hv hn).ne']

/-- C81: with an initial spacing of at least `seg_min` and shorter than the spectrum, the fit of a set of sightlines ends, and
row `j` of the result is the fit of row `j` alone. -/
theorem spline_fit_rows (fit : Fit) {vmax : ℝ} (hv : 0 < vmax) {n : ℕ} {rows : List (List ℝ)} (hrows : ∀ row ∈ rows, row.length = n)
    {chi_min seg_min : ℝ} (hs : velStep vmax n < seg_min) {ini : ℝ} {k : ℕ} (hround : Absorbers.npRound (ini / velStep vmax n) = k)
    (hk : 1 ≤ k) (hkn : k < n) (hmin : seg_min ≤ (k : ℝ) * velStep vmax n) (hfit : ∀ flux inds, ∃ f, fit flux inds = .ok f) :
    ∃ out, spline_fit fit vmax n rows chi_min seg_min ini n = some (.ok out) ∧
      List.Forall₂ (fun row res => ∃ inds, splineRow fit (linspace vmax n) row chi_min seg_min k n = some (.ok (inds, res)) ∧
        res.length = n) rows out := by
  rw [spline_fit_eq fit hv (by omega) rows chi_min hs, hround]
  induction rows with
  | nil => exact ⟨[], rfl, .nil⟩
  | cons row rows ih =>
    obtain ⟨out, h1, h2⟩ := ih (fun r hr => hrows r (by simp [hr]))
    have hl := hrows row (by simp)
    obtain ⟨inds, f, next, hr, -⟩ := spline_row_partial fit hv (flux := row) (chi_min := chi_min) (seg_min := seg_min)
      (by rw [hl]; exact hs) hk (by rw [hl]; exact hkn) (by rw [hl]; exact hmin) (hfit row)
    rw [hl] at hr
    refine ⟨(List.range n).map f :: out, ?_, .cons ⟨inds, hr, by simp⟩ h2⟩
    rw [splineRows, hr]
    simp only [Run.andThen]
    rw [h1]

/-- C81: pixels as wide as the smallest segment are refused. -/
theorem spline_refuses (fit : Fit) {vmax : ℝ} {n : ℕ} (hn : 2 ≤ n) (rows : List (List ℝ)) (chi_min : ℝ) {seg_min : ℝ}
    (hs : seg_min ≤ velStep vmax n) (ini : ℝ) (fuel : ℕ) :
    spline_fit fit vmax n rows chi_min seg_min ini fuel = some (.error .runtimeError) := by
  obtain ⟨h1, h0⟩ := step_of (vmax := vmax) hn
  unfold spline_fit
  simp only
  rw [h1]
  simp only [Run.andThen]
  rw [h0]
  simp only [sub_zero]
  rw [if_pos hs]

/-- C81 is false of the code for other spacings: an initial spacing of less than half a pixel is a division by zero. -/
theorem spline_spacing_zero (fit : Fit) {vmax : ℝ} (hv : 0 < vmax) {n : ℕ} (hn : 2 ≤ n) (row : List ℝ) (rows : List (List ℝ))
    (chi_min : ℝ) {seg_min : ℝ} (hs : velStep vmax n < seg_min) {ini : ℝ} (h0 : 0 ≤ ini) (hi : ini < velStep vmax n / 2) (fuel : ℕ) :
    spline_fit fit vmax n (row :: rows) chi_min seg_min ini fuel = some (.error .zeroDivisionError) := by
  rw [spline_fit_eq fit hv hn _ chi_min hs]
  have hp := velStep_pos hv hn
  have hr : Absorbers.npRound (ini / velStep vmax n) = 0 := by
    have hx0 : 0 ≤ ini / velStep vmax n := by positivity
    have hx1 : ini / velStep vmax n < 1 / 2 := by rw [div_lt_iff₀ hp]; linarith
    have hfl : ⌊ini / velStep vmax n⌋ = 0 := by rw [Int.floor_eq_zero_iff]; exact ⟨hx0, by linarith⟩
    have hfr : Int.fract (ini / velStep vmax n) = ini / velStep vmax n := by
      rw [Int.fract, hfl]; simp
    unfold Absorbers.npRound
    rw [hfr, if_pos hx1, hfl]
  rw [hr, splineRows]
  unfold splineRow firstInds arangeInds
  rfl

/-- C81 is false of the code for other spacings: an initial spacing of the length of the spectrum or more is an `IndexError`. -/
theorem spline_spacing_long (fit : Fit) {vmax : ℝ} (hv : 0 < vmax) {n : ℕ} (hn : 2 ≤ n) (row : List ℝ) (rows : List (List ℝ))
    (chi_min : ℝ) {seg_min : ℝ} (hs : velStep vmax n < seg_min) {ini : ℝ} (hi : (n : ℝ) * velStep vmax n ≤ ini) (fuel : ℕ) :
    spline_fit fit vmax n (row :: rows) chi_min seg_min ini fuel = some (.error .indexError) := by
  rw [spline_fit_eq fit hv hn _ chi_min hs]
  have hp := velStep_pos hv hn
  have hx : (n : ℝ) ≤ ini / velStep vmax n := by rw [le_div_iff₀ hp]; exact hi
  have hfl : (n : ℤ) ≤ ⌊ini / velStep vmax n⌋ := Int.le_floor.2 (by exact_mod_cast hx)
  have hr : (n : ℤ) ≤ Absorbers.npRound (ini / velStep vmax n) := by
    unfold Absorbers.npRound
    split
    · exact hfl
    · split
      · omega
      · split <;> omega
  generalize Absorbers.npRound (ini / velStep vmax n) = k at hr
  rw [splineRows]
  unfold splineRow firstInds
  have he : arangeInds k (linspace vmax n).length = .ok [] := by
    unfold arangeInds
    rw [if_neg (by omega), if_neg (by omega), linspace_length]
    congr 1
    rw [List.filter_eq_nil_iff]
    intro p hp
    have hp := List.mem_range.1 hp
    rw [decide_eq_true_eq]
    rintro ⟨h1, h2⟩
    have := Int.le_of_dvd (by omega) h2
    omega
  rw [he]
  rfl

/-! ### A case -/

/-- A spline routine: with a breakpoint at pixel 3 the flux itself, otherwise zero. -/
noncomputable def caseFit : Fit := fun flux inds => if inds = [3] then .ok (fun p => flux.getD p 0) else .ok (fun _ => 0)

/-- C81 is false of the code for the last segment: the distance to the end is checked for the middle rounded down, but the
breakpoint goes to the middle rounded to even. Here pixels are 1 km/s wide and segments must be at least 3 km/s. The first
breakpoint, at pixel 4, is removed because it is only 2 km/s from the end, and then put back. -/
theorem last_segment_short :
    splineRow caseFit (linspace 6 7) [0, 1, 0, 1, 0, 1, 0] 3 3 4 7 = some (.ok ([4], [0, 0, 0, 0, 0, 0, 0])) := by
  have hstep : velStep 6 7 = 1 := by unfold velStep; norm_num
  have hg0 : Good 7 [] := by unfold Good allInds; simp
  have hg4 : Good 7 [4] := by unfold Good allInds; simp
  have hlin : linspace 6 7 = [0, 1, 2, 3, 4, 5, 6] := by
    unfold linspace
    rw [if_neg (by norm_num)]
    simp [List.range_succ]
    norm_num
  have hfirst : firstInds (linspace 6 7) 3 4 = .ok [] := by
    have ha : arangeInds 4 (linspace 6 7).length = .ok [4] := by
      rw [linspace_length]; rfl
    unfold firstInds
    rw [ha]
    have h1 : get [4] (-1) = .ok 4 := rfl
    have h2 : get (linspace 6 7) (-1) = .ok 6 := by rw [hlin]; rfl
    have h3 : get (linspace 6 7) 4 = .ok 4 := by rw [hlin]; rfl
    simp only [bind, Except.bind, h1, h2]
    have h3' : get (linspace 6 7) ((4 : ℕ) : ℤ) = .ok 4 := by rw [hlin]; rfl
    rw [h3']
    simp only
    norm_num
    rfl
  have hnext0 : nextInds (allInds 7 []) = [3] := by
    unfold nextInds
    rw [sort_interleave hg0]
    rfl
  have hnext4 : nextInds (allInds 7 [4]) ≠ [3] := by
    unfold nextInds
    rw [sort_interleave hg4]
    decide
  have hadd0 : added 6 7 [0, 1, 0, 1, 0, 1, 0] 3 3 (fun _ => 0) (fun p => [0, 1, 0, 1, 0, 1, 0].getD p 0) (allInds 7 []) = [4] := by
    have hw : wants 6 7 [0, 1, 0, 1, 0, 1, 0] 3 3 (fun _ => 0) (fun p => [0, 1, 0, 1, 0, 1, 0].getD p 0) 0 7 = true := by
      unfold wants gain
      rw [decide_eq_true_eq]
      have hsl : slice ([0, 1, 0, 1, 0, 1, 0] : List ℝ) 0 (7 + 1) = [0, 1, 0, 1, 0, 1, 0] := rfl
      have hvar : variance [0, 1, 0, 1, 0, 1, 0] = 12 / 49 := by
        unfold variance mean
        simp
        norm_num
      have hseg : (List.range ([0, 1, 0, 1, 0, 1, 0] : List ℝ).length).filter (fun p => decide (0 ≤ p ∧ p < 7 + 1)) = [0, 1, 2, 3, 4, 5, 6] := rfl
      simp only
      rw [hsl, hseg]
      unfold chi_squared
      rw [hvar]
      refine ⟨by norm_num, ?_, ?_, ?_⟩
      · simp
        norm_num
      · norm_num
      · norm_num
    unfold added
    have : (List.range ((allInds 7 []).length - 1)) = [0] := rfl
    rw [this]
    have e1 : (allInds 7 []).getD 0 0 = 0 := rfl
    have e2 : (allInds 7 []).getD (0 + 1) 0 = 7 := rfl
    rw [List.filterMap_cons, e1, e2, if_pos hw]
    rfl
  have hadd4 : ∀ cur next : ℕ → ℝ, added 6 7 [0, 1, 0, 1, 0, 1, 0] 3 3 cur next (allInds 7 [4]) = [] := by
    intro cur next
    rw [List.eq_nil_iff_forall_not_mem]
    intro x hx
    obtain ⟨i, hi, hw, -⟩ := added_mem hx
    have hi : i < 2 := by simp [allInds] at hi; omega
    unfold wants at hw
    rw [decide_eq_true_eq] at hw
    obtain ⟨-, -, w1, w2⟩ := hw
    interval_cases i
    · simp [allInds] at w2
      norm_num at w2
    · simp [allInds] at w2
      norm_num at w2
  unfold splineRow
  rw [hfirst]
  simp only [Run.andThen]
  have hb1 : ∀ fuel, breakLoop caseFit (linspace 6 7) [0, 1, 0, 1, 0, 1, 0] 3 3 (fuel + 1) [4] = some (.ok ([4], fun _ => 0)) := by
    intro fuel
    rw [breakLoop, linspace_length]
    have c1 : caseFit [0, 1, 0, 1, 0, 1, 0] [4] = .ok (fun _ => 0) := by unfold caseFit; rw [if_neg (by decide)]
    have c2 : caseFit [0, 1, 0, 1, 0, 1, 0] (nextInds (allInds 7 [4])) = .ok (fun _ => 0) := by unfold caseFit; rw [if_neg hnext4]
    rw [c1]
    simp only [Run.andThen]
    rw [c2]
    simp only
    rw [newBreaks_eq (by norm_num) hg4, hadd4]
    simp
  have hb0 : breakLoop caseFit (linspace 6 7) [0, 1, 0, 1, 0, 1, 0] 3 3 7 [] = some (.ok ([4], fun _ => 0)) := by
    rw [breakLoop, linspace_length]
    have c1 : caseFit [0, 1, 0, 1, 0, 1, 0] [] = .ok (fun _ => 0) := by unfold caseFit; rw [if_neg (by decide)]
    have c2 : caseFit [0, 1, 0, 1, 0, 1, 0] (nextInds (allInds 7 [])) = .ok (fun p => ([0, 1, 0, 1, 0, 1, 0] : List ℝ).getD p 0) := by
      unfold caseFit; rw [if_pos hnext0]
    rw [c1]
    simp only [Run.andThen]
    rw [c2]
    simp only
    rw [newBreaks_eq (by norm_num) hg0, hadd0]
    simp only [List.length_singleton, Nat.lt_one_iff, if_pos Nat.one_pos]
    have hm : (([] : List ℕ) ++ [4]).mergeSort (fun a b => decide (a ≤ b)) = [4] := List.mergeSort_singleton 4
    rw [hm]
    exact hb1 5
  rw [hb0, linspace_length]
  rfl

/-- Pixels 1 km/s wide, spacing 4 and segments of at least 3 meet the hypotheses of `spline_row_partial`. -/
example : velStep 6 7 < 3 ∧ (3 : ℝ) ≤ (4 : ℕ) * velStep 6 7 ∧ ∀ inds, ∃ f, caseFit [0, 1, 0, 1, 0, 1, 0] inds = .ok f := by
  refine ⟨by unfold velStep; norm_num, by unfold velStep; norm_num, fun inds => ?_⟩
  unfold caseFit
  split <;> exact ⟨_, rfl⟩

/-! The errors for a spectrum of seven pixels, one per kilometre per second. -/

example := spline_refuses caseFit (vmax := 6) (n := 7) (by norm_num) [[0, 1, 0, 1, 0, 1, 0]] 3 (seg_min := 0.5) (by unfold velStep; norm_num) 4 10

example := spline_spacing_zero caseFit (vmax := 6) (by norm_num) (n := 7) (by norm_num) [0, 1, 0, 1, 0, 1, 0] [] 3 (seg_min := 3)
  (by unfold velStep; norm_num) (ini := 0.3) (by norm_num) (by unfold velStep; norm_num) 10

example := spline_spacing_long caseFit (vmax := 6) (by norm_num) (n := 7) (by norm_num) [0, 1, 0, 1, 0, 1, 0] [] 3 (seg_min := 3)
  (by unfold velStep; norm_num) (ini := 9) (by unfold velStep; norm_num) 10

end Verif.Props
