import Verif.Props.ColumnDensity

/-!
C25: incidence rates and mass densities of absorbers. C64: Omega from the column density function.
-/

namespace Verif.Props
open Verif Verif.Np Verif.Absorbers Verif.Units Verif.Spec

/-- A physically meaningful object: positive units, box and Hubble parameter, no negative number of discarded lines. -/
def ValidObj (o : Obj) : Prop := ValidUnits o.units ∧ 0 < o.box ∧ -1 < o.red ∧ 0 < o.hubble ∧ 0 ≤ o.discarded

theorem validObj_example : ValidObj ⟨gadget, 10000, 3, 0.7, 0.3, 1, 2⟩ := by
  refine ⟨gadget_valid, ?_, ?_, ?_, ?_⟩ <;> norm_num

theorem absDist_pos {o : Obj} (ho : ValidObj o) : 0 < absorption_distance o.units o.box o.red := by
  obtain ⟨hu, hb, hz, -, -⟩ := ho
  exact (distances hu hb hz (Om := 0) le_rfl (by norm_num)).1

/-- C25: the line density is the number of sightlines with a total column density between the thresholds, divided by the
path length of all sightlines, kept and discarded. -/
theorem line_density_spec {o : Obj} (ho : ValidObj o) {thresh upthresh : ℝ} {rho : List (List ℝ)} (hne : rho ≠ []) :
    line_density o thresh upthresh rho = .ok (Spec.count (fun N => thresh < N ∧ N < upthresh) (rho.map List.sum) /
      ((rho.length + o.discarded) * absorption_distance o.units o.box o.red)) := by
  have hd := absDist_pos ho
  obtain ⟨-, -, -, -, hdisc⟩ := ho
  have hn : (0 : ℝ) < rho.length := by exact_mod_cast List.length_pos_iff.2 hne
  unfold line_density inRange
  simp only [bind, Except.bind]
  rw [if_neg (by simpa using hne)]
  simp only [pure, Except.pure]
  congr 1
  have hc : (Spec.count (fun N => thresh < N ∧ N < upthresh) (rho.map List.sum)) =
      ((rho.map List.sum).filter (fun c => decide (c > thresh ∧ c < upthresh))).length := by
    unfold Spec.count
    congr 1
    apply List.filter_congr
    intro x _
    simp [gt_iff_lt]
  rw [hc, List.length_map]
  have hs : (0 : ℝ) < rho.length + o.discarded := by linarith
  field_simp

/-- C25: a line density is not negative and at most one absorber per sightline; it grows with the range of column
densities and falls with the number of discarded sightlines. -/
theorem line_density_bounds {o : Obj} (ho : ValidObj o) {t u t' u' : ℝ} {rho : List (List ℝ)} (hne : rho ≠ [])
    (ht : t' ≤ t) (hu : u ≤ u') {d' : ℝ} (hd' : o.discarded ≤ d') {l l' l'' : ℝ}
    (h : line_density o t u rho = .ok l) (h' : line_density o t' u' rho = .ok l')
    (h'' : line_density { o with discarded := d' } t u rho = .ok l'') :
    0 ≤ l ∧ l ≤ 1 / absorption_distance o.units o.box o.red ∧ l ≤ l' ∧ l'' ≤ l := by
  have hdist := absDist_pos ho
  have hdisc : 0 ≤ o.discarded := ho.2.2.2.2
  have ho' : ValidObj { o with discarded := d' } := ⟨ho.1, ho.2.1, ho.2.2.1, ho.2.2.2.1, by simpa using hdisc.trans hd'⟩
  have hn : (0 : ℝ) < rho.length := by exact_mod_cast List.length_pos_iff.2 hne
  rw [line_density_spec ho hne] at h h'
  rw [line_density_spec ho' hne] at h''
  obtain rfl := Except.ok.inj h
  obtain rfl := Except.ok.inj h'
  obtain rfl := Except.ok.inj h''
  have hs : (0 : ℝ) < rho.length + o.discarded := by linarith
  have hcl : (Spec.count (fun N => t < N ∧ N < u) (rho.map List.sum) : ℝ) ≤ rho.length := by
    have := count_le_length (fun N => t < N ∧ N < u) (rho.map List.sum)
    rw [List.length_map] at this
    exact_mod_cast this
  have hcc : (Spec.count (fun N => t < N ∧ N < u) (rho.map List.sum) : ℝ) ≤
      Spec.count (fun N => t' < N ∧ N < u') (rho.map List.sum) := by
    have := count_le (P := fun N => t < N ∧ N < u) (Q := fun N => t' < N ∧ N < u') (xs := rho.map List.sum)
      (fun x _ hx => ⟨by linarith [hx.1], by linarith [hx.2]⟩)
    exact_mod_cast this
  refine ⟨by positivity, ?_, ?_, ?_⟩
  · rw [div_le_div_iff₀ (by positivity) hdist, one_mul]
    apply mul_le_mul_of_nonneg_right _ hdist.le
    linarith
  · gcongr
  · simp only
    gcongr

/-- C25: without sightlines the line density raises. -/
theorem line_density_no_lines (o : Obj) (t u : ℝ) : line_density o t u [] = .error .zeroDivisionError := by
  unfold line_density inRange
  simp [bind, Except.bind]

/-- C25: the line density above an equivalent width counts each sightline above the threshold once, divided by the path
length of all sightlines. -/
theorem line_density_eq_w_spec {o : Obj} (ho : ValidObj o) {thresh : ℝ} {ew : List ℝ} (hne : ew ≠ []) :
    ∃ l, line_density_eq_w o thresh ew = .ok l ∧
      l = Spec.count (fun w => thresh < w) ew / ((ew.length + o.discarded) * absorption_distance o.units o.box o.red) ∧
      0 ≤ l ∧ l ≤ 1 / absorption_distance o.units o.box o.red := by
  have hdist := absDist_pos ho
  have hdisc : 0 ≤ o.discarded := ho.2.2.2.2
  have hn : (0 : ℝ) < ew.length := by exact_mod_cast List.length_pos_iff.2 hne
  have hs : (0 : ℝ) < ew.length + o.discarded := by linarith
  refine ⟨_, ?_, rfl, by positivity, ?_⟩
  · unfold line_density_eq_w
    dsimp only
    rw [one_mul, one_mul, if_neg hs.ne']
    congr 1
    have hc : Spec.count (fun w => thresh < w) ew = (ew.filter (fun w => decide (w > thresh))).length := by
      unfold Spec.count
      congr 1
    rw [hc]
    field_simp
  · rw [div_le_div_iff₀ (by positivity) hdist, one_mul]
    apply mul_le_mul_of_nonneg_right _ hdist.le
    have : (Spec.count (fun w => thresh < w) ew : ℝ) ≤ ew.length := by
      exact_mod_cast count_le_length (fun w => thresh < w) ew
    linarith

open Classical in
/-- The total column density of the sightlines between two thresholds. -/
noncomputable def sumBetween (t u : ℝ) (totals : List ℝ) : ℝ :=
  (totals.filter (fun N => decide (t < N ∧ N < u))).sum

/-- C25: Omega of an absorber is the mass of all absorbers between the thresholds per comoving volume, averaged over all
sightlines, kept and discarded, in units of the critical density. -/
theorem omega_abs_spec {o : Obj} (ho : ValidObj o) {mass t u : ℝ} {rho : List (List ℝ)} (hne : rho ≠ []) :
    omega_abs o mass t u rho = .ok (mass * protonmass * (sumBetween t u (rho.map List.sum) / (rho.length + o.discarded))
      / (1 + o.red) ^ 2 / (o.box * o.units.UnitLength_in_cm / o.hubble) / rho_crit o.hubble) := by
  have hdisc : 0 ≤ o.discarded := ho.2.2.2.2
  have hn : (0 : ℝ) < rho.length := by exact_mod_cast List.length_pos_iff.2 hne
  have hs : (0 : ℝ) < rho.length + o.discarded := by linarith
  unfold omega_abs rho_abs inRange
  simp only [bind, Except.bind, Option.isSome_some, or_true, if_true, Except.map, pure, Except.pure]
  congr 3
  have hf : sumBetween t u (rho.map List.sum) = ((rho.map List.sum).filter (fun c => decide (c > t ∧ c < u))).sum := by
    unfold sumBetween
    congr 1
  rw [hf, List.length_map, one_mul]
  congr 2
  field_simp

theorem sumBetween_nonneg {t u : ℝ} {totals : List ℝ} (ht : 0 ≤ t) : 0 ≤ sumBetween t u totals := by
  unfold sumBetween
  apply List.sum_nonneg
  intro x hx
  have := (List.mem_filter.1 hx).2
  simp at this
  linarith [this.1]

theorem sumBetween_cons (t u x : ℝ) (xs : List ℝ) : sumBetween t u (x :: xs) =
    (if t < x ∧ x < u then x else 0) + sumBetween t u xs := by
  unfold sumBetween
  rw [List.filter_cons]
  by_cases h : t < x ∧ x < u
  · simp [h]
  · rw [if_neg h]; simp [h]

theorem sumBetween_split {a b c : ℝ} (hab : a ≤ b) (hbc : b ≤ c) {totals : List ℝ} (h : ∀ N ∈ totals, N ≠ b) :
    sumBetween a c totals = sumBetween a b totals + sumBetween b c totals := by
  induction totals with
  | nil => simp [sumBetween]
  | cons x xs ih =>
    rw [sumBetween_cons, sumBetween_cons, sumBetween_cons, ih (fun N hN => h N (by simp [hN]))]
    have hx := h x (by simp)
    rcases lt_or_gt_of_ne hx with hlt | hgt
    · rw [if_neg (show ¬(b < x ∧ x < c) by rintro ⟨h, -⟩; linarith)]
      by_cases ha : a < x
      · rw [if_pos ⟨ha, by linarith⟩, if_pos ⟨ha, hlt⟩]; ring
      · rw [if_neg (fun hc => ha hc.1), if_neg (fun hc => ha hc.1)]; ring
    · rw [if_neg (show ¬(a < x ∧ x < b) by rintro ⟨-, h⟩; linarith)]
      by_cases hc : x < c
      · rw [if_pos ⟨by linarith, hc⟩, if_pos ⟨hgt, hc⟩]; ring
      · rw [if_neg (fun hh => hc hh.2), if_neg (fun hh => hc hh.2)]; ring

/-- C25: Omega is not negative, and the absorbers below and above a limit add up. -/
theorem omega_abs_splits {o : Obj} (ho : ValidObj o) {mass a b c : ℝ} (hm : 0 ≤ mass) (ha : 0 ≤ a) (hab : a ≤ b) (hbc : b ≤ c)
    {rho : List (List ℝ)} (hne : rho ≠ []) (hb : ∀ row ∈ rho, row.sum ≠ b) {x y z : ℝ}
    (hx : omega_abs o mass a b rho = .ok x) (hy : omega_abs o mass b c rho = .ok y)
    (hz : omega_abs o mass a c rho = .ok z) : 0 ≤ x ∧ z = x + y := by
  have hdisc : 0 ≤ o.discarded := ho.2.2.2.2
  have hn : (0 : ℝ) < rho.length := by exact_mod_cast List.length_pos_iff.2 hne
  have hs : (0 : ℝ) < rho.length + o.discarded := by linarith
  have hrc := (rho_crit_friedmann ho.2.2.2.1).1
  have hL : 0 < o.box * o.units.UnitLength_in_cm / o.hubble :=
    div_pos (mul_pos ho.2.1 ho.1.2.1) ho.2.2.2.1
  rw [omega_abs_spec ho hne] at hx hy hz
  obtain rfl := Except.ok.inj hx
  obtain rfl := Except.ok.inj hy
  obtain rfl := Except.ok.inj hz
  have hmp : 0 < protonmass := by unfold protonmass; norm_num
  have h0 := sumBetween_nonneg (t := a) (u := b) (totals := rho.map List.sum) ha
  refine ⟨by positivity, ?_⟩
  rw [sumBetween_split hab hbc (totals := rho.map List.sum) (by
    intro N hN
    obtain ⟨row, hrow, rfl⟩ := List.mem_map.1 hN
    exact hb row hrow)]
  ring

/-- C25 is false of the code: the density in damped absorbers can never be computed, because the missing upper limit is
compared with the column densities. -/
theorem rho_DLA_fails (o : Obj) (massH : ℝ) {thresh : ℝ} (ht : 0 < thresh) (rho : List (List ℝ)) :
    rho_DLA o massH thresh rho = .error .typeError := by
  unfold rho_DLA rho_abs inRange
  simp [bind, Except.bind, ht, Except.map]

example : (0 : ℝ) < (10 : ℝ) ^ (20.3 : ℝ) := by positivity

/-- C25, partial: with a threshold that is not positive, the density is the mean over all sightlines, kept and discarded.
Missing: positive thresholds, for which the call always fails (`rho_DLA_fails`). -/
theorem rho_DLA_all_partial {o : Obj} (ho : ValidObj o) {massH thresh : ℝ} (ht : thresh ≤ 0) {rho : List (List ℝ)} (hne : rho ≠ []) :
    rho_DLA o massH thresh rho = .ok (massH * protonmass * (((rho.map List.sum).sum) / (rho.length + o.discarded))
      / (1 + o.red) ^ 2 / (o.box * o.units.UnitLength_in_cm / o.hubble)
      / (0.01 * o.units.UnitMass_in_g / o.units.UnitLength_in_cm ^ 3)) := by
  have hdisc : 0 ≤ o.discarded := ho.2.2.2.2
  have hn : (0 : ℝ) < rho.length := by exact_mod_cast List.length_pos_iff.2 hne
  have hs : (0 : ℝ) < rho.length + o.discarded := by linarith
  unfold rho_DLA rho_abs
  have hc : ¬(thresh > 0 ∨ (none : Option ℝ).isSome = true) := by
    rintro (h | h)
    · linarith
    · simp at h
  simp only [bind, Except.bind, if_neg hc, pure, Except.pure]
  congr 5
  rw [mean, List.length_map, one_mul]
  field_simp

/-! Witnesses: three sightlines at redshift 3, one of which was discarded. -/

example := line_density_spec validObj_example (thresh := 1e20) (upthresh := 1e22) (rho := [[1e20, 3e20], [0, 1]]) (by simp)

example := line_density_eq_w_spec validObj_example (thresh := 0.3) (ew := [0.1, 0.4]) (by simp)

example := omega_abs_spec validObj_example (mass := 1) (t := 1e20) (u := 1e22) (rho := [[1e20, 3e20], [0, 1]]) (by simp)

example := line_density_bounds validObj_example (t := 1e20) (u := 1e21) (t' := 1e19) (u' := 1e22) (rho := [[1e20, 3e20], [0, 1]]) (by simp)
  (by norm_num) (by norm_num) le_rfl (line_density_spec validObj_example (by simp)) (line_density_spec validObj_example (by simp)) (line_density_spec validObj_example (by simp))

example := omega_abs_splits validObj_example (mass := 1) (a := 1e19) (b := 1e20) (c := 1e22) (by norm_num) (by norm_num) (by norm_num) (by norm_num)
  (rho := [[1e20, 3e20], [0, 1]]) (by simp) (by norm_num) (omega_abs_spec validObj_example (by simp)) (omega_abs_spec validObj_example (by simp)) (omega_abs_spec validObj_example (by simp))

example := rho_DLA_all_partial validObj_example (massH := 1) (thresh := 0) le_rfl (rho := [[1e20, 3e20], [0, 1]]) (by simp)

end Verif.Props
