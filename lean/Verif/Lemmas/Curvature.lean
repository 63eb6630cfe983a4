import Verif.Model.Curvature
import Verif.Lemmas.Numpy

/-! Helper lemmas on `np.gradient` and the curvature of one row. -/

namespace Verif.Curvature
open Verif Verif.Np

theorem gradFirst_quadratic {x0 x1 x2 : ℝ} (h1 : x0 < x1) (h2 : x1 < x2) (a b c : ℝ) :
    gradFirst x0 x1 x2 (a * x0 ^ 2 + b * x0 + c) (a * x1 ^ 2 + b * x1 + c) (a * x2 ^ 2 + b * x2 + c) = 2 * a * x0 + b := by
  unfold gradFirst
  have e1 : x1 - x0 ≠ 0 := by linarith
  have e2 : x2 - x1 ≠ 0 := by linarith
  have e3 : (x1 - x0) + (x2 - x1) ≠ 0 := by linarith
  field_simp
  ring

theorem gradMiddle_quadratic {x0 x1 x2 : ℝ} (h1 : x0 < x1) (h2 : x1 < x2) (a b c : ℝ) :
    gradMiddle x0 x1 x2 (a * x0 ^ 2 + b * x0 + c) (a * x1 ^ 2 + b * x1 + c) (a * x2 ^ 2 + b * x2 + c) = 2 * a * x1 + b := by
  unfold gradMiddle
  have e1 : x1 - x0 ≠ 0 := by linarith
  have e2 : x2 - x1 ≠ 0 := by linarith
  have e3 : (x1 - x0) + (x2 - x1) ≠ 0 := by linarith
  field_simp
  ring

theorem gradLast_quadratic {x0 x1 x2 : ℝ} (h1 : x0 < x1) (h2 : x1 < x2) (a b c : ℝ) :
    gradLast x0 x1 x2 (a * x0 ^ 2 + b * x0 + c) (a * x1 ^ 2 + b * x1 + c) (a * x2 ^ 2 + b * x2 + c) = 2 * a * x2 + b := by
  unfold gradLast
  have e1 : x1 - x0 ≠ 0 := by linarith
  have e2 : x2 - x1 ≠ 0 := by linarith
  have e3 : (x1 - x0) + (x2 - x1) ≠ 0 := by linarith
  field_simp
  ring

/-- For at least three points in increasing order the gradient of a quadratic is exact. -/
theorem gradient_quadratic {x : List ℝ} (hx : x.Pairwise (· < ·)) (hl : 3 ≤ x.length) (a b c : ℝ) :
    gradient (x.map (fun v => a * v ^ 2 + b * v + c)) x = .ok (x.map (fun v => 2 * a * v + b)) := by
  unfold gradient
  rw [if_neg (by simp; omega)]
  simp only [List.length_map]
  congr 1
  apply List.ext_getElem (by simp)
  intro i hi _
  have hi' : i < x.length := by simpa using hi
  have hlt : ∀ p q (hp : p < x.length) (hq : q < x.length), p < q → x[p] < x[q] := fun p q hp hq h =>
    List.pairwise_iff_getElem.1 hx p q hp hq h
  have hF : ∀ p (hp : p < x.length), (x.map (fun v => a * v ^ 2 + b * v + c)).getD p 0 = a * x[p] ^ 2 + b * x[p] + c := by
    intro p hp
    rw [List.getD_eq_getElem?_getD, List.getElem?_map, List.getElem?_eq_getElem hp]; rfl
  have hX : ∀ p (hp : p < x.length), x.getD p 0 = x[p] := by
    intro p hp
    rw [List.getD_eq_getElem?_getD, List.getElem?_eq_getElem hp]; rfl
  rw [List.getElem_map, List.getElem_range, List.getElem_map]
  by_cases h0 : i = 0
  · subst h0
    rw [if_pos rfl, hF 0 (by omega), hF 1 (by omega), hF 2 (by omega), hX 0 (by omega), hX 1 (by omega), hX 2 (by omega)]
    exact gradFirst_quadratic (hlt 0 1 (by omega) (by omega) (by omega)) (hlt 1 2 (by omega) (by omega) (by omega)) a b c
  · rw [if_neg h0]
    by_cases h1 : i = x.length - 1
    · subst h1
      rw [if_pos rfl, hF _ (by omega), hF _ (by omega), hF _ (by omega), hX _ (by omega), hX _ (by omega), hX _ (by omega)]
      exact gradLast_quadratic (hlt _ _ (by omega) (by omega) (by omega)) (hlt _ _ (by omega) (by omega) (by omega)) a b c
    · rw [if_neg h1, hF _ (by omega), hF _ (by omega), hF _ (by omega), hX _ (by omega), hX _ (by omega), hX _ (by omega)]
      exact gradMiddle_quadratic (hlt _ _ (by omega) (by omega) (by omega)) (hlt _ _ (by omega) (by omega) (by omega)) a b c

theorem gradient_ok {f x : List ℝ} (h : f.length = x.length) (hl : 3 ≤ f.length) :
    ∃ g, gradient f x = .ok g ∧ g.length = f.length := by
  unfold gradient
  rw [if_neg (by omega)]
  exact ⟨_, rfl, by simp⟩

/-- The gradient depends on differences of the points only. -/
theorem gradient_shift (f x : List ℝ) (t : ℝ) : gradient f (x.map (fun v => v + t)) = gradient f x := by
  unfold gradient
  rw [List.length_map]
  by_cases h : f.length ≠ x.length ∨ f.length < 3
  · rw [if_pos h, if_pos h]
  · rw [if_neg h, if_neg h]
    push Not at h
    refine congrArg Except.ok ?_
    apply List.map_congr_left
    intro i hi
    have hi := List.mem_range.1 hi
    have hX : ∀ p < x.length, (x.map (fun v => v + t)).getD p 0 = x.getD p 0 + t := by
      intro p hp
      rw [List.getD_eq_getElem?_getD, List.getD_eq_getElem?_getD, List.getElem?_map, List.getElem?_eq_getElem hp]; rfl
    have e1 : ∀ x0 x1 x2 f0 f1 f2 : ℝ, gradFirst (x0 + t) (x1 + t) (x2 + t) f0 f1 f2 = gradFirst x0 x1 x2 f0 f1 f2 := by
      intros; unfold gradFirst; simp only [add_sub_add_right_eq_sub]
    have e2 : ∀ x0 x1 x2 f0 f1 f2 : ℝ, gradMiddle (x0 + t) (x1 + t) (x2 + t) f0 f1 f2 = gradMiddle x0 x1 x2 f0 f1 f2 := by
      intros; unfold gradMiddle; simp only [add_sub_add_right_eq_sub]
    have e3 : ∀ x0 x1 x2 f0 f1 f2 : ℝ, gradLast (x0 + t) (x1 + t) (x2 + t) f0 f1 f2 = gradLast x0 x1 x2 f0 f1 f2 := by
      intros; unfold gradLast; simp only [add_sub_add_right_eq_sub]
    dsimp only
    by_cases h0 : i = 0
    · rw [if_pos h0, if_pos h0, hX _ (by omega), hX _ (by omega), hX _ (by omega), e1]
    · rw [if_neg h0, if_neg h0]
      by_cases h1 : i = f.length - 1
      · rw [if_pos h1, if_pos h1, hX _ (by omega), hX _ (by omega), hX _ (by omega), e3]
      · rw [if_neg h1, if_neg h1, hX _ (by omega), hX _ (by omega), hX _ (by omega), e2]

theorem fluxRange_mem {row : List (Option ℝ)} {i : ℕ} : i ∈ fluxRange row ↔ ∃ f, row[i]? = some (some f) ∧ 0.1 < f ∧ f < 0.9 := by
  unfold fluxRange
  rw [List.mem_filter, List.mem_range]
  constructor
  · rintro ⟨hi, h⟩
    rw [List.getD_eq_getElem?_getD, List.getElem?_eq_getElem hi] at h
    rw [List.getElem?_eq_getElem hi]
    cases hr : row[i] with
    | none => rw [hr] at h; simp [inRange] at h
    | some f => rw [hr] at h; exact ⟨f, rfl, by simpa [inRange] using h⟩
  · rintro ⟨f, h, hf⟩
    obtain ⟨hi, -⟩ := List.getElem?_eq_some_iff.1 h
    refine ⟨hi, ?_⟩
    rw [List.getD_eq_getElem?_getD, h]
    simp [inRange, hf]

theorem fluxRange_sorted (row : List (Option ℝ)) : (fluxRange row).Pairwise (· < ·) :=
  List.Pairwise.filter _ List.pairwise_lt_range

theorem linspace_length (vmax : ℝ) (n : ℕ) : (linspace vmax n).length = n := by
  unfold linspace
  split
  · rename_i h; simp [h]
  · simp

theorem linspace_get {vmax : ℝ} {n i : ℕ} (hi : i < n) : (linspace vmax n)[i]? = some ((i : ℝ) * (vmax / ((n : ℝ) - 1))) := by
  unfold linspace
  split
  · rename_i h
    have : i = 0 := by omega
    subst this
    simp
  · rw [List.getElem?_map, List.getElem?_range hi]; rfl

/-- The positions of the pixels in range, as a list of velocities. -/
theorem range_velocities {vmax : ℝ} {nbins ncol : ℕ} (hn : ncol ≤ nbins) {r : List ℕ} (hr : ∀ i ∈ r, i < ncol) :
    r.mapM (fun (i : ℕ) => get ((linspace vmax nbins).take ncol) i) =
      .ok (r.map (fun (i : ℕ) => (i : ℝ) * (vmax / ((nbins : ℝ) - 1)))) := by
  induction r with
  | nil => rfl
  | cons i r ih =>
    have hi := hr i (by simp)
    have h1 : get ((linspace vmax nbins).take ncol) (i : ℤ) = .ok ((i : ℝ) * (vmax / ((nbins : ℝ) - 1))) := by
      refine get_eq (k := i) ?_ ?_
      · rw [index_nonneg (by omega) (by rw [List.length_take, linspace_length]; omega)]; simp
      · rw [List.getElem?_take, if_pos hi, linspace_get (by omega)]
    rw [List.mapM_cons, h1, ih (fun j hj => hr j (by simp [hj]))]
    rfl

theorem velocities_sorted {r : List ℕ} (h : r.Pairwise (· < ·)) {s : ℝ} (hs : 0 < s) :
    (r.map (fun (i : ℕ) => (i : ℝ) * s)).Pairwise (· < ·) := by
  rw [List.pairwise_map]
  refine h.imp ?_
  intro a b hab
  have : (a : ℝ) < b := by exact_mod_cast hab
  exact mul_lt_mul_of_pos_right this hs

/-- The curvature of the points `(x, f)`. -/
noncomputable def pointCurvature (x f : List ℝ) : Py ℝ := do
  let fp ← gradient f x
  let fpp ← gradient fp x
  pure (meanAbs fp fpp)

/-- The velocities and fluxes of the pixels in range. -/
noncomputable def rangeVel (s : ℝ) (row : List (Option ℝ)) : List ℝ := (fluxRange row).map (fun (i : ℕ) => (i : ℝ) * s)

noncomputable def rangeFlux (row : List (Option ℝ)) : List ℝ := (fluxRange row).map (fun i => (row.getD i none).getD 0)

theorem rowCurvature_eq {vmax : ℝ} {nbins ncol : ℕ} (hn : ncol ≤ nbins) {row : List (Option ℝ)} (hr : row.length = ncol) :
    rowCurvature ((linspace vmax nbins).take ncol) row =
      if 2 < (fluxRange row).length then pointCurvature (rangeVel (vmax / ((nbins : ℝ) - 1)) row) (rangeFlux row)
      else .ok 0 := by
  unfold rowCurvature
  simp only
  by_cases h : 2 < (fluxRange row).length
  · rw [if_pos h, if_pos h, range_velocities hn (by
      intro i hi
      obtain ⟨f, hf, -⟩ := fluxRange_mem.1 hi
      obtain ⟨hl, -⟩ := List.getElem?_eq_some_iff.1 hf
      omega)]
    rfl
  · rw [if_neg h, if_neg h]; rfl

theorem meanAbs_nonneg (fp fpp : List ℝ) : 0 ≤ meanAbs fp fpp := by
  unfold meanAbs mean
  apply div_nonneg _ (Nat.cast_nonneg _)
  apply List.sum_nonneg
  intro y hy
  obtain ⟨i, hi, rfl⟩ := List.getElem_of_mem hy
  rw [List.getElem_zipWith]
  exact abs_nonneg _

theorem rowCurvature_ok {vmax : ℝ} {nbins ncol : ℕ} (hn : ncol ≤ nbins) {row : List (Option ℝ)} (hr : row.length = ncol) :
    ∃ c, rowCurvature ((linspace vmax nbins).take ncol) row = .ok c ∧ 0 ≤ c := by
  rw [rowCurvature_eq hn hr]
  by_cases h : 2 < (fluxRange row).length
  · rw [if_pos h]
    obtain ⟨g, h1, h2⟩ := gradient_ok (f := rangeFlux row) (x := rangeVel (vmax / ((nbins : ℝ) - 1)) row)
      (by simp [rangeFlux, rangeVel]) (by simp [rangeFlux]; omega)
    obtain ⟨g', h3, h4⟩ := gradient_ok (f := g) (x := rangeVel (vmax / ((nbins : ℝ) - 1)) row)
      (by rw [h2]; simp [rangeFlux, rangeVel]) (by rw [h2]; simp [rangeFlux]; omega)
    refine ⟨meanAbs g g', ?_, meanAbs_nonneg _ _⟩
    unfold pointCurvature
    rw [h1]
    change (do let fpp ← gradient g _; pure (meanAbs g fpp) : Py ℝ) = _
    rw [h3]; rfl
  · rw [if_neg h]; exact ⟨0, rfl, le_rfl⟩

theorem pointCurvature_quadratic {x : List ℝ} (hx : x.Pairwise (· < ·)) (hl : 3 ≤ x.length) (a b c : ℝ) :
    pointCurvature x (x.map (fun v => a * v ^ 2 + b * v + c)) =
      .ok (mean (x.map (fun v => |2 * a| / (1 + (2 * a * v + b) ^ 2) ^ ((3 : ℝ) / 2)))) := by
  unfold pointCurvature
  rw [gradient_quadratic hx hl]
  change (do let fpp ← gradient (x.map (fun v => 2 * a * v + b)) x; pure (meanAbs (x.map (fun v => 2 * a * v + b)) fpp) : Py ℝ) = _
  have h2 := gradient_quadratic hx hl 0 (2 * a) b
  simp only [zero_mul, mul_zero, zero_add] at h2
  rw [h2]
  change Except.ok _ = Except.ok _
  congr 1
  unfold meanAbs
  congr 1
  apply List.ext_getElem (by simp)
  intro i h1 h3
  rw [List.getElem_zipWith, List.getElem_map, List.getElem_map, List.getElem_map, abs_div,
    abs_of_pos (Real.rpow_pos_of_pos (by positivity) _)]

end Verif.Curvature
