import Verif.Lemmas.Curvature
import Verif.Props.Renormalise
import Verif.Props.MeanFlux

/-!
C80: the mean absolute curvature of spectra.
-/

namespace Verif.Props
open Verif Verif.Np Verif.SpecTools Verif.Curvature Verif.Spec

/-- Pixel `i` of a spectrum has a flux strictly between 0.1 and 0.9. -/
def Absorbed (row : List (Option ℝ)) (i : ℕ) : Prop := ∃ f, row[i]? = some (some f) ∧ 0.1 < f ∧ f < 0.9

/-- The absorbed pixels of `row`, in order. -/
def AbsorbedPixels (row : List (Option ℝ)) (r : List ℕ) : Prop := r.Pairwise (· < ·) ∧ ∀ i, i ∈ r ↔ Absorbed row i

theorem fluxRange_absorbed (row : List (Option ℝ)) : AbsorbedPixels row (fluxRange row) :=
  ⟨fluxRange_sorted row, fun _ => fluxRange_mem⟩

theorem absorbed_unique {row : List (Option ℝ)} {r : List ℕ} (h : AbsorbedPixels row r) : r = fluxRange row := by
  have hp : r.Perm (fluxRange row) := by
    rw [List.perm_ext_iff_of_nodup (h.1.imp (fun h => h.ne)) ((fluxRange_sorted row).imp (fun h => h.ne))]
    intro i
    rw [h.2 i, (fluxRange_absorbed row).2 i]
  exact hp.eq_of_pairwise (fun a b _ _ hab hba => by omega) h.1 (fluxRange_sorted row)

/-- The velocity the code gives to pixel `i`. -/
noncomputable def pixelVel (vmax : ℝ) (nbins i : ℕ) : ℝ := (i : ℝ) * (vmax / ((nbins : ℝ) - 1))

/-- The curvature of the parabola `a v^2 + b v + c` at `v`. -/
noncomputable def parabolaCurvature (a b v : ℝ) : ℝ := |2 * a| / (1 + (2 * a * v + b) ^ 2) ^ ((3 : ℝ) / 2)

theorem parabola_pos {a : ℝ} (ha : a ≠ 0) (b v : ℝ) : 0 < parabolaCurvature a b v := by
  unfold parabolaCurvature
  have : 0 < |2 * a| := by simp [ha]
  positivity

theorem mean_pos {α : Type} {l : List α} (hne : l ≠ []) {f : α → ℝ} (h : ∀ x ∈ l, 0 < f x) : 0 < mean (l.map f) := by
  unfold mean
  apply div_pos
  · apply List.sum_pos
    · intro y hy
      obtain ⟨x, hx, rfl⟩ := List.mem_map.1 hy
      exact h x hx
    · simpa using hne
  · simpa using List.length_pos_iff.2 hne

theorem compute_single {vmax : ℝ} {nbins ncol : ℕ} {row : List (Option ℝ)} {c : ℝ}
    (h : rowCurvature ((linspace vmax nbins).take ncol) row = .ok c) :
    compute_curvature vmax nbins ncol [row] = .ok (if 0 < c then [c] else []) := by
  unfold compute_curvature
  simp only
  rw [List.mapM_cons, h]
  change Except.ok ([c].filter _) = _
  by_cases hc : 0 < c <;> simp [hc]

/-- C80: when the flux of the absorbed pixels of a spectrum is a quadratic function of velocity, the value returned is the
mean over the absorbed pixels of the curvature of that parabola, exactly, whatever gaps there are between these pixels. -/
theorem curvature_exact_partial {vmax : ℝ} (hv : 0 < vmax) {nbins : ℕ} {row : List (Option ℝ)} (hn : row.length ≤ nbins)
    {r : List ℕ} (hr : AbsorbedPixels row r) (h3 : 3 ≤ r.length) {a b c : ℝ} (ha : a ≠ 0)
    (hq : ∀ i ∈ r, row[i]? = some (some (a * pixelVel vmax nbins i ^ 2 + b * pixelVel vmax nbins i + c))) :
    compute_curvature vmax nbins row.length [row] =
      .ok [mean (r.map (fun i => parabolaCurvature a b (pixelVel vmax nbins i)))] := by
  have hrr := absorbed_unique hr
  subst hrr
  have hlt : (fluxRange row).length ≤ row.length := by
    unfold fluxRange
    calc _ ≤ (List.range row.length).length := List.length_filter_le _ _
      _ = row.length := by simp
  have hs : 0 < vmax / ((nbins : ℝ) - 1) := by
    apply div_pos hv
    have : (2 : ℝ) ≤ nbins := by exact_mod_cast (by omega : 2 ≤ nbins)
    linarith
  have hf : rangeFlux row = (rangeVel (vmax / ((nbins : ℝ) - 1)) row).map (fun v => a * v ^ 2 + b * v + c) := by
    unfold rangeFlux rangeVel
    rw [List.map_map]
    apply List.map_congr_left
    intro i hi
    rw [List.getD_eq_getElem?_getD, hq i hi]
    rfl
  have hrow : rowCurvature ((linspace vmax nbins).take row.length) row =
      .ok (mean ((fluxRange row).map (fun i => parabolaCurvature a b (pixelVel vmax nbins i)))) := by
    rw [rowCurvature_eq hn rfl, if_pos (by omega), hf]
    unfold rangeVel
    rw [pointCurvature_quadratic (velocities_sorted (fluxRange_sorted row) hs) (by simpa using h3)]
    rw [List.map_map]
    rfl
  rw [compute_single hrow, if_pos]
  exact mean_pos (by intro hc; rw [hc] at h3; simp at h3) (fun i _ => parabola_pos ha _ _)

/-- Three pixels of flux 0.2, 0.3 and 0.6 with a saturated pixel between the last two. -/
example : AbsorbedPixels [some 0.2, some 0.3, some 0.05, some 0.6, some 1] [0, 1, 3] := by
  refine ⟨by simp, fun i => ?_⟩
  unfold Absorbed
  rcases Nat.lt_or_ge i 5 with hi | hi
  · interval_cases i <;> simp <;> norm_num
  · rw [List.getElem?_eq_none (by simpa using hi)]
    simp
    omega

/-- C80: the values do not depend on other spectra: those of a longer list are those of its parts, in order. -/
theorem curvature_append (vmax : ℝ) (nbins ncol : ℕ) (A B : List (List (Option ℝ))) :
    compute_curvature vmax nbins ncol (A ++ B) = (do
      let a ← compute_curvature vmax nbins ncol A
      let b ← compute_curvature vmax nbins ncol B
      pure (a ++ b)) := by
  unfold compute_curvature
  simp only
  rw [List.mapM_append]
  cases A.mapM (rowCurvature ((linspace vmax nbins).take ncol)) with
  | error e => rfl
  | ok a =>
    cases B.mapM (rowCurvature ((linspace vmax nbins).take ncol)) with
    | error e => rfl
    | ok b =>
      change Except.ok (List.filter _ (a ++ b)) = Except.ok (_ ++ _)
      rw [List.filter_append]

/-- C80: no exception for spectra that are not longer than the box; every value is positive, and there is at most one for each
spectrum. -/
theorem curvature_total (vmax : ℝ) {nbins ncol : ℕ} (hn : ncol ≤ nbins) {flux : List (List (Option ℝ))}
    (hl : ∀ row ∈ flux, row.length = ncol) :
    ∃ out, compute_curvature vmax nbins ncol flux = .ok out ∧ (∀ c ∈ out, 0 < c) ∧ out.length ≤ flux.length := by
  obtain ⟨cs, h1, h2⟩ := mapM_ok (f := rowCurvature ((linspace vmax nbins).take ncol)) (P := fun _ _ => True) (l := flux) (by
    intro row hrow
    obtain ⟨c, hc, -⟩ := rowCurvature_ok (vmax := vmax) hn (hl row hrow)
    exact ⟨c, hc, trivial⟩)
  refine ⟨cs.filter (fun x => decide (0 < x)), ?_, ?_, ?_⟩
  · unfold compute_curvature
    simp only
    rw [h1]; rfl
  · intro c hc
    simpa using (List.mem_filter.1 hc).2
  · rw [h2.length_eq]
    exact List.length_filter_le _ _

/-- C80: the pixels that are not absorbed only matter through their number: spectra that agree on the absorbed pixels have
the same curvature. -/
theorem curvature_local (vmax : ℝ) {nbins ncol : ℕ} (hn : ncol ≤ nbins) {row row' : List (Option ℝ)} (hl : row.length = ncol)
    (hl' : row'.length = ncol) (h : ∀ i, Absorbed row i ∨ Absorbed row' i → row[i]? = row'[i]?) :
    compute_curvature vmax nbins ncol [row] = compute_curvature vmax nbins ncol [row'] := by
  have hr : fluxRange row = fluxRange row' := by
    apply absorbed_unique
    refine ⟨fluxRange_sorted row, fun i => ?_⟩
    rw [(fluxRange_absorbed row).2 i]
    unfold Absorbed at *
    constructor
    · intro ha; rw [← h i (Or.inl ha)]; exact ha
    · intro ha; rw [h i (Or.inr ha)]; exact ha
  have hrow : rowCurvature ((linspace vmax nbins).take ncol) row = rowCurvature ((linspace vmax nbins).take ncol) row' := by
    rw [rowCurvature_eq hn hl, rowCurvature_eq hn hl', hr]
    have hf : rangeFlux row = rangeFlux row' := by
      unfold rangeFlux
      rw [← hr]
      apply List.map_congr_left
      intro i hi
      rw [List.getD_eq_getElem?_getD, List.getD_eq_getElem?_getD, h i (Or.inl ((fluxRange_absorbed row).2 i |>.1 hi))]
    rw [hf]
    unfold rangeVel
    rw [hr]
  obtain ⟨c, hc, -⟩ := rowCurvature_ok (vmax := vmax) hn hl
  rw [compute_single hc, compute_single (hrow ▸ hc)]

/-- C80: the curvature does not change when the absorption is moved along the spectrum: unabsorbed pixels may be moved from the
end to the start. -/
theorem curvature_shift (vmax : ℝ) {nbins ncol : ℕ} (hn : ncol ≤ nbins) {row clear clear' : List (Option ℝ)}
    (hc : ∀ i, ¬ Absorbed clear i) (hc' : ∀ i, ¬ Absorbed clear' i) (hl : clear.length + row.length + clear'.length = ncol) :
    compute_curvature vmax nbins ncol [clear ++ row ++ clear'] = compute_curvature vmax nbins ncol [row ++ (clear' ++ clear)] := by
  have key : ∀ pre post : List (Option ℝ), (∀ i, ¬ Absorbed pre i) → (∀ i, ¬ Absorbed post i) →
      pre.length + row.length + post.length = ncol →
      rowCurvature ((linspace vmax nbins).take ncol) (pre ++ row ++ post) =
        if 2 < (fluxRange row).length then pointCurvature (rangeVel (vmax / ((nbins : ℝ) - 1)) row) (rangeFlux row)
        else .ok 0 := by
    intro pre post hpre hpost hlen
    have hr : fluxRange (pre ++ row ++ post) = (fluxRange row).map (fun i => pre.length + i) := by
      symm
      apply absorbed_unique
      constructor
      · rw [List.pairwise_map]
        exact (fluxRange_sorted row).imp (by intro a b h; omega)
      · intro i
        rw [List.mem_map]
        constructor
        · rintro ⟨j, hj, rfl⟩
          obtain ⟨f, hf, hf'⟩ := fluxRange_mem.1 hj
          obtain ⟨hjl, -⟩ := List.getElem?_eq_some_iff.1 hf
          refine ⟨f, ?_, hf'⟩
          rw [List.append_assoc, List.getElem?_append_right (by omega), List.getElem?_append_left (by omega)]
          rw [← hf]; congr 1; omega
        · rintro ⟨f, hf, hf'⟩
          rw [List.append_assoc] at hf
          rcases Nat.lt_or_ge i pre.length with h1 | h1
          · rw [List.getElem?_append_left h1] at hf
            exact absurd ⟨f, hf, hf'⟩ (hpre i)
          · rw [List.getElem?_append_right h1] at hf
            rcases Nat.lt_or_ge (i - pre.length) row.length with h2 | h2
            · rw [List.getElem?_append_left h2] at hf
              exact ⟨i - pre.length, fluxRange_mem.2 ⟨f, hf, hf'⟩, by omega⟩
            · rw [List.getElem?_append_right h2] at hf
              exact absurd ⟨f, hf, hf'⟩ (hpost _)
    have hf : rangeFlux (pre ++ row ++ post) = rangeFlux row := by
      unfold rangeFlux
      rw [hr, List.map_map]
      apply List.map_congr_left
      intro j hj
      obtain ⟨f, hf, -⟩ := fluxRange_mem.1 hj
      obtain ⟨hjl, -⟩ := List.getElem?_eq_some_iff.1 hf
      simp only [Function.comp, List.getD_eq_getElem?_getD]
      rw [List.append_assoc, List.getElem?_append_right (by omega), List.getElem?_append_left (by omega)]
      congr 3; omega
    have hx : rangeVel (vmax / ((nbins : ℝ) - 1)) (pre ++ row ++ post) =
        (rangeVel (vmax / ((nbins : ℝ) - 1)) row).map (fun v => v + (pre.length : ℝ) * (vmax / ((nbins : ℝ) - 1))) := by
      unfold rangeVel
      rw [hr, List.map_map, List.map_map]
      apply List.map_congr_left
      intro j _
      simp only [Function.comp]
      push_cast; ring
    rw [rowCurvature_eq hn (by simp; omega), hf, hx, hr, List.length_map]
    unfold pointCurvature
    simp only [gradient_shift]
  have hpp : ∀ i, ¬ Absorbed (clear' ++ clear) i := by
    rintro i ⟨f, hf, hf'⟩
    rcases Nat.lt_or_ge i clear'.length with h1 | h1
    · rw [List.getElem?_append_left h1] at hf; exact hc' i ⟨f, hf, hf'⟩
    · rw [List.getElem?_append_right h1] at hf; exact hc _ ⟨f, hf, hf'⟩
  have e1 := key clear clear' hc hc' hl
  have e2 := key [] (clear' ++ clear) (by rintro i ⟨f, hf, -⟩; simp at hf) hpp (by simp; omega)
  rw [List.nil_append] at e2
  obtain ⟨c, hcc, -⟩ := rowCurvature_ok (vmax := vmax) hn (row := clear ++ row ++ clear') (by simp; omega)
  rw [compute_single hcc, compute_single (e2.trans (e1.symm.trans hcc))]

/-- C80 is false of the code as documented: a spectrum with fewer than three absorbed pixels has no value at all, so the result
does not say which value belongs to which spectrum. -/
theorem curvature_drops (vmax : ℝ) {nbins ncol : ℕ} (hn : ncol ≤ nbins) {row : List (Option ℝ)} (hl : row.length = ncol)
    {r : List ℕ} (hr : AbsorbedPixels row r) (h2 : r.length ≤ 2) (A B : List (List (Option ℝ))) :
    compute_curvature vmax nbins ncol (A ++ [row] ++ B) = compute_curvature vmax nbins ncol (A ++ B) := by
  have hrr := absorbed_unique hr
  subst hrr
  have h0 : compute_curvature vmax nbins ncol [row] = .ok [] := by
    rw [compute_single (c := 0) (by rw [rowCurvature_eq hn hl, if_neg (by omega)])]
    simp
  rw [curvature_append, curvature_append, curvature_append, h0]
  cases compute_curvature vmax nbins ncol A with
  | error e => rfl
  | ok a =>
    cases compute_curvature vmax nbins ncol B with
    | error e => rfl
    | ok b =>
      change Except.ok (a ++ [] ++ b) = Except.ok (a ++ b)
      simp

/-- A spectrum without absorption. -/
example : AbsorbedPixels [some 1, some 1, some 1, some 1] [] := by
  refine ⟨by simp, fun i => ?_⟩
  unfold Absorbed
  rcases Nat.lt_or_ge i 4 with hi | hi
  · interval_cases i <;> simp <;> norm_num
  · rw [List.getElem?_eq_none (by simpa using hi)]; simp

/-- C80: a spectrum whose absorbed pixels lie on a straight line has no value either. -/
theorem curvature_straight {vmax : ℝ} (hv : 0 < vmax) {nbins : ℕ} {row : List (Option ℝ)} (hn : row.length ≤ nbins)
    {r : List ℕ} (hr : AbsorbedPixels row r) {b c : ℝ}
    (hq : ∀ i ∈ r, row[i]? = some (some (b * pixelVel vmax nbins i + c))) :
    compute_curvature vmax nbins row.length [row] = .ok [] := by
  have hrr := absorbed_unique hr
  subst hrr
  by_cases h3 : 2 < (fluxRange row).length
  · have hlt : (fluxRange row).length ≤ row.length := by
      unfold fluxRange
      calc _ ≤ (List.range row.length).length := List.length_filter_le _ _
        _ = row.length := by simp
    have hs : 0 < vmax / ((nbins : ℝ) - 1) := by
      apply div_pos hv
      have : (2 : ℝ) ≤ nbins := by exact_mod_cast (by omega : 2 ≤ nbins)
      linarith
    have hf : rangeFlux row = (rangeVel (vmax / ((nbins : ℝ) - 1)) row).map (fun v => 0 * v ^ 2 + b * v + c) := by
      unfold rangeFlux rangeVel
      rw [List.map_map]
      apply List.map_congr_left
      intro i hi
      rw [List.getD_eq_getElem?_getD, hq i hi]
      simp [pixelVel]
    have hrow : rowCurvature ((linspace vmax nbins).take row.length) row = .ok 0 := by
      rw [rowCurvature_eq hn rfl, if_pos h3, hf]
      unfold rangeVel
      rw [pointCurvature_quadratic (velocities_sorted (fluxRange_sorted row) hs) (by simp; omega)]
      have h0 : ∀ l : List ℝ, mean (l.map (fun v => |2 * (0 : ℝ)| / (1 + (2 * 0 * v + b) ^ 2) ^ ((3 : ℝ) / 2))) = 0 := by
        intro l
        unfold mean
        simp
      rw [h0]
    rw [compute_single hrow]; simp
  · rw [compute_single (c := 0) (by rw [rowCurvature_eq hn rfl, if_neg h3])]
    simp

/-! ### The velocity grid -/

theorem sum_lt {α : Type} {f g : α → ℝ} : ∀ {l : List α}, l ≠ [] → (∀ x ∈ l, f x < g x) → (l.map f).sum < (l.map g).sum := by
  intro l
  induction l with
  | nil => intro h; exact absurd rfl h
  | cons x l ih =>
    intro _ h
    rw [List.map_cons, List.map_cons, List.sum_cons, List.sum_cons]
    by_cases hl : l = []
    · subst hl; simpa using h x (by simp)
    · exact add_lt_add (h x (by simp)) (ih hl (fun y hy => h y (by simp [hy])))

theorem stretched_curvature {q t : ℝ} (hq0 : 0 < q) (hq1 : q < 1) (ht0 : 0 ≤ t) (ht1 : t ≤ 1) :
    q * (1 + t) ^ ((3 : ℝ) / 2) < (1 + q * t) ^ ((3 : ℝ) / 2) := by
  have hA : (0 : ℝ) < 1 + t := by linarith
  have hB : (0 : ℝ) < 1 + q * t := by positivity
  have e : ∀ x : ℝ, 0 < x → (x ^ ((3 : ℝ) / 2)) ^ 2 = x ^ 3 := by
    intro x hx
    rw [← Real.rpow_natCast, ← Real.rpow_mul hx.le, ← Real.rpow_natCast]
    norm_num
  apply lt_of_pow_lt_pow_left₀ 2 (by positivity)
  rw [mul_pow, e _ hA, e _ hB]
  have h3 : q ^ 2 * t ^ 3 ≤ q := by
    have : q ^ 2 * t ^ 3 ≤ q * 1 := by
      rw [show q ^ 2 * t ^ 3 = q * (q * t ^ 3) by ring]
      apply mul_le_mul_of_nonneg_left _ hq0.le
      calc q * t ^ 3 ≤ 1 * 1 := by
            apply mul_le_mul hq1.le (pow_le_one₀ ht0 ht1) (by positivity) (by norm_num)
        _ = 1 := by ring
    linarith
  have h4 : 0 ≤ q * t := by positivity
  have : 0 < (1 - q) * (1 + q + 3 * (q * t) - q ^ 2 * t ^ 3) := mul_pos (by linarith) (by linarith)
  nlinarith [this]

/-- C80 is false of the code for the velocities of the pixels: pixels of a spectrum are `vmax/nbins` apart, but the derivatives
use `vmax/(nbins-1)`. For a flux that is quadratic in the true velocity, with slopes of at most one, the value is too low. -/
theorem curvature_too_low {vmax : ℝ} (hv : 0 < vmax) {nbins : ℕ} {row : List (Option ℝ)} (hn : row.length ≤ nbins)
    {r : List ℕ} (hr : AbsorbedPixels row r) (h3 : 3 ≤ r.length) {a b c : ℝ} (ha : a ≠ 0)
    (hq : ∀ i ∈ r, row[i]? = some (some (a * ((i : ℝ) * (vmax / nbins)) ^ 2 + b * ((i : ℝ) * (vmax / nbins)) + c)))
    (hslope : ∀ i ∈ r, |2 * a * ((i : ℝ) * (vmax / nbins)) + b| ≤ 1) :
    ∃ k, compute_curvature vmax nbins row.length [row] = .ok [k] ∧
      k < mean (r.map (fun (i : ℕ) => parabolaCurvature a b ((i : ℝ) * (vmax / nbins)))) := by
  have hlt : r.length ≤ row.length := by
    rw [absorbed_unique hr]
    unfold fluxRange
    calc _ ≤ (List.range row.length).length := List.length_filter_le _ _
      _ = row.length := by simp
  have hn3 : (3 : ℝ) ≤ nbins := by exact_mod_cast (by omega : 3 ≤ nbins)
  set ρ : ℝ := ((nbins : ℝ) - 1) / nbins with hρ
  have hρ0 : 0 < ρ := div_pos (by linarith) (by linarith)
  have hρ1 : ρ < 1 := by rw [hρ, div_lt_one (by linarith)]; linarith
  have hvel : ∀ i : ℕ, ρ * pixelVel vmax nbins i = (i : ℝ) * (vmax / nbins) := by
    intro i
    unfold pixelVel
    rw [hρ]
    have : (nbins : ℝ) - 1 ≠ 0 := by linarith
    have : (nbins : ℝ) ≠ 0 := by linarith
    field_simp
  have ha' : a * ρ ^ 2 ≠ 0 := by positivity
  have := curvature_exact_partial hv hn hr h3 (a := a * ρ ^ 2) (b := b * ρ) (c := c) ha' (by
    intro i hi
    rw [hq i hi, ← hvel i]
    congr 2; ring)
  refine ⟨_, this, ?_⟩
  unfold mean
  rw [List.length_map, List.length_map]
  have hpos : (0 : ℝ) < r.length := by exact_mod_cast (by omega : 0 < r.length)
  apply div_lt_div_of_pos_right _ hpos
  apply sum_lt (by intro hc; rw [hc] at h3; simp at h3)
  intro i hi
  set s := 2 * a * ((i : ℝ) * (vmax / nbins)) + b with hs
  have e1 : 2 * (a * ρ ^ 2) * pixelVel vmax nbins i + b * ρ = ρ * s := by
    rw [hs, ← hvel i]; ring
  unfold parabolaCurvature
  rw [e1, ← hs]
  have hs1 : s ^ 2 ≤ 1 := by
    have := hslope i hi
    rw [← abs_one, ← sq_le_sq] at this
    simpa using this
  have key := stretched_curvature (q := ρ ^ 2) (t := s ^ 2) (by positivity) (by nlinarith) (by positivity) hs1
  have habs : |2 * (a * ρ ^ 2)| = ρ ^ 2 * |2 * a| := by
    rw [show 2 * (a * ρ ^ 2) = ρ ^ 2 * (2 * a) by ring, abs_mul, abs_of_pos (by positivity : 0 < ρ ^ 2)]
  have h2a : 0 < |2 * a| := by simp [ha]
  have hP : (0 : ℝ) < (1 + s ^ 2) ^ ((3 : ℝ) / 2) := by positivity
  have hQ : (0 : ℝ) < (1 + (ρ * s) ^ 2) ^ ((3 : ℝ) / 2) := by positivity
  rw [habs, div_lt_div_iff₀ hQ hP]
  rw [show (ρ * s) ^ 2 = ρ ^ 2 * s ^ 2 by ring]
  nlinarith [key, h2a]

/-! ### From optical depths -/

theorem maxOf_scale {k : ℝ} (hk : 0 < k) (s : List ℝ) :
    maxOf (s.map (fun f => k * f)) = (maxOf s).map (fun m => k * m) := by
  cases s with
  | nil => rfl
  | cons x xs =>
    change Except.ok _ = Except.ok _
    congr 1
    induction xs generalizing x with
    | nil => rfl
    | cons y ys ih =>
      rw [List.map_cons, List.foldl_cons, List.foldl_cons, ← mul_max_of_nonneg _ _ hk.le]
      exact ih (max x y)

theorem slice_map {α β : Type} (f : α → β) (a : List α) (lo hi : ℕ) : slice (a.map f) lo hi = (slice a lo hi).map f := by
  unfold slice
  rw [← List.map_take, List.map_drop]

theorem section_scale {k : ℝ} (hk : 0 < k) (row : List ℝ) (n i : ℕ) :
    sectionOf (row.map (fun f => k * f)) n i = sectionOf row n i := by
  have core : ∀ s : List ℝ, (do
      let m ← maxOf (s.map (fun f => k * f))
      pure ((s.map (fun f => k * f)).map (fun f => if m = 0 then none else some (f / m))) : Py (List (Option ℝ))) =
      (do let m ← maxOf s
          pure (s.map (fun f => if m = 0 then none else some (f / m)))) := by
    intro s
    rw [maxOf_scale hk]
    cases maxOf s with
    | error e => rfl
    | ok m =>
      change Except.ok _ = Except.ok _
      rw [List.map_map]
      congr 1
      apply List.map_congr_left
      intro f _
      simp only [Function.comp]
      by_cases hm : m = 0
      · rw [if_pos hm, if_pos (by rw [hm, mul_zero])]
      · rw [if_neg hm, if_neg (by positivity), mul_div_mul_left _ _ hk.ne']
  unfold sectionOf
  simp only [slice_map, List.length_map]
  set s := slice row (i * n) ((i + 1) * n + 1)
  by_cases h1 : s.length = n + 1
  · rw [if_pos h1, if_pos h1]
    exact core s
  · rw [if_neg h1, if_neg h1]
    by_cases h2 : s.length = 1
    · rw [if_pos h2, if_pos h2]
      have : List.replicate (n + 1) ((s.map (fun f => k * f)).headD 0) =
          (List.replicate (n + 1) (s.headD 0)).map (fun f => k * f) := by
        rw [List.map_replicate]
        cases s with
        | nil => simp
        | cons x xs => rfl
      rw [this]
      exact core (List.replicate (n + 1) (s.headD 0))
    · rw [if_neg h2, if_neg h2]

theorem mapM_map_py {α β γ : Type} (g : α → β) (f : β → Py γ) (l : List α) : (l.map g).mapM f = l.mapM (fun x => f (g x)) := by
  induction l with
  | nil => rfl
  | cons x l ih => rw [List.map_cons, List.mapM_cons, List.mapM_cons, ih]

theorem mapM_congr_py {α γ : Type} {f g : α → Py γ} {l : List α} (h : ∀ x ∈ l, f x = g x) : l.mapM f = l.mapM g := by
  induction l with
  | nil => rfl
  | cons x l ih => rw [List.mapM_cons, List.mapM_cons, h x (by simp), ih (fun y hy => h y (by simp [hy]))]

/-- C80 and C32: multiplying each spectrum by a positive factor of its own does not change the renormalised sections. -/
theorem renormalise_scale (vmax velfac box : ℝ) (npix : ℕ) (section_size : ℝ) (rows : List (ℝ × List ℝ))
    (hk : ∀ p ∈ rows, 0 < p.1) :
    renormalize_flux vmax velfac box npix (rows.map (fun p => p.2.map (fun f => p.1 * f))) section_size =
      renormalize_flux vmax velfac box npix (rows.map (fun p => p.2)) section_size := by
  unfold renormalize_flux
  split
  · rfl
  · simp only
    split
    · rfl
    · set n := ⌊vmax / (box / section_size * (vmax / ((npix : ℝ) - 1)))⌋₊
      set N := ⌊box / section_size⌋₊
      have h1 : ∀ (g : ℝ × List ℝ → List ℝ), (List.range N).flatMap (fun (i : ℕ) => (rows.map g).map (fun row => (row, i))) =
          ((List.range N).flatMap (fun (i : ℕ) => rows.map (fun p => (p, i)))).map (fun q => (g q.1, q.2)) := by
        intro g
        rw [List.map_flatMap]
        simp only [List.map_map]
        rfl
      rw [h1, h1, mapM_map_py, mapM_map_py]
      apply mapM_congr_py
      intro q hq
      obtain ⟨i, -, hq⟩ := List.mem_flatMap.1 hq
      obtain ⟨p, hp, rfl⟩ := List.mem_map.1 hq
      exact section_scale (hk p hp) p.2 n i

/-- C80: adding to the optical depths of each sightline a constant of its own, that is another continuum for it, changes
nothing in the curvature. -/
theorem curvature_continuum (vmax velfac box atime : ℝ) (nbins : ℕ) (section_size : ℝ) (fuel : ℕ) (rows : List (ℝ × List ℝ)) :
    get_curvature vmax velfac box atime nbins section_size fuel (rows.map (fun p => p.2.map (fun t => t + p.1))) =
      get_curvature vmax velfac box atime nbins section_size fuel (rows.map (fun p => p.2)) := by
  unfold get_curvature curvatureOfFlux
  simp only
  have e1 : (rows.map (fun p => p.2.map (fun t => t + p.1))).map (fun row => row.map (fun t => Real.exp (-t))) =
      (rows.map (fun p => (Real.exp (-p.1), p.2.map (fun t => Real.exp (-t))))).map (fun p => p.2.map (fun f => p.1 * f)) := by
    rw [List.map_map, List.map_map]
    apply List.map_congr_left
    intro p _
    simp only [Function.comp, List.map_map]
    apply List.map_congr_left
    intro t _
    simp only [Function.comp]
    rw [← Real.exp_add]; congr 1; ring
  have e2 : (rows.map (fun p => p.2)).map (fun row => row.map (fun t => Real.exp (-t))) =
      (rows.map (fun p => (Real.exp (-p.1), p.2.map (fun t => Real.exp (-t))))).map (fun p => p.2) := by
    rw [List.map_map, List.map_map]
    rfl
  rw [e1, e2, renormalise_scale _ _ _ _ _ _ (by
    intro p hp
    obtain ⟨q, -, rfl⟩ := List.mem_map.1 hp
    exact Real.exp_pos _)]

/-- The sections of a set of spectra. -/
theorem sections_of {vmax velfac box : ℝ} (hv : 0 < velfac) (hb : 0 < box) (hvm : vmax = box * velfac) {npix : ℕ}
    (hn : 2 ≤ npix) {flux : List (List ℝ)} (hrows : ∀ row ∈ flux, row.length = npix ∧ ∀ f ∈ row, 0 < f) {section_size : ℝ}
    (hlo : box / ((npix : ℝ) - 1) ≤ section_size) (hhi : section_size ≤ box) {sections : List (List (Option ℝ))}
    (hsec : renormalize_flux vmax velfac box npix flux section_size = .ok sections) :
    ∀ sec ∈ sections, ∃ row ∈ flux, ∃ i, IsSection row (stepsPerSection box section_size npix) i sec := by
  obtain ⟨out, h1, -, -, h2, h3⟩ := renormalise_spec_partial hv hb hvm hn hrows hlo hhi
  rw [hsec] at h1
  cases h1
  intro sec hs
  obtain ⟨k, hk, rfl⟩ := List.getElem_of_mem hs
  have hL : 0 < flux.length := by
    rcases Nat.eq_zero_or_pos flux.length with h | h
    · rw [h, Nat.mul_zero] at h2; omega
    · exact h
  have hj : k % flux.length < flux.length := Nat.mod_lt _ hL
  obtain ⟨s, hs1, hs2⟩ := h3 (k / flux.length) (Nat.div_lt_of_lt_mul (by rw [Nat.mul_comm, ← h2]; exact hk)) (k % flux.length)
    flux[k % flux.length] (List.getElem?_eq_getElem hj)
  rw [Nat.div_add_mod', List.getElem?_eq_getElem hk] at hs1
  rw [Option.some.inj hs1]
  exact ⟨_, List.getElem_mem hj, _, hs2⟩

/-- The fluxes of all pixels of a set of sections. -/
def pixels (sections : List (List (Option ℝ))) : List ℝ := sections.flatten.filterMap id

theorem sectionTaus_eq {sections : List (List (Option ℝ))} (h : ∀ sec ∈ sections, ∀ x ∈ sec, ∃ f, x = some f ∧ 0 < f ∧ f ≤ 1) :
    sectionTaus sections = (pixels sections).map (fun f => -Real.log f) := by
  unfold sectionTaus pixels
  have h' : ∀ x ∈ sections.flatten, ∃ f, x = some f ∧ 0 < f ∧ f ≤ 1 := by
    intro x hx
    obtain ⟨sec, hs, hx⟩ := List.mem_flatten.1 hx
    exact h sec hs x hx
  generalize sections.flatten = l at h'
  induction l with
  | nil => rfl
  | cons x l ih =>
    obtain ⟨f, rfl, hf, -⟩ := h' x (by simp)
    have hp : positive (some f) = true := by simp [positive, hf]
    rw [List.filterMap_cons_some (b := -Real.log f) (by rw [if_pos hp]; rfl), List.filterMap_cons_some (f := id) (a := some f) (b := f) rfl, List.map_cons,
      ih (fun y hy => h' y (by simp [hy]))]

theorem mem_pixels {sections : List (List (Option ℝ))} {f : ℝ} : f ∈ pixels sections ↔ ∃ sec ∈ sections, some f ∈ sec := by
  unfold pixels
  rw [List.mem_filterMap]
  constructor
  · rintro ⟨x, hx, hxf⟩
    obtain ⟨sec, hs, hx⟩ := List.mem_flatten.1 hx
    exact ⟨sec, hs, by rw [show x = some f from hxf] at hx; exact hx⟩
  · rintro ⟨sec, hs, hx⟩
    exact ⟨some f, List.mem_flatten.2 ⟨sec, hs, hx⟩, rfl⟩

theorem tau_of_section {row : List ℝ} {n i : ℕ} {sec : List (Option ℝ)} {T : ℝ} (h : IsSection (row.map (fun t => Real.exp (-t))) n i sec)
    (hT : ∀ t ∈ row, 0 ≤ t ∧ t ≤ T) {f : ℝ} (hf : some f ∈ sec) : 0 < f ∧ f ≤ 1 ∧ -Real.log f ≤ T := by
  obtain ⟨hl, m, ⟨p, hp, hpm⟩, hm0, hall⟩ := h
  obtain ⟨q, hq, hqf⟩ := List.getElem_of_mem hf
  obtain ⟨g, hg, hg0, hgm, hs⟩ := hall q (by omega)
  rw [List.getElem?_eq_getElem hq, hqf] at hs
  have hfe : f = g / m := Option.some.inj (Option.some.inj hs)
  rw [List.getElem?_map] at hpm hg
  obtain ⟨tm, htm, htm'⟩ := Option.map_eq_some_iff.1 hpm
  obtain ⟨tg, htg, htg'⟩ := Option.map_eq_some_iff.1 hg
  have h1 := hT tm (List.mem_of_getElem? htm)
  have h2 := hT tg (List.mem_of_getElem? htg)
  refine ⟨by rw [hfe]; positivity, by rw [hfe, div_le_one hm0]; exact hgm, ?_⟩
  rw [hfe, Real.log_div hg0.ne' hm0.ne', ← htm', ← htg', Real.log_exp, Real.log_exp]
  linarith

theorem clear_pixels {fs : List ℝ} (h : ∀ f ∈ fs, 0 < f ∧ f ≤ 1) :
    clearFraction (fs.map (fun f => -Real.log f)) = (fs.countP (fun f => decide (f = 1)) : ℝ) / fs.length := by
  unfold clearFraction
  rw [List.length_map, List.countP_map]
  congr 2
  apply List.countP_congr
  intro f hf
  obtain ⟨h0, -⟩ := h f hf
  simp only [Function.comp, decide_eq_true_eq, neg_eq_zero]
  constructor
  · intro hl
    rcases Real.log_eq_zero.1 hl with h | h | h
    · linarith
    · exact h
    · linarith
  · intro he; rw [he, Real.log_one]

theorem meanFlux_pixels {fs : List ℝ} (h : ∀ f ∈ fs, 0 < f ∧ f ≤ 1) (s : ℝ) :
    meanFluxOf (fs.map (fun f => -Real.log f)) s = mean (fs.map (fun f => f ^ s)) := by
  unfold meanFluxOf mean
  rw [List.length_map, List.length_map, List.map_map]
  congr 2
  apply List.map_congr_left
  intro f hf
  simp only [Function.comp]
  rw [Real.rpow_def_of_pos (h f hf).1]
  congr 1; ring

/-- The observed mean flux at scale factor `a`. -/
noncomputable def observedFlux (a : ℝ) : ℝ := Real.exp (-(0.0023 * (1 / a) ^ (3.65 : ℝ)))

theorem observed_eq (a : ℝ) : Real.exp (-obs_mean_tau (1 / a - 1)) = observedFlux a := by
  unfold obs_mean_tau observedFlux
  rw [add_sub_cancel]

/-- C80: the spectra are cut into sections of maximum one, and the flux `F` of every pixel is replaced by `F^ν`, with one factor
`ν` for all, such that the mean flux of the sections is that observed at this redshift to 1e-5. The values returned are those
of the spectra so rescaled. The observed mean must be within reach: above the fraction of pixels at the continuum. -/
theorem curvature_mean_flux {vmax velfac box atime : ℝ} (hv : 0 < velfac) (hb : 0 < box) (hvm : vmax = box * velfac)
    {nbins : ℕ} (hn : 2 ≤ nbins) {tau : List (List ℝ)} (hrows : ∀ row ∈ tau, row.length = nbins ∧ ∀ t ∈ row, 0 ≤ t ∧ t ≤ 1e30)
    {section_size : ℝ} (hlo : box / ((nbins : ℝ) - 1) ≤ section_size) (hhi : section_size ≤ box)
    {sections : List (List (Option ℝ))}
    (hsec : renormalize_flux vmax velfac box nbins (tau.map (fun row => row.map (fun t => Real.exp (-t)))) section_size = .ok sections)
    (hclear : ((pixels sections).countP (fun f => decide (f = 1)) : ℝ) / (pixels sections).length < observedFlux atime)
    (hreach : observedFlux atime ≤ mean ((pixels sections).map (fun f => f ^ (1e-10 : ℝ)))) :
    ∃ (fuel : ℕ) (ν : ℝ) (out : List ℝ), get_curvature vmax velfac box atime nbins section_size fuel tau = some (.ok out) ∧ 0 < ν ∧
      compute_curvature vmax nbins (stepsPerSection box section_size nbins + 1)
        (sections.map (fun sec => sec.map (fun x => x.map (fun f => f ^ ν)))) = .ok out ∧
      observedFlux atime ≤ mean ((pixels sections).map (fun f => f ^ ν)) ∧
      mean ((pixels sections).map (fun f => f ^ ν)) ≤ observedFlux atime + 1e-5 := by
  have hn1 : (0 : ℝ) < (nbins : ℝ) - 1 := by
    have : (2 : ℝ) ≤ nbins := by exact_mod_cast hn
    linarith
  have hs0 : section_size ≠ 0 := (lt_of_lt_of_le (div_pos hb hn1) hlo).ne'
  have hflux : ∀ row ∈ tau.map (fun row => row.map (fun t => Real.exp (-t))), row.length = nbins ∧ ∀ f ∈ row, 0 < f := by
    intro row hr
    obtain ⟨r, hr', rfl⟩ := List.mem_map.1 hr
    refine ⟨by simpa using (hrows r hr').1, fun f hf => ?_⟩
    obtain ⟨t, -, rfl⟩ := List.mem_map.1 hf
    exact Real.exp_pos _
  have hall := sections_of hv hb hvm hn hflux hlo hhi hsec
  have hsome : ∀ sec ∈ sections, ∀ x ∈ sec, ∃ f, x = some f ∧ 0 < f ∧ f ≤ 1 := by
    intro sec hs
    obtain ⟨row, -, i, hi⟩ := hall sec hs
    exact (section_range hi).1
  have hpix : ∀ f ∈ pixels sections, 0 < f ∧ f ≤ 1 ∧ -Real.log f ≤ 1e30 := by
    intro f hf
    obtain ⟨sec, hs, hf⟩ := mem_pixels.1 hf
    obtain ⟨row, hrow, i, hi⟩ := hall sec hs
    obtain ⟨r, hr, rfl⟩ := List.mem_map.1 hrow
    exact tau_of_section hi (hrows r hr).2 hf
  have hpix' : ∀ f ∈ pixels sections, 0 < f ∧ f ≤ 1 := fun f hf => ⟨(hpix f hf).1, (hpix f hf).2.1⟩
  have htaus := sectionTaus_eq hsome
  have hcount : Counted (sectionTaus sections) 1e30 = sectionTaus sections := by
    unfold Counted
    rw [List.filter_eq_self]
    intro t ht
    rw [htaus] at ht
    obtain ⟨f, hf, rfl⟩ := List.mem_map.1 ht
    simpa using (hpix f hf).2.2
  have htpos : 0 < observedFlux atime := Real.exp_pos _
  have hge : ∀ t ∈ sectionTaus sections, 0 ≤ t := by
    intro t ht
    rw [htaus] at ht
    obtain ⟨f, hf, rfl⟩ := List.mem_map.1 ht
    have := Real.log_nonpos (hpix' f hf).1.le (hpix' f hf).2
    linarith
  have hlen : 0 < (pixels sections).length := by
    rcases Nat.eq_zero_or_pos (pixels sections).length with h | h
    · rw [List.length_eq_zero_iff] at h
      rw [h] at hreach
      simp [mean] at hreach
      linarith
    · exact h
  have hone : mean ((pixels sections).map (fun f => f ^ (1e-10 : ℝ))) ≤ 1 := by
    unfold mean
    rw [List.length_map, div_le_one (by exact_mod_cast hlen)]
    calc ((pixels sections).map (fun f => f ^ (1e-10 : ℝ))).sum ≤ ((pixels sections).map (fun _ => (1 : ℝ))).sum := by
          apply List.sum_le_sum
          intro f hf
          exact Real.rpow_le_one (hpix' f hf).1.le (hpix' f hf).2 (by norm_num)
      _ = (pixels sections).length := by simp
  have hex : ∃ t ∈ sectionTaus sections, 0 < t ∧ t ≤ 1e30 := by
    by_contra hno
    push Not at hno
    have : (pixels sections).countP (fun f => decide (f = 1)) = (pixels sections).length := by
      rw [List.countP_eq_length]
      intro f hf
      rw [decide_eq_true_eq]
      by_contra hne
      have hlt : f < 1 := lt_of_le_of_ne (hpix' f hf).2 hne
      have hlog := Real.log_neg (hpix' f hf).1 hlt
      have := hno (-Real.log f) (by rw [htaus]; exact List.mem_map.2 ⟨f, hf, rfl⟩) (by linarith)
      linarith [(hpix f hf).2.2]
    rw [this, div_self (by exact_mod_cast hlen.ne')] at hclear
    linarith
  obtain ⟨ν, ⟨fuel, hfuel⟩, hν0, hν1, hν2⟩ := mean_flux_converges (taus := sectionTaus sections) (desired := observedFlux atime)
    (tol := 1e-5) (thresh := 1e30) hge hex (by norm_num) (by norm_num)
    (by rw [hcount, htaus, clear_pixels hpix']; exact hclear) (by rw [hcount, htaus, meanFlux_pixels hpix']; exact hreach)
  rw [hcount, htaus, meanFlux_pixels hpix'] at hν1 hν2
  have hscaled : sections.map (fun row => row.map (rescale (some ν))) =
      sections.map (fun sec => sec.map (fun x => x.map (fun f => f ^ ν))) := by
    apply List.map_congr_left
    intro sec hs
    apply List.map_congr_left
    intro x hx
    obtain ⟨f, rfl, hf, -⟩ := hsome sec hs x hx
    simp [rescale, positive, hf]
  have hseclen : ∀ sec ∈ sections, sec.length = stepsPerSection box section_size nbins + 1 := by
    intro sec hs
    obtain ⟨row, -, i, hi⟩ := hall sec hs
    exact hi.1
  have hsn : stepsPerSection box section_size nbins + 1 ≤ nbins := by
    have : stepsPerSection box section_size nbins ≤ nbins - 1 := by
      unfold stepsPerSection
      have h1 : section_size / box * ((nbins : ℝ) - 1) ≤ ((nbins - 1 : ℕ) : ℝ) := by
        rw [Nat.cast_sub (by omega), Nat.cast_one]
        have : section_size / box ≤ 1 := by rw [div_le_one hb]; exact hhi
        nlinarith
      exact (Nat.floor_le_floor h1).trans (by rw [Nat.floor_natCast])
    omega
  obtain ⟨out, hout, -⟩ := curvature_total vmax hsn
    (flux := sections.map (fun sec => sec.map (fun x => x.map (fun f => f ^ ν)))) (by
      intro row hr
      obtain ⟨sec, hs, rfl⟩ := List.mem_map.1 hr
      rw [List.length_map]; exact hseclen sec hs)
  refine ⟨fuel, ν, out, ?_, hν0, hout, hν1, hν2⟩
  unfold get_curvature curvatureOfFlux
  simp only
  rw [if_neg hs0, hsec]
  simp only [Run.andThen]
  rw [observed_eq, hfuel]
  simp only
  rw [hscaled]
  have hne : sections ≠ [] := by
    intro h
    rw [h] at hlen
    simp [pixels] at hlen
  have hhead : ((sections.map (fun sec => sec.map (fun x : Option ℝ => x.map (fun f => f ^ ν)))).headD []).length =
      stepsPerSection box section_size nbins + 1 := by
    cases sections with
    | nil => exact absurd rfl hne
    | cons sec rest => simpa using hseclen sec (by simp)
  rw [hhead, hout]

/-- C80 is false of the code for short sections: every section has a pixel at the continuum, so that the mean flux of sections of
`n+1` pixels is at least `1/(n+1)` whatever the factor. When the observed mean is lower than that, the search for the factor does
not end (in exact arithmetic). -/
theorem curvature_never_ends {vmax velfac box atime : ℝ} (hv : 0 < velfac) (hb : 0 < box) (hvm : vmax = box * velfac)
    {nbins : ℕ} (hn : 2 ≤ nbins) {tau : List (List ℝ)} (hrows : ∀ row ∈ tau, row.length = nbins ∧ ∀ t ∈ row, 0 ≤ t ∧ t ≤ 1e30)
    {section_size : ℝ} (hlo : box / ((nbins : ℝ) - 1) ≤ section_size) (hhi : section_size ≤ box)
    {sections : List (List (Option ℝ))}
    (hsec : renormalize_flux vmax velfac box nbins (tau.map (fun row => row.map (fun t => Real.exp (-t)))) section_size = .ok sections)
    (hsome : ∃ f ∈ pixels sections, f ≠ 1)
    (hlow : observedFlux atime + 2e-5 < 1 / ((stepsPerSection box section_size nbins : ℝ) + 1)) (fuel : ℕ) :
    get_curvature vmax velfac box atime nbins section_size fuel tau = none := by
  have hn1 : (0 : ℝ) < (nbins : ℝ) - 1 := by
    have : (2 : ℝ) ≤ nbins := by exact_mod_cast hn
    linarith
  have hs0 : section_size ≠ 0 := (lt_of_lt_of_le (div_pos hb hn1) hlo).ne'
  have hflux : ∀ row ∈ tau.map (fun row => row.map (fun t => Real.exp (-t))), row.length = nbins ∧ ∀ f ∈ row, 0 < f := by
    intro row hr
    obtain ⟨r, hr', rfl⟩ := List.mem_map.1 hr
    refine ⟨by simpa using (hrows r hr').1, fun f hf => ?_⟩
    obtain ⟨t, -, rfl⟩ := List.mem_map.1 hf
    exact Real.exp_pos _
  have hall := sections_of hv hb hvm hn hflux hlo hhi hsec
  have hsm : ∀ sec ∈ sections, ∀ x ∈ sec, ∃ f, x = some f ∧ 0 < f ∧ f ≤ 1 := by
    intro sec hs
    obtain ⟨row, -, i, hi⟩ := hall sec hs
    exact (section_range hi).1
  have hpix : ∀ f ∈ pixels sections, 0 < f ∧ f ≤ 1 ∧ -Real.log f ≤ 1e30 := by
    intro f hf
    obtain ⟨sec, hs, hf⟩ := mem_pixels.1 hf
    obtain ⟨row, hrow, i, hi⟩ := hall sec hs
    obtain ⟨r, hr, rfl⟩ := List.mem_map.1 hrow
    exact tau_of_section hi (hrows r hr).2 hf
  have hpix' : ∀ f ∈ pixels sections, 0 < f ∧ f ≤ 1 := fun f hf => ⟨(hpix f hf).1, (hpix f hf).2.1⟩
  have htaus := sectionTaus_eq hsm
  have hcount : Counted (sectionTaus sections) 1e30 = sectionTaus sections := by
    unfold Counted
    rw [List.filter_eq_self]
    intro t ht
    rw [htaus] at ht
    obtain ⟨f, hf, rfl⟩ := List.mem_map.1 ht
    simpa using (hpix f hf).2.2
  have hge : ∀ t ∈ sectionTaus sections, 0 ≤ t := by
    intro t ht
    rw [htaus] at ht
    obtain ⟨f, hf, rfl⟩ := List.mem_map.1 ht
    have := Real.log_nonpos (hpix' f hf).1.le (hpix' f hf).2
    linarith
  have hfrac : 1 / ((stepsPerSection box section_size nbins : ℝ) + 1) ≤ clearFraction (sectionTaus sections) := by
    rw [htaus, clear_pixels hpix']
    have hlen : ∀ (ss : List (List (Option ℝ))), (∀ sec ∈ ss, sec.length = stepsPerSection box section_size nbins + 1 ∧
        (∀ x ∈ sec, ∃ f, x = some f ∧ 0 < f ∧ f ≤ 1) ∧ some 1 ∈ sec) →
        (pixels ss).length = ss.length * (stepsPerSection box section_size nbins + 1) ∧
          ss.length ≤ (pixels ss).countP (fun f => decide (f = 1)) := by
      intro ss
      induction ss with
      | nil => intro _; simp [pixels]
      | cons sec ss ih =>
        intro h
        obtain ⟨i1, i2⟩ := ih (fun s hs => h s (by simp [hs]))
        obtain ⟨a1, a2, a3⟩ := h sec (by simp)
        have hp : pixels (sec :: ss) = sec.filterMap id ++ pixels ss := by
          unfold pixels
          rw [List.flatten_cons, List.filterMap_append]
        have hl : ∀ l : List (Option ℝ), (∀ x ∈ l, ∃ f, x = some f ∧ 0 < f ∧ f ≤ 1) → (l.filterMap id).length = l.length := by
          intro l
          induction l with
          | nil => intro _; rfl
          | cons x l ih =>
            intro h
            obtain ⟨f, rfl, -⟩ := h x (by simp)
            rw [List.filterMap_cons]
            simpa using ih (fun y hy => h y (by simp [hy]))
        constructor
        · rw [hp, List.length_append, hl sec a2, i1, a1, List.length_cons]; ring
        · rw [hp, List.countP_append, List.length_cons]
          have : 0 < (sec.filterMap id).countP (fun f => decide (f = 1)) := by
            rw [List.countP_pos_iff]
            exact ⟨1, List.mem_filterMap.2 ⟨some 1, a3, rfl⟩, by simp⟩
          omega
    obtain ⟨l1, l2⟩ := hlen sections (by
      intro sec hs
      obtain ⟨row, -, i, hi⟩ := hall sec hs
      exact ⟨hi.1, section_range hi⟩)
    have hL : 0 < sections.length := by
      obtain ⟨f, hf, -⟩ := hsome
      obtain ⟨sec, hs, -⟩ := mem_pixels.1 hf
      exact List.length_pos_of_mem hs
    rw [l1, div_le_div_iff₀ (by positivity) (by positivity)]
    have h2 : (sections.length : ℝ) ≤ ((pixels sections).countP (fun f => decide (f = 1)) : ℝ) := by exact_mod_cast l2
    push_cast
    nlinarith [(Nat.cast_nonneg (stepsPerSection box section_size nbins) : (0 : ℝ) ≤ _)]
  have hend := mean_flux_never_ends (taus := sectionTaus sections) (desired := observedFlux atime) (tol := 1e-5) (thresh := 1e30)
    hge (by
      obtain ⟨f, hf, hne⟩ := hsome
      refine ⟨-Real.log f, by rw [htaus]; exact List.mem_map.2 ⟨f, hf, rfl⟩, ?_, (hpix f hf).2.2⟩
      have := Real.log_neg (hpix' f hf).1 (lt_of_le_of_ne (hpix' f hf).2 hne)
      linarith) (by norm_num) (by norm_num) (by
      rw [hcount]
      have : (1e-5 : ℝ) / (1 - 1e-5) < 2e-5 := by norm_num
      linarith) fuel
  unfold get_curvature curvatureOfFlux
  simp only
  rw [if_neg hs0, hsec]
  simp only [Run.andThen]
  rw [observed_eq, hend]

/-! ### A case -/

/-- One sightline of three pixels with optical depths 0, 1 and 1, and sections of the size of the box. -/
theorem sections_case : renormalize_flux 1 1 1 3 ([[0, 1, 1]].map (fun row => row.map (fun t => Real.exp (-t)))) 1 =
    .ok [[some 1, some (Real.exp (-1)), some (Real.exp (-1))]] := by
  unfold renormalize_flux
  have h1 : ¬ (((3 : ℕ) : ℝ) - 1 = 0) := by norm_num
  have h2 : ¬ ((1 : ℝ) < 1 / (((3 : ℕ) : ℝ) - 1) / 1 ∨ (1 : ℝ) > 1) := by norm_num
  have h3 : ⌊(1 : ℝ) / (1 / 1 * (1 / (((3 : ℕ) : ℝ) - 1)))⌋₊ = 2 := by
    rw [Nat.floor_eq_iff (by norm_num)]; norm_num
  have h4 : ⌊(1 : ℝ) / 1⌋₊ = 1 := by simp
  rw [if_neg h1]
  simp only
  rw [if_neg h2, h3, h4]
  have hexp : Real.exp (-1) ≤ 1 := by rw [Real.exp_le_one_iff]; norm_num
  have hs : sectionOf [1, Real.exp (-1), Real.exp (-1)] 2 0 = .ok [some 1, some (Real.exp (-1)), some (Real.exp (-1))] := by
    unfold sectionOf
    have hsl : slice [1, Real.exp (-1), Real.exp (-1)] (0 * 2) ((0 + 1) * 2 + 1) = [1, Real.exp (-1), Real.exp (-1)] := rfl
    rw [hsl]
    have hm : maxOf [1, Real.exp (-1), Real.exp (-1)] = .ok 1 := by
      change Except.ok (max (max 1 (Real.exp (-1))) (Real.exp (-1))) = Except.ok 1
      rw [max_eq_left hexp, max_eq_left hexp]
    change (do let m ← maxOf [1, Real.exp (-1), Real.exp (-1)]; pure _ : Py (List (Option ℝ))) = _
    rw [hm]
    change Except.ok _ = Except.ok _
    simp
  have hl : (List.range 1).flatMap (fun (i : ℕ) => ([[0, 1, 1]].map (fun row => row.map (fun t : ℝ => Real.exp (-t)))).map
      (fun row => (row, i))) = [([1, Real.exp (-1), Real.exp (-1)], 0)] := by
    simp [List.range_succ]
  rw [hl, List.mapM_cons]
  simp only
  rw [hs]
  rfl

theorem sections_case_pixels : pixels [[some 1, some (Real.exp (-1)), some (Real.exp (-1))]] = [1, Real.exp (-1), Real.exp (-1)] := rfl

theorem sections_case_clear :
    ((pixels [[some 1, some (Real.exp (-1)), some (Real.exp (-1))]]).countP (fun f => decide (f = 1)) : ℝ) /
      (pixels [[some 1, some (Real.exp (-1)), some (Real.exp (-1))]]).length = 1 / 3 := by
  have hexp : Real.exp (-1) ≠ 1 := by
    rw [Ne, Real.exp_eq_one_iff]; norm_num
  rw [sections_case_pixels]
  simp [List.countP_cons, hexp]

/-- The observed mean flux today is within reach of this sightline, so `curvature_mean_flux` applies. -/
example : ∃ (fuel : ℕ) (out : List ℝ), get_curvature 1 1 1 1 3 1 fuel [[0, 1, 1]] = some (.ok out) := by
  have hlow : (1 : ℝ) - 0.0023 ≤ observedFlux 1 := by
    unfold observedFlux
    rw [div_one, Real.one_rpow, mul_one]
    linarith [Real.add_one_le_exp (-0.0023 : ℝ)]
  have hupp : observedFlux 1 ≤ 1 - 0.002 := by
    unfold observedFlux
    rw [div_one, Real.one_rpow, mul_one, Real.exp_neg]
    have := Real.add_one_le_exp (0.0023 : ℝ)
    calc (Real.exp 0.0023)⁻¹ ≤ (0.0023 + 1 : ℝ)⁻¹ := inv_anti₀ (by norm_num) this
      _ ≤ 1 - 0.002 := by norm_num
  have hrow : ∀ row ∈ ([[0, 1, 1]] : List (List ℝ)), row.length = 3 ∧ ∀ t ∈ row, (0 : ℝ) ≤ t ∧ t ≤ 1e30 := by
    intro row hr
    rw [List.mem_singleton] at hr
    subst hr
    refine ⟨rfl, fun t ht => ?_⟩
    simp at ht
    rcases ht with rfl | rfl <;> norm_num
  obtain ⟨fuel, ν, out, h, -⟩ := curvature_mean_flux (vmax := 1) (velfac := 1) (box := 1) (atime := 1) (by norm_num) (by norm_num)
    (by norm_num) (nbins := 3) (by norm_num) hrow (section_size := 1) (by norm_num) (by norm_num) sections_case
    (by rw [sections_case_clear]; linarith) (by
      rw [sections_case_pixels]
      unfold mean
      simp only [List.map_cons, List.map_nil, List.sum_cons, List.sum_nil, List.length_cons, List.length_nil, Real.one_rpow]
      rw [← Real.exp_mul]
      have := Real.add_one_le_exp (-1 * 1e-10 : ℝ)
      push_cast
      rw [le_div_iff₀ (by norm_num)]
      linarith)
  exact ⟨fuel, out, h⟩

/-- At redshift 9 the observed mean flux is below one third, and `curvature_never_ends` applies to the same sightline. -/
theorem curvature_never_ends_case (fuel : ℕ) : get_curvature 1 1 1 (1 / 10) 3 1 fuel [[0, 1, 1]] = none := by
  have hrow : ∀ row ∈ ([[0, 1, 1]] : List (List ℝ)), row.length = 3 ∧ ∀ t ∈ row, (0 : ℝ) ≤ t ∧ t ≤ 1e30 := by
    intro row hr
    rw [List.mem_singleton] at hr
    subst hr
    refine ⟨rfl, fun t ht => ?_⟩
    simp at ht
    rcases ht with rfl | rfl <;> norm_num
  have hexp : Real.exp (-1) ≠ 1 := by
    rw [Ne, Real.exp_eq_one_iff]; norm_num
  refine curvature_never_ends (vmax := 1) (velfac := 1) (box := 1) (by norm_num) (by norm_num) (by norm_num) (nbins := 3)
    (by norm_num) hrow (section_size := 1) (by norm_num) (by norm_num) sections_case
    ⟨Real.exp (-1), by rw [sections_case_pixels]; simp, hexp⟩ ?_ fuel
  have hsteps : stepsPerSection 1 1 3 = 2 := (renormalise_whole (by norm_num : (0 : ℝ) < 1) (npix := 3) (by norm_num)).2
  rw [hsteps]
  unfold observedFlux
  have hz : (10 : ℝ) ^ (3 : ℝ) ≤ (10 : ℝ) ^ (3.65 : ℝ) := Real.rpow_le_rpow_of_exponent_le (by norm_num) (by norm_num)
  have hz' : (10 : ℝ) ^ (3 : ℝ) = 1000 := by
    rw [show (3 : ℝ) = ((3 : ℕ) : ℝ) by norm_num, Real.rpow_natCast]; norm_num
  rw [show (1 : ℝ) / (1 / 10) = 10 by norm_num, Real.exp_neg]
  set x := (0.0023 : ℝ) * 10 ^ (3.65 : ℝ) with hx
  have hx1 : (2.3 : ℝ) ≤ x := by rw [hx]; nlinarith
  have h1 := Real.add_one_le_exp x
  have h2 : (Real.exp x)⁻¹ ≤ (3.3 : ℝ)⁻¹ := inv_anti₀ (by norm_num) (by linarith)
  have h3 : (3.3 : ℝ)⁻¹ + 2e-5 < 1 / (((2 : ℕ) : ℝ) + 1) := by norm_num
  linarith

/-! Witnesses for the theorems on rows. -/

example := curvature_total 100 (nbins := 5) (ncol := 5) le_rfl (flux := [[some 0.2, some 0.3, some 0.05, some 0.6, some 1], [some 1, none, some 1, some 1, some 1]])
  (by simp)

theorem clear_ex (i : ℕ) : ¬ Absorbed [some 1] i := by
  rintro ⟨f, h, h1, h2⟩
  rcases i with - | i
  · simp at h
    subst h
    norm_num at h2
  · simp at h

example := curvature_shift 100 (nbins := 5) (ncol := 5) le_rfl (row := [some 0.2, some 0.5, some 0.3]) (clear := [some 1]) (clear' := [some 1])
  (clear_ex) (clear_ex) rfl

/-- A clear pixel may take any other flux of a clear pixel. -/
example : compute_curvature 100 3 3 [[some 1, some 0.5, some 0.3]] = compute_curvature 100 3 3 [[some 0.95, some 0.5, some 0.3]] :=
  curvature_local 100 le_rfl rfl rfl (by
    rintro (_ | i) h
    · rcases h with ⟨f, h, -, h2⟩ | ⟨f, h, -, h2⟩ <;> simp at h <;> subst h <;> norm_num at h2
    · rfl)

/-- A parabola through three pixels one km/s wide, and a straight line. -/
theorem three_pixels {x y z : ℝ} (hx : 0.1 < x ∧ x < 0.9) (hy : 0.1 < y ∧ y < 0.9) (hz : 0.1 < z ∧ z < 0.9) :
    AbsorbedPixels [some x, some y, some z] [0, 1, 2] := by
  refine ⟨by simp, fun i => ⟨fun h => ?_, ?_⟩⟩
  · simp only [List.mem_cons, List.not_mem_nil, or_false] at h
    rcases h with rfl | rfl | rfl
    exacts [⟨x, rfl, hx.1, hx.2⟩, ⟨y, rfl, hy.1, hy.2⟩, ⟨z, rfl, hz.1, hz.2⟩]
  · rintro ⟨f, h, -⟩
    have := (List.getElem?_eq_some_iff.1 h).1
    simp at this
    interval_cases i <;> simp

example := curvature_straight (vmax := 3) (by norm_num) (nbins := 3) (row := [some 0.2, some 0.35, some 0.5]) le_rfl
  (three_pixels (by norm_num) (by norm_num) (by norm_num)) (b := 0.1) (c := 0.2) (by
    simp [pixelVel]
    norm_num)

example := curvature_too_low (vmax := 3) (by norm_num) (nbins := 3) (row := [some 0.2, some 0.3, some 0.6]) le_rfl
  (three_pixels (by norm_num) (by norm_num) (by norm_num)) le_rfl (a := 0.1) (b := 0) (c := 0.2) (by norm_num) (by
    simp
    norm_num) (by
    simp
    norm_num)

end Verif.Props
