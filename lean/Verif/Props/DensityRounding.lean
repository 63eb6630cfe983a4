import Verif.Model.DensityRounding
import Verif.Props.NearSpectra
import Verif.Props.WeightMean
import Verif.Props.Rounding

/-!
C126: densities in single precision.
-/

namespace Verif.Props.DensityRounding
open Verif Verif.Spec Verif.Props Verif.PartInt Verif.IndexTable Verif.Absorption Verif.ComputeSpectra Verif.Rounding
open Verif.Props.CellRounding (Single roundTo_single)

/-! ### Specification -/

/-- Half a unit in the last place of a single precision number. -/
noncomputable def unit : ℝ := (2 : ℝ)⁻¹ ^ 24

/-- `x'` is `x`, which is not negative, up to a fraction `e`. -/
def Within (e x' x : ℝ) : Prop := 0 ≤ x ∧ |x' - x| ≤ e * x

/-- The same computation with the ionisation table asked for the density and temperature in single precision. -/
noncomputable def tableSingle (fl : ℝ → ℝ) (c : Config) : Config :=
  match c.sp with
  | .ion table => { c with sp := .ion (fun d t => table (fl d) (fl t)) }
  | _ => c

/-- Gas with densities and fractions that are not negative. -/
structure GoodGas (r : Raw) : Prop where
  den : 0 ≤ r.den
  massFrac : 0 ≤ r.massFrac
  nHI : 0 ≤ r.nHI
  h : 0 ≤ r.h

/-- A query for an element, for neutral hydrogen or for an ion of another element whose table has no negative fractions. -/
def GoodSpecies : Species → Prop
  | .HI => True
  | .all => True
  | .ion table => ∀ d t, 0 ≤ table d t
  | .Hion _ => False

/-! ### Products -/

theorem Within.mul {e f x' x y' y : ℝ} (he : 0 ≤ e) (hx : Within e x' x) (hy : Within f y' y) : Within (e + f + e * f) (x' * y') (x * y) := by
  obtain ⟨x0, hx⟩ := hx
  obtain ⟨y0, hy⟩ := hy
  refine ⟨mul_nonneg x0 y0, ?_⟩
  have hx' : |x'| ≤ x + e * x := by
    have := abs_le.1 hx
    rw [abs_le]
    constructor <;> nlinarith
  calc |x' * y' - x * y| = |x' * (y' - y) + (x' - x) * y| := by ring_nf
    _ ≤ |x'| * |y' - y| + |x' - x| * |y| := by
      rw [← abs_mul, ← abs_mul]
      exact abs_add_le _ _
    _ ≤ (x + e * x) * (f * y) + e * x * y := by
      rw [abs_of_nonneg y0]
      gcongr
    _ = _ := by ring

theorem Within.round {fl : ℝ → ℝ} (hf : Single fl) {e x' x : ℝ} (hx : Within e x' x) : Within (e + unit + e * unit) (fl x') x := by
  obtain ⟨x0, hx⟩ := hx
  refine ⟨x0, ?_⟩
  have hx' : |x'| ≤ x + e * x := by
    have h1 := abs_sub_abs_le_abs_sub x' x
    rw [abs_of_nonneg x0] at h1
    linarith
  have h1 := hf x'
  have hu : 0 ≤ unit := by unfold unit; positivity
  calc |fl x' - x| ≤ |fl x' - x'| + |x' - x| := abs_sub_le _ _ _
    _ ≤ unit * (x + e * x) + e * x := by
      refine add_le_add (h1.trans ?_) hx
      exact mul_le_mul_of_nonneg_left hx' hu
    _ = _ := by ring

theorem Within.of_round {fl : ℝ → ℝ} (hf : Single fl) {x : ℝ} (hx : 0 ≤ x) : Within unit (fl x) x :=
  ⟨hx, by simpa [abs_of_nonneg hx, unit] using hf x⟩

theorem Within.mono {e f x' x : ℝ} (h : Within e x' x) (hef : e ≤ f) : Within f x' x :=
  ⟨h.1, h.2.trans (mul_le_mul_of_nonneg_right hef h.1)⟩

/-- One over a rounded number. -/
theorem Within.inv {fl : ℝ → ℝ} (hf : Single fl) {a : ℝ} (ha : 0 < a) : Within (1.01 * unit) (fl a)⁻¹ a⁻¹ := by
  refine ⟨by positivity, ?_⟩
  have h := hf a
  rw [abs_of_pos ha] at h
  have hu : unit = (2 : ℝ)⁻¹ ^ 24 := rfl
  rw [← hu] at h
  have hb := abs_le.1 h
  have hu1 : unit ≤ 0.001 := by unfold unit; norm_num
  have hu0 : 0 ≤ unit := by unfold unit; positivity
  have hfa : 0.999 * a ≤ fl a := by nlinarith
  have hpos : 0 < fl a := by nlinarith
  rw [inv_sub_inv hpos.ne' ha.ne', abs_div, abs_of_pos (mul_pos hpos ha), div_le_iff₀ (mul_pos hpos ha), abs_sub_comm]
  refine h.trans ?_
  have : 1.01 * unit * a⁻¹ * (fl a * a) = 1.01 * unit * fl a := by field_simp
  rw [this]
  nlinarith [mul_nonneg hu0 ha.le]

/-! ### Densities -/

theorem unit_le : unit ≤ 1e-7 := by unfold unit; norm_num

theorem unit_pos : 0 < unit := by unfold unit; positivity

theorem elem_within {fl : ℝ → ℝ} (hf : Single fl) {c : Config} (hr : 0 ≤ c.rscale) {r : Raw} (hg : GoodGas r) :
    Within (5.01 * unit) (DensityRounding.elemDen fl c r) (elemDen c r) := by
  have hu := unit_pos
  have hu' := unit_le
  refine ((((Within.of_round hf hg.den).mul hu.le (Within.of_round hf hr)).round hf).mul (by positivity) (Within.of_round hf hg.massFrac)).round hf |>.mono ?_
  have h2 : unit ^ 2 ≤ 1e-7 * unit := by nlinarith
  have h3 : unit ^ 3 ≤ 1e-7 * unit := by nlinarith
  have h4 : unit ^ 4 ≤ 1e-7 * unit := by nlinarith [pow_pos hu 2]
  have h5 : unit ^ 5 ≤ 1e-7 * unit := by nlinarith [pow_pos hu 3]
  ring_nf
  nlinarith

/-- The rounded density is positive where the density is. -/
theorem Within.pos_iff {e x' x : ℝ} (h : Within e x' x) (he : e < 1) : 0 < x' ↔ 0 < x := by
  obtain ⟨h0, h⟩ := h
  have := abs_le.1 h
  constructor
  · intro hx
    rcases h0.eq_or_lt with h | h
    · subst h; simp at this; linarith
    · exact h
  · intro hx
    nlinarith

/-- Rounding after a further factor. -/
theorem factor_within {fl : ℝ → ℝ} (hf : Single fl) {x' x y : ℝ} (hx : Within (5.01 * unit) x' x) (hy : 0 ≤ y) :
    Within (7.02 * unit) (fl (x' * fl y)) (x * y) := by
  have hu := unit_pos
  have hu' := unit_le
  refine ((hx.mul (by positivity) (Within.of_round hf hy)).round hf).mono ?_
  have h2 : unit ^ 2 ≤ 1e-7 * unit := by nlinarith
  have h3 : unit ^ 3 ≤ 1e-7 * unit := by nlinarith
  ring_nf
  nlinarith

/-- Division by the mass. -/
theorem mass_within {fl : ℝ → ℝ} (hf : Single fl) {x' x a : ℝ} (hx : Within (7.02 * unit) x' x) (ha : 0 < a) :
    Within (10 * unit) (fl (x' / fl a)) (x / a) := by
  have hu := unit_pos
  have hu' := unit_le
  rw [div_eq_mul_inv, div_eq_mul_inv]
  refine ((hx.mul (by positivity) (Within.inv hf ha)).round hf).mono ?_
  have h2 : unit ^ 2 ≤ 1e-7 * unit := by nlinarith
  have h3 : unit ^ 3 ≤ 1e-7 * unit := by nlinarith
  ring_nf
  nlinarith

/-! ### Spectra -/

/-- Two particles that differ in the rounding of their density, and in what does not matter for column densities. -/
def Close (p' p : Part) : Prop := p'.pos = p.pos ∧ p'.h = p.h ∧ 0 ≤ p.h ∧ Within (10 * unit) p'.dens p.dens

theorem single_close (t : Table) (lines : List Line) (L : LineAbsorption) (nbins : ℕ) {p' p : Part} (h : Close p' p) (m : ℕ) :
    Within (10 * unit) (single t lines (coldenOn L nbins) p' m) (single t lines (coldenOn L nbins) p m) := by
  obtain ⟨hpos, hh, hh0, hd0, hd⟩ := h
  have hnn : 0 ≤ single t lines (coldenOn L nbins) p m := by
    unfold single
    apply List.sum_nonneg
    intro x hx
    obtain ⟨i, -, rfl⟩ := List.mem_map.1 hx
    cases lines[i]? with
    | none => exact le_rfl
    | some l =>
      cases hfd : StdMap.find? (get_near_lines t p.pos p.h) i with
      | none => simp [hfd]
      | some d =>
        simp only [hfd, Option.elim_some]
        exact WeightMean.coldenF_nonneg _ _ _ hd0 hh0 m
  refine ⟨hnn, ?_⟩
  rcases hd0.eq_or_lt with h0 | h0
  · have hz : p'.dens = 0 := by
      rw [← h0] at hd
      simpa using hd
    rw [WeightMean.single_scale t lines L nbins p p' 1 hpos hh (by rw [hz, ← h0]; simp) m, one_mul, sub_self, abs_zero]
    exact mul_nonneg (mul_nonneg (by norm_num) unit_pos.le) hnn
  · rw [WeightMean.single_scale t lines L nbins p p' (p'.dens / p.dens) hpos hh (by field_simp) m]
    have e : p'.dens / p.dens * single t lines (coldenOn L nbins) p m - single t lines (coldenOn L nbins) p m =
        (p'.dens - p.dens) / p.dens * single t lines (coldenOn L nbins) p m := by field_simp
    rw [e, abs_mul, abs_div, abs_of_pos h0, abs_of_nonneg hnn]
    refine mul_le_mul_of_nonneg_right ?_ hnn
    rwa [div_le_iff₀ h0]

theorem sum_within {α : Type} {e : ℝ} {f g : α → ℝ} (xs : List α) (h : ∀ x ∈ xs, Within e (f x) (g x)) : Within e (xs.map f).sum (xs.map g).sum := by
  induction xs with
  | nil => exact ⟨le_rfl, by simp⟩
  | cons x xs ih =>
    obtain ⟨a0, a⟩ := h x (by simp)
    obtain ⟨b0, b⟩ := ih fun y hy => h y (by simp [hy])
    simp only [List.map_cons, List.sum_cons]
    refine ⟨add_nonneg a0 b0, ?_⟩
    rw [add_sub_add_comm, mul_add]
    exact (abs_add_le _ _).trans (add_le_add a b)

theorem colden_close {c : Config} (hc : GoodAxes c) (hk : c.L.kernel ≠ VORONOI_MESH) (hn : 0 < c.nbins) (sel : List Raw) {f' f : Raw → Part}
    (h : ∀ r ∈ sel, Close (f' r) (f r)) :
    ∃ r r', interpolate c false (sel.map f) = .ok r ∧ interpolate c false (sel.map f') = .ok r' ∧ List.Forall₂ (Within (10 * unit)) r' r := by
  have e : ∀ parts, interpolate c false parts = _ := fun parts =>
    PartInt.compute_colden_eq c.L hk hn c.box c.lines hc parts (zeros c) (by simp [zeros])
  refine ⟨_, _, e _, e _, ?_⟩
  unfold zeros
  rw [NearRounding.arrAdd_zeros, NearRounding.arrAdd_zeros, List.forall₂_map_left_iff, List.forall₂_map_right_iff, List.forall₂_same]
  intro m _
  rw [List.map_map, List.map_map]
  exact sum_within sel fun r hr => single_close _ _ _ _ (h r hr) m

theorem zeros_within (c : Config) : List.Forall₂ (Within (10 * unit)) (zeros c) (zeros c) := by
  rw [List.forall₂_same]
  intro x hx
  rw [List.eq_of_mem_replicate hx]
  exact ⟨le_rfl, by simp⟩

theorem temperature_eq {fl : ℝ → ℝ} (hf : Single fl) (h1 : fl 1 = 1) (r : Raw) : DensityRounding.temperature fl r = fl (fixTemp r.temp) := by
  have h := abs_le.1 (hf r.temp)
  unfold DensityRounding.temperature fixTemp
  by_cases ht : r.temp ≤ 0
  · rw [abs_of_nonpos ht] at h
    rw [if_pos ht, if_pos (by nlinarith), h1]
  · rw [abs_of_pos (not_le.1 ht)] at h
    rw [if_neg ht, if_neg (by nlinarith)]

/-- C126, densities: all the arithmetic on the density of a particle changes it by at most ten roundings. -/
theorem density_single {fl : ℝ → ℝ} (hf : Single fl) (h1 : fl 1 = 1) {c : Config} (hc : GoodAxes c) (hr : 0 ≤ c.rscale) (ha : 0 < c.amumass)
    (hs : GoodSpecies c.sp) {seg : List Raw} (hg : ∀ r ∈ seg, GoodGas r) :
    (ComputeSpectra.read_particle_data (tableSingle fl c) false seg = .ok none ∧ DensityRounding.read_particle_data fl c false seg = .ok none) ∨
    ∃ (sel : List Raw) (f f' : Raw → Part), ComputeSpectra.read_particle_data (tableSingle fl c) false seg = .ok (some (sel.map f)) ∧
      DensityRounding.read_particle_data fl c false seg = .ok (some (sel.map f')) ∧ ∀ r ∈ sel, Close (f' r) (f r) := by
  have hb : ∀ (x : List ℕ) (f : List ℕ → Py (Option (List Part))), (Except.ok x >>= f) = f x := fun _ _ => rfl
  have hnear : particles_near_lines (tableSingle fl c) seg = particles_near_lines c seg := by
    unfold tableSingle
    split <;> rfl
  unfold ComputeSpectra.read_particle_data DensityRounding.read_particle_data
  rw [hnear, particles_near_lines_eq hc, hb, hb]
  generalize near_lines c.box (seg.map (fun r => (r.pos, r.h))) c.lines = ind
  by_cases hi : ind.isEmpty
  · exact Or.inl ⟨by rw [if_pos hi], by rw [if_pos hi]⟩
  rw [if_neg hi, if_neg hi]
  have hsel : ∀ r ∈ ind.filterMap (fun i => seg[i]?), GoodGas r := by
    intro r hm
    obtain ⟨i, -, h⟩ := List.mem_filterMap.1 hm
    exact hg r (List.mem_of_getElem? h)
  generalize ind.filterMap (fun i => seg[i]?) = sel at hsel
  have hu := unit_pos
  unfold tableSingle
  cases hsp : c.sp with
  | HI =>
    simp only [hsp]
    exact Or.inr ⟨sel, _, _, rfl, rfl, fun r hm =>
      ⟨rfl, rfl, (hsel r hm).h, mass_within hf (factor_within hf (elem_within hf hr (hsel r hm)) (hsel r hm).nHI) ha⟩⟩
  | all =>
    simp only [hsp]
    exact Or.inr ⟨sel, _, _, rfl, rfl, fun r hm =>
      ⟨rfl, rfl, (hsel r hm).h, mass_within hf ((elem_within hf hr (hsel r hm)).mono (by linarith)) ha⟩⟩
  | Hion table => rw [hsp] at hs; exact hs.elim
  | ion table =>
    rw [hsp] at hs
    simp only [hsp]
    have hfil : sel.filter (fun r => decide (0 < elemDen { c with sp := .ion (fun d t => table (fl d) (fl t)) } r)) =
        sel.filter (fun r => decide (0 < DensityRounding.elemDen fl c r)) := by
      apply List.filter_congr
      intro r hm
      rw [decide_eq_decide]
      exact ((elem_within hf hr (hsel r hm)).pos_iff (by linarith [unit_le])).symm
    rw [hfil]
    have hsel' : ∀ r ∈ sel.filter (fun r => decide (0 < DensityRounding.elemDen fl c r)), GoodGas r := fun r hm => hsel r (List.mem_filter.1 hm).1
    generalize sel.filter (fun r => decide (0 < DensityRounding.elemDen fl c r)) = sel' at hsel'
    by_cases he : sel'.isEmpty
    · exact Or.inl ⟨by rw [if_pos he], by rw [if_pos he]⟩
    rw [if_neg he, if_neg he]
    refine Or.inr ⟨sel', _, _, rfl, rfl, fun r hm => ⟨rfl, rfl, (hsel' r hm).h, ?_⟩⟩
    change Within _ (fl (fl (DensityRounding.elemDen fl c r * fl (table (fl r.den) (DensityRounding.temperature fl r))) / fl c.amumass))
      (elemDen c r * table (fl r.den) (fl (fixTemp r.temp)) / c.amumass)
    rw [temperature_eq hf h1]
    exact mass_within hf (factor_within hf (elem_within hf hr (hsel' r hm)) (hs _ _)) ha

/-- One segment. -/
theorem segment_single {fl : ℝ → ℝ} (hf : Single fl) (h1 : fl 1 = 1) {c : Config} (hc : GoodAxes c) (hk : c.L.kernel ≠ VORONOI_MESH) (hn : 0 < c.nbins)
    (hr : 0 ≤ c.rscale) (ha : 0 < c.amumass) (hs : GoodSpecies c.sp) {seg : List Raw} (hg : ∀ r ∈ seg, GoodGas r) :
    ∃ r r', ComputeSpectra.interpolate_single_file (tableSingle fl c) false seg = .value r ∧
      DensityRounding.interpolate_single_file fl c false seg = .value r' ∧
      List.Forall₂ (Within (10 * unit)) r' r := by
  have hz : zeros (tableSingle fl c) = zeros c := by
    unfold tableSingle
    split <;> rfl
  have hint : interpolate (tableSingle fl c) = interpolate c := by
    unfold tableSingle
    split <;> rfl
  unfold ComputeSpectra.interpolate_single_file DensityRounding.interpolate_single_file
  rcases density_single hf h1 hc hr ha hs hg with ⟨e1, e2⟩ | ⟨sel, f, f', e1, e2, hcl⟩
  · rw [e1, e2]
    exact ⟨_, _, rfl, rfl, by rw [hz]; exact zeros_within c⟩
  · obtain ⟨r, r', i1, i2, h⟩ := colden_close hc hk hn sel hcl
    rw [e1, e2]
    simp only [hint, i1, i2]
    exact ⟨r, r', rfl, rfl, h⟩

theorem addArr_within {e : ℝ} {a' a b' b : List ℝ} (ha : List.Forall₂ (Within e) a' a) (hb : List.Forall₂ (Within e) b' b) :
    List.Forall₂ (Within e) (addArr a' b') (addArr a b) := by
  unfold addArr
  induction ha generalizing b' b with
  | nil => simp
  | cons h _ ih =>
    cases hb with
    | nil => simp
    | cons k hb =>
      simp only [List.zipWith_cons_cons, List.forall₂_cons]
      refine ⟨⟨add_nonneg h.1 k.1, ?_⟩, ih hb⟩
      rw [add_sub_add_comm, mul_add]
      exact (abs_add_le _ _).trans (add_le_add h.2 k.2)

/-- C126: with all arithmetic on the densities of particles in single precision, every pixel of a column density is that of exact arithmetic up to ten
roundings. -/
theorem column_single {fl : ℝ → ℝ} (hf : Single fl) (h1 : fl 1 = 1) {c : Config} (hc : GoodAxes c) (hk : c.L.kernel ≠ VORONOI_MESH) (hn : 0 < c.nbins)
    (hr : 0 ≤ c.rscale) (ha : 0 < c.amumass) (hs : GoodSpecies c.sp) {segs : List (List Raw)} (hne : segs ≠ []) (hg : ∀ seg ∈ segs, ∀ r ∈ seg, GoodGas r) :
    ∃ r r', ComputeSpectra.compute_spectra (tableSingle fl c) false segs = .value r ∧
      DensityRounding.compute_spectra fl c false segs = .value r' ∧
      List.Forall₂ (fun single exact => |single - exact| ≤ 10 * (2 : ℝ)⁻¹ ^ 24 * exact) r' r := by
  have hadd : ∀ (segs : List (List Raw)) (a' a : List ℝ), (∀ seg ∈ segs, ∀ r ∈ seg, GoodGas r) → List.Forall₂ (Within (10 * unit)) a' a →
      ∃ r r', ComputeSpectra.addSegments (tableSingle fl c) false a segs = .value r ∧ DensityRounding.addSegments fl c false a' segs = .value r' ∧
        List.Forall₂ (Within (10 * unit)) r' r := by
    intro segs
    induction segs with
    | nil => exact fun a' a _ h => ⟨a, a', rfl, rfl, h⟩
    | cons seg segs ih =>
      intro a' a hg h
      obtain ⟨r, r', e1, e2, hw⟩ := segment_single hf h1 hc hk hn hr ha hs (hg seg (by simp))
      rw [ComputeSpectra.addSegments, DensityRounding.addSegments, e1, e2]
      exact ih _ _ (fun s hs => hg s (by simp [hs])) (addArr_within h hw)
  cases segs with
  | nil => exact absurd rfl hne
  | cons seg segs =>
    obtain ⟨r, r', e1, e2, hw⟩ := segment_single hf h1 hc hk hn hr ha hs (hg seg (by simp))
    rw [ComputeSpectra.compute_spectra, DensityRounding.compute_spectra, e1, e2]
    obtain ⟨s, s', f1, f2, h⟩ := hadd segs _ _ (fun s hs => hg s (by simp [hs])) hw
    exact ⟨s, s', f1, f2, h.imp fun _ _ h => h.2⟩

/-- For elements and neutral hydrogen there is no table. -/
theorem no_table (fl : ℝ → ℝ) {c : Config} (h : c.sp = .HI ∨ c.sp = .all) : tableSingle fl c = c := by
  unfold tableSingle
  rcases h with h | h <;> rw [h]

/-! ### The hypotheses are met, and there is a difference -/

theorem roundTo_one : roundTo 24 1 = 1 := by
  have hlog : Int.log 2 |(1 : ℝ)| = 0 := by simp
  unfold roundTo
  rw [hlog]
  have : round ((1 : ℝ) * (2 : ℝ) ^ (((24 : ℕ) : ℤ) - 1 - 0)) = 8388608 := by
    rw [round_eq_iff]
    norm_num
  rw [this]
  norm_num

/-- Three particles in two files. -/
example : ∃ r r', ComputeSpectra.compute_spectra (exConfig .HI) false [[exRaw 2, exRaw 9], [exRaw 4]] = .value r ∧
    DensityRounding.compute_spectra (roundTo 24) (exConfig .HI) false [[exRaw 2, exRaw 9], [exRaw 4]] = .value r' ∧
    List.Forall₂ (fun single exact => |single - exact| ≤ 10 * (2 : ℝ)⁻¹ ^ 24 * exact) r' r := by
  have := column_single roundTo_single roundTo_one (c := exConfig .HI) (exConfig_good _).axes (exConfig_good _).kernel (exConfig_good _).nbins
    (by norm_num [exConfig]) (by norm_num [exConfig]) trivial (segs := [[exRaw 2, exRaw 9], [exRaw 4]]) (by simp) (by
      intro seg _ r hr
      have : ∃ z, r = exRaw z := by
        rename_i h
        simp only [List.mem_cons, List.not_mem_nil, or_false] at h
        rcases h with rfl | rfl
        · simp only [List.mem_cons, List.not_mem_nil, or_false] at hr
          rcases hr with rfl | rfl <;> exact ⟨_, rfl⟩
        · simp only [List.mem_cons, List.not_mem_nil, or_false] at hr
          exact ⟨_, hr⟩
      obtain ⟨z, rfl⟩ := this
      exact ⟨by norm_num [exRaw], by norm_num [exRaw], by norm_num [exRaw], by norm_num [exRaw]⟩)
  rwa [no_table (roundTo 24) (c := exConfig .HI) (Or.inl rfl)] at this

/-- Exact agreement is false: a density just above one becomes one. -/
theorem density_changes : DensityRounding.elemDen (roundTo 24) (exConfig .all) { exRaw 2 with den := 1 + (2 : ℝ)⁻¹ ^ 30 } = 1 ∧
    elemDen (exConfig .all) { exRaw 2 with den := 1 + (2 : ℝ)⁻¹ ^ 30 } ≠ 1 := by
  have h : roundTo 24 (1 + (2 : ℝ)⁻¹ ^ 30) = 1 := roundTo_single_loses
  constructor
  · simp only [DensityRounding.elemDen, exConfig, exRaw, h, roundTo_one, mul_one]
  · simp only [elemDen, exConfig, exRaw, mul_one]
    norm_num

end Verif.Props.DensityRounding
