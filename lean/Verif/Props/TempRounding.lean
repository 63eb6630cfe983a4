import Verif.Props.DensityRounding

/-!
C127: mass-weighted temperatures in single precision.
-/

namespace Verif.Props.TempRounding
open Verif Verif.Spec Verif.Props Verif.PartInt Verif.IndexTable Verif.Absorption Verif.ComputeSpectra Verif.Rounding
open Verif.Props.CellRounding (Single roundTo_single)
open Verif.Props.DensityRounding

/-! ### Particles -/

/-- Two particles that differ in the rounding of their density and temperature. -/
def CloseTemp (p' p : Part) : Prop := p'.pos = p.pos ∧ p'.h = p.h ∧ 0 ≤ p.h ∧ Within (10 * unit) p'.dens p.dens ∧ Within unit p'.temp p.temp

theorem fixTemp_nonneg (t : ℝ) : 0 ≤ fixTemp t := by
  unfold fixTemp
  split
  · exact zero_le_one
  · linarith

/-- The particles read for an average. -/
theorem read_temp {fl : ℝ → ℝ} (hf : Single fl) (h1 : fl 1 = 1) {c : Config} (hc : GoodAxes c) (hr : 0 ≤ c.rscale) (ha : 0 < c.amumass)
    (hs : GoodSpecies c.sp) {seg : List Raw} (hg : ∀ r ∈ seg, GoodGas r) :
    (ComputeSpectra.read_particle_data (tableSingle fl c) true seg = .ok none ∧ DensityRounding.read_particle_data fl c true seg = .ok none) ∨
    ∃ (sel : List Raw) (f f' : Raw → Part), ComputeSpectra.read_particle_data (tableSingle fl c) true seg = .ok (some (sel.map f)) ∧
      DensityRounding.read_particle_data fl c true seg = .ok (some (sel.map f')) ∧ ∀ r ∈ sel, CloseTemp (f' r) (f r) := by
  have hb : ∀ (x : List ℕ) (f : List ℕ → Py (Option (List Part))), (Except.ok x >>= f) = f x := fun _ _ => rfl
  have htemp : ∀ r, Within unit (DensityRounding.temperature fl r) (fixTemp r.temp) := fun r => by
    rw [temperature_eq hf h1]
    exact Within.of_round hf (fixTemp_nonneg _)
  have hnear : particles_near_lines (tableSingle fl c) seg = particles_near_lines c seg := by
    unfold tableSingle
    split <;> rfl
  unfold ComputeSpectra.read_particle_data DensityRounding.read_particle_data
  rw [hnear, particles_near_lines_eq hc, hb, hb]
  generalize near_lines c.box (seg.map (fun r => (r.pos, r.h))) c.lines = ind
  by_cases hi : ind.isEmpty
  · exact Or.inl ⟨by rw [if_pos hi], by rw [if_pos hi]⟩
  rw [if_neg hi, if_neg hi]
  have hsel : ∀ r ∈ ind.filterMap (fun i => seg[i]?), GoodGas r := by
    intro r hm
    obtain ⟨i, -, h⟩ := List.mem_filterMap.1 hm
    exact hg r (List.mem_of_getElem? h)
  generalize ind.filterMap (fun i => seg[i]?) = sel at hsel
  have hu := unit_pos
  unfold tableSingle
  cases hsp : c.sp with
  | HI =>
    simp only [hsp]
    exact Or.inr ⟨sel, _, _, rfl, rfl, fun r hm =>
      ⟨rfl, rfl, (hsel r hm).h, mass_within hf (factor_within hf (elem_within hf hr (hsel r hm)) (hsel r hm).nHI) ha, htemp r⟩⟩
  | all =>
    simp only [hsp]
    exact Or.inr ⟨sel, _, _, rfl, rfl, fun r hm =>
      ⟨rfl, rfl, (hsel r hm).h, mass_within hf ((elem_within hf hr (hsel r hm)).mono (by linarith)) ha, htemp r⟩⟩
  | Hion table => rw [hsp] at hs; exact hs.elim
  | ion table =>
    rw [hsp] at hs
    simp only [hsp]
    have hfil : sel.filter (fun r => decide (0 < elemDen { c with sp := .ion (fun d t => table (fl d) (fl t)) } r)) =
        sel.filter (fun r => decide (0 < DensityRounding.elemDen fl c r)) := by
      apply List.filter_congr
      intro r hm
      rw [decide_eq_decide]
      exact ((elem_within hf hr (hsel r hm)).pos_iff (by linarith [unit_le])).symm
    rw [hfil]
    have hsel' : ∀ r ∈ sel.filter (fun r => decide (0 < DensityRounding.elemDen fl c r)), GoodGas r := fun r hm => hsel r (List.mem_filter.1 hm).1
    generalize sel.filter (fun r => decide (0 < DensityRounding.elemDen fl c r)) = sel' at hsel'
    by_cases he : sel'.isEmpty
    · exact Or.inl ⟨by rw [if_pos he], by rw [if_pos he]⟩
    rw [if_neg he, if_neg he]
    refine Or.inr ⟨sel', _, _, rfl, rfl, fun r hm => ⟨rfl, rfl, (hsel' r hm).h, ?_, htemp r⟩⟩
    change Within _ (fl (fl (DensityRounding.elemDen fl c r * fl (table (fl r.den) (DensityRounding.temperature fl r))) / fl c.amumass))
      (elemDen c r * table (fl r.den) (fl (fixTemp r.temp)) / c.amumass)
    rw [temperature_eq hf h1]
    exact mass_within hf (factor_within hf (elem_within hf hr (hsel' r hm)) (hs _ _)) ha

/-- Density times temperature over a length. -/
theorem weight_within {fl : ℝ → ℝ} (hf : Single fl) {d' d t' t a : ℝ} (hd : Within (10 * unit) d' d) (ht : Within unit t' t) (ha : 0 < a) :
    Within (14.1 * unit) (fl (fl (d' * t') / fl a)) (d * t / a) := by
  have hu := unit_pos
  have hu' := unit_le
  rw [div_eq_mul_inv, div_eq_mul_inv]
  refine (((((hd.mul (by positivity) ht).round hf).mono (f := 12.01 * unit) ?_).mul (by positivity) (Within.inv hf ha)).round hf).mono ?_
  · have h2 : unit ^ 2 ≤ 1e-7 * unit := by nlinarith
    have h3 : unit ^ 3 ≤ 1e-7 * unit := by nlinarith
    ring_nf
    nlinarith
  · have h2 : unit ^ 2 ≤ 1e-7 * unit := by nlinarith
    have h3 : unit ^ 3 ≤ 1e-7 * unit := by nlinarith
    ring_nf
    nlinarith

/-! ### Sums -/

theorem single_within {e : ℝ} (he : 0 ≤ e) (t : Table) (lines : List Line) (L : LineAbsorption) (nbins : ℕ) {p' p : Part} (hpos : p'.pos = p.pos)
    (hh : p'.h = p.h) (hh0 : 0 ≤ p.h) (h : Within e p'.dens p.dens) (m : ℕ) :
    Within e (single t lines (coldenOn L nbins) p' m) (single t lines (coldenOn L nbins) p m) := by
  obtain ⟨hd0, hd⟩ := h
  have hnn : 0 ≤ single t lines (coldenOn L nbins) p m := by
    unfold single
    apply List.sum_nonneg
    intro x hx
    obtain ⟨i, -, rfl⟩ := List.mem_map.1 hx
    cases lines[i]? with
    | none => exact le_rfl
    | some l =>
      cases hfd : StdMap.find? (get_near_lines t p.pos p.h) i with
      | none => simp [hfd]
      | some d =>
        simp only [hfd, Option.elim_some]
        exact WeightMean.coldenF_nonneg _ _ _ hd0 hh0 m
  refine ⟨hnn, ?_⟩
  rcases hd0.eq_or_lt with h0 | h0
  · have hz : p'.dens = 0 := by
      rw [← h0] at hd
      simpa using hd
    rw [WeightMean.single_scale t lines L nbins p p' 1 hpos hh (by rw [hz, ← h0]; simp) m, one_mul, sub_self, abs_zero]
    exact mul_nonneg he hnn
  · rw [WeightMean.single_scale t lines L nbins p p' (p'.dens / p.dens) hpos hh (by field_simp) m]
    have e : p'.dens / p.dens * single t lines (coldenOn L nbins) p m - single t lines (coldenOn L nbins) p m =
        (p'.dens - p.dens) / p.dens * single t lines (coldenOn L nbins) p m := by field_simp
    rw [e, abs_mul, abs_div, abs_of_pos h0, abs_of_nonneg hnn]
    refine mul_le_mul_of_nonneg_right ?_ hnn
    rwa [div_le_iff₀ h0]

/-- What one segment adds. -/
theorem file_single {fl : ℝ → ℝ} (hf : Single fl) (h1 : fl 1 = 1) {c : Config} (hc : GoodAxes c) (hk : c.L.kernel ≠ VORONOI_MESH) (hn : 0 < c.nbins)
    (hr : 0 ≤ c.rscale) (ha : 0 < c.amumass) (hs : GoodSpecies c.sp) {phys : ℝ} (hp : 0 < phys) {seg : List Raw} (hg : ∀ r ∈ seg, GoodGas r) :
    ∃ r r', WeightMean.weighted_single_file (tableSingle fl c) phys (fun p => p.temp) seg = .value r ∧
      DensityRounding.temp_single_file fl c phys seg = .value r' ∧ List.Forall₂ (Within (14.1 * unit)) r' r := by
  have hz : zeros (tableSingle fl c) = zeros c := by
    unfold tableSingle
    split <;> rfl
  have hint : interpolate (tableSingle fl c) = interpolate c := by
    unfold tableSingle
    split <;> rfl
  unfold WeightMean.weighted_single_file DensityRounding.temp_single_file
  rcases read_temp hf h1 hc hr ha hs hg with ⟨e1, e2⟩ | ⟨sel, f, f', e1, e2, hcl⟩
  · rw [e1, e2]
    refine ⟨_, _, rfl, rfl, ?_⟩
    rw [hz, List.forall₂_same]
    intro x hx
    rw [List.eq_of_mem_replicate hx]
    exact ⟨le_rfl, by simp⟩
  · rw [e1, e2]
    have e : ∀ parts, interpolate c false parts = _ := fun parts =>
      PartInt.compute_colden_eq c.L hk hn c.box c.lines hc parts (zeros c) (by simp [zeros])
    simp only [hint, e]
    refine ⟨_, _, rfl, rfl, ?_⟩
    unfold zeros
    rw [NearRounding.arrAdd_zeros, NearRounding.arrAdd_zeros, List.forall₂_map_left_iff, List.forall₂_map_right_iff, List.forall₂_same]
    intro m _
    simp only [List.map_map]
    refine sum_within sel fun r hm => ?_
    obtain ⟨a1, a2, a3, a4, a5⟩ := hcl r hm
    exact single_within (mul_nonneg (by norm_num) unit_pos.le) _ _ _ _ (p' := { f' r with dens := fl (fl ((f' r).dens * (f' r).temp) / fl phys) })
      (p := { f r with dens := (f r).dens * (f r).temp / phys }) a1 a2 a3 (weight_within hf a4 a5 hp) m

theorem sumFiles_within {e : ℝ} {F F' : List Raw → Outcome (List ℝ)} {segs : List (List Raw)} (hne : segs ≠ [])
    (h : ∀ seg ∈ segs, ∃ r r', F seg = .value r ∧ F' seg = .value r' ∧ List.Forall₂ (Within e) r' r) :
    ∃ r r', WeightMean.sumFiles F segs = .value r ∧ WeightMean.sumFiles F' segs = .value r' ∧ List.Forall₂ (Within e) r' r := by
  have hadd : ∀ (segs : List (List Raw)) (a' a : List ℝ), (∀ seg ∈ segs, ∃ r r', F seg = .value r ∧ F' seg = .value r' ∧ List.Forall₂ (Within e) r' r) →
      List.Forall₂ (Within e) a' a →
      ∃ r r', WeightMean.addFiles F a segs = .value r ∧ WeightMean.addFiles F' a' segs = .value r' ∧ List.Forall₂ (Within e) r' r := by
    intro segs
    induction segs with
    | nil => exact fun a' a _ h => ⟨a, a', rfl, rfl, h⟩
    | cons seg segs ih =>
      intro a' a hg h
      obtain ⟨r, r', e1, e2, hw⟩ := hg seg (by simp)
      rw [WeightMean.addFiles, WeightMean.addFiles, e1, e2]
      exact ih _ _ (fun s hs => hg s (by simp [hs])) (addArr_within h hw)
  cases segs with
  | nil => exact absurd rfl hne
  | cons seg segs =>
    obtain ⟨r, r', e1, e2, hw⟩ := h seg (by simp)
    rw [WeightMean.sumFiles, WeightMean.sumFiles, e1, e2]
    exact hadd segs _ _ (fun s hs => h s (by simp [hs])) hw

/-! ### Quotients -/

theorem quotient_within {n' n d' d a : ℝ} (ha : 0 < a) (hn : Within (14.1 * unit) n' n) (hd : 0 ≤ d ∧ |d' - d| ≤ 10 * unit * d) :
    |n' / (if d' / a = 0 then 1 else d' / a) - n / (if d / a = 0 then 1 else d / a)| ≤ 25 * unit * (n / (if d / a = 0 then 1 else d / a)) := by
  obtain ⟨d0, hd⟩ := hd
  have hu := unit_pos
  have hu' := unit_le
  obtain ⟨n0, hn⟩ := hn
  rcases d0.eq_or_lt with h | h
  · subst h
    have : d' = 0 := by simpa using hd
    subst this
    simp only [zero_div, if_true, div_one]
    nlinarith
  · have hb := abs_le.1 hd
    have hd' : (1 - 10 * unit) * d ≤ d' := by linarith
    have hpos : 0 < d' := lt_of_lt_of_le (mul_pos (by linarith) h) hd'
    rw [if_neg (by positivity), if_neg (by positivity)]
    have e : n' / (d' / a) - n / (d / a) = ((n' - n) * d + n * (d - d')) / (d' * d) * a := by
      field_simp
      ring
    rw [e, abs_mul, abs_div, abs_of_pos ha, abs_of_pos (mul_pos hpos h)]
    have e2 : 25 * unit * (n / (d / a)) = 25 * unit * (n * d') / (d' * d) * a := by field_simp
    rw [e2]
    refine mul_le_mul_of_nonneg_right (div_le_div_of_nonneg_right ?_ (by positivity)) ha.le
    calc |(n' - n) * d + n * (d - d')| ≤ |n' - n| * d + n * |d' - d| := by
          refine (abs_add_le _ _).trans_eq ?_
          rw [abs_mul, abs_mul, abs_of_pos h, abs_of_nonneg n0, abs_sub_comm d d']
      _ ≤ 14.1 * unit * n * d + n * (10 * unit * d) := by gcongr
      _ = 24.1 * unit * (n * d) := by ring
      _ ≤ 25 * unit * (n * ((1 - 10 * unit) * d)) := by
          have : 0 ≤ unit * (n * d) := by positivity
          nlinarith
      _ ≤ 25 * unit * (n * d') := by gcongr

theorem divide_within {a : ℝ} (ha : 0 < a) {n' n d' d : List ℝ} (hn : List.Forall₂ (Within (14.1 * unit)) n' n)
    (hd : List.Forall₂ (fun d' d => 0 ≤ d ∧ |d' - d| ≤ 10 * unit * d) d' d) :
    List.Forall₂ (fun s e => |s - e| ≤ 25 * unit * e) (WeightMean.divide n' (d'.map (fun x => x / a))) (WeightMean.divide n (d.map (fun x => x / a))) := by
  unfold WeightMean.divide
  induction hn generalizing d' d with
  | nil => simp
  | cons h _ ih =>
    cases hd with
    | nil => simp
    | cons k hd =>
      simp only [List.map_cons, List.zipWith_cons_cons, List.forall₂_cons]
      exact ⟨quotient_within ha h k, ih hd⟩

theorem addArr_zero_right {c : Config} {r : List ℝ} (h : r.length = (zeros c).length) : addArr r (zeros c) = r := by
  unfold addArr zeros at *
  rw [List.length_replicate] at h
  rw [← h]
  clear h
  induction r with
  | nil => rfl
  | cons x r ih => simp [List.replicate_succ, ih]

/-- C127: with densities, temperatures and their products in single precision, the mass-weighted temperature of every pixel is that of exact arithmetic up to
twenty-five roundings; in particular it is 0 in the same pixels. -/
theorem temp_single {fl : ℝ → ℝ} (hf : Single fl) (h1 : fl 1 = 1) {c : Config} (hc : GoodAxes c) (hk : c.L.kernel ≠ VORONOI_MESH) (hn : 0 < c.nbins)
    (hr : 0 ≤ c.rscale) (ha : 0 < c.amumass) (hs : GoodSpecies c.sp) {phys : ℝ} (hp : 0 < phys) {segs : List (List Raw)} (hne : segs ≠ [])
    (hg : ∀ seg ∈ segs, ∀ r ∈ seg, GoodGas r) :
    ∃ T T', WeightMean.get_temp .hdf5 (tableSingle fl c) phys segs [segs] = .value T ∧ DensityRounding.get_temp fl c phys segs = .value T' ∧
      List.Forall₂ (fun single exact => |single - exact| ≤ 25 * (2 : ℝ)⁻¹ ^ 24 * exact) T' T := by
  obtain ⟨n, n', a1, a2, a3⟩ := sumFiles_within hne fun seg hseg => file_single hf h1 hc hk hn hr ha hs hp (hg seg hseg)
  obtain ⟨d, d', b1, b2, b3⟩ := column_single hf h1 hc hk hn hr ha hs hne hg
  have hgood : GoodConfig (tableSingle fl c) := by
    unfold tableSingle
    split
    · exact ⟨hn, hc, hk⟩
    · exact ⟨hn, hc, hk⟩
  have hT : TempRead false (tableSingle fl c).sp := by
    unfold tableSingle
    cases hsp : c.sp with
    | HI => simp only [hsp]; trivial
    | all => simp only [hsp]; trivial
    | ion table => simp only; trivial
    | Hion table => rw [hsp] at hs; exact hs.elim
  have hlen : d.length = (zeros (tableSingle fl c)).length := by
    rw [compute_spectra_eq hgood false hT segs hne] at b1
    cases b1
    simp
  have hmpi : compute_spectra_mpi (tableSingle fl c) false [segs] = .value d := by
    simp only [compute_spectra_mpi, b1]
    rw [addArr_zero_right hlen]
  refine ⟨_, _, ?_, ?_, divide_within hp a3 (b3.imp fun x' x h => ⟨?_, h⟩)⟩
  · unfold WeightMean.get_temp WeightMean.mass_weight
    simp only [WeightMean.countSegments, a1, hmpi]
  · unfold DensityRounding.get_temp
    simp only [a2, b2]
  · have h0 := (abs_nonneg _).trans h
    by_contra hneg
    have : 10 * (2 : ℝ)⁻¹ ^ 24 * x < 0 := mul_neg_of_pos_of_neg (by positivity) (not_le.1 hneg)
    linarith

/-- Three particles in two files. -/
example : ∃ T T', WeightMean.get_temp .hdf5 (exConfig .HI) 2 [[exRaw 2, exRaw 9], [exRaw 4]] [[[exRaw 2, exRaw 9], [exRaw 4]]] = .value T ∧
    DensityRounding.get_temp (roundTo 24) (exConfig .HI) 2 [[exRaw 2, exRaw 9], [exRaw 4]] = .value T' ∧
    List.Forall₂ (fun single exact => |single - exact| ≤ 25 * (2 : ℝ)⁻¹ ^ 24 * exact) T' T := by
  have := temp_single roundTo_single roundTo_one (c := exConfig .HI) (exConfig_good _).axes (exConfig_good _).kernel (exConfig_good _).nbins
    (by norm_num [exConfig]) (by norm_num [exConfig]) trivial (phys := 2) (by norm_num) (segs := [[exRaw 2, exRaw 9], [exRaw 4]]) (by simp) (by
      intro seg h r hr
      have : ∃ z, r = exRaw z := by
        simp only [List.mem_cons, List.not_mem_nil, or_false] at h
        rcases h with rfl | rfl
        · simp only [List.mem_cons, List.not_mem_nil, or_false] at hr
          rcases hr with rfl | rfl <;> exact ⟨_, rfl⟩
        · simp only [List.mem_cons, List.not_mem_nil, or_false] at hr
          exact ⟨_, hr⟩
      obtain ⟨z, rfl⟩ := this
      exact ⟨by norm_num [exRaw], by norm_num [exRaw], by norm_num [exRaw], by norm_num [exRaw]⟩)
  rwa [no_table (roundTo 24) (c := exConfig .HI) (Or.inl rfl)] at this

end Verif.Props.TempRounding
