import Verif.Props.TempRounding

/-!
C128: density-weighted densities in single precision.
-/

namespace Verif.Props.DensWeightRounding
open Verif Verif.Spec Verif.Props Verif.PartInt Verif.IndexTable Verif.Absorption Verif.ComputeSpectra Verif.Rounding
open Verif.Props.CellRounding (Single roundTo_single)
open Verif.Props.DensityRounding Verif.Props.TempRounding

/-- Both computations return arrays that agree up to a fraction `e`, or both raise the same exception. -/
def Agree (e : ℝ) (single exact : Outcome (List ℝ)) : Prop :=
  (∃ r' r, single = .value r' ∧ exact = .value r ∧ List.Forall₂ (Within e) r' r) ∨ ∃ x, single = .raised x ∧ exact = .raised x

/-- The quotient of a density by a number, rounded. -/
theorem over_within {fl : ℝ → ℝ} (hf : Single fl) {d' d a : ℝ} (hd : Within (10 * unit) d' d) (ha : 0 < a) :
    Within (12.1 * unit) (fl (d' / fl a)) (d / a) := by
  have hu := unit_pos
  have hu' := unit_le
  rw [div_eq_mul_inv, div_eq_mul_inv]
  refine ((hd.mul (by positivity) (Within.inv hf ha)).round hf).mono ?_
  have h2 : unit ^ 2 ≤ 1e-7 * unit := by nlinarith
  have h3 : unit ^ 3 ≤ 1e-7 * unit := by nlinarith
  ring_nf
  nlinarith

theorem product_within {fl : ℝ → ℝ} (hf : Single fl) {d' d g' g a b : ℝ} (hd : Within (10 * unit) d' d) (hg : Within (10 * unit) g' g) (ha : 0 < a) (hb : 0 < b) :
    Within (25.5 * unit) (fl (fl (d' / fl a) * fl (g' / fl b))) (d / a * (g / b)) := by
  have hu := unit_pos
  have hu' := unit_le
  refine (((over_within hf hd ha).mul (by positivity) (over_within hf hg hb)).round hf).mono ?_
  have h2 : unit ^ 2 ≤ 1e-7 * unit := by nlinarith
  have h3 : unit ^ 3 ≤ 1e-7 * unit := by nlinarith
  ring_nf
  nlinarith

/-- What one segment adds. -/
theorem densweight_file {fl : ℝ → ℝ} (hf : Single fl) (h1 : fl 1 = 1) {c : Config} (hc : GoodAxes c) (hk : c.L.kernel ≠ VORONOI_MESH) (hn : 0 < c.nbins)
    (hr : 0 < c.rscale) (ha : 0 < c.amumass) (hs : GoodSpecies c.sp) {phys : ℝ} (hp : 0 < phys) {seg : List Raw} (hg : ∀ r ∈ seg, GoodGas r) :
    Agree (25.5 * unit) (DensityRounding.densweight_single_file fl c phys seg) (WeightMean.densweight_single_file (tableSingle fl c) phys seg) := by
  have hz : zeros (tableSingle fl c) = zeros c := by
    unfold tableSingle
    split <;> rfl
  have hint : interpolate (tableSingle fl c) = interpolate c := by
    unfold tableSingle
    split <;> rfl
  have hrs : (tableSingle fl c).rscale = c.rscale := by
    unfold tableSingle
    split <;> rfl
  have hall : { tableSingle fl c with sp := .all } = tableSingle fl { c with sp := .all } := by
    unfold tableSingle
    cases c.sp <;> rfl
  unfold WeightMean.densweight_single_file DensityRounding.densweight_single_file
  rw [hall]
  rcases read_temp hf h1 hc hr.le ha hs hg with ⟨e1, e2⟩ | ⟨sel, f, f', e1, e2, hcl⟩
  · rw [e1, e2]
    refine Or.inl ⟨_, _, rfl, rfl, ?_⟩
    rw [hz, List.forall₂_same]
    intro x hx
    rw [List.eq_of_mem_replicate hx]
    exact ⟨le_rfl, by simp⟩
  · rw [e1, e2]
    rcases read_temp (c := { c with sp := .all }) hf h1 hc hr.le ha trivial hg with ⟨i1, i2⟩ | ⟨sel2, g, g', i1, i2, hcl2⟩
    · rw [i1, i2]
      exact Or.inr ⟨_, rfl, rfl⟩
    · rw [i1, i2]
      simp only [List.length_map]
      by_cases hl : sel.length = sel2.length
      · rw [if_pos hl, if_pos hl]
        have e : ∀ parts, interpolate c false parts = _ := fun parts =>
          PartInt.compute_colden_eq c.L hk hn c.box c.lines hc parts (zeros c) (by simp [zeros])
        simp only [hint, hrs, e]
        refine Or.inl ⟨_, _, rfl, rfl, ?_⟩
        unfold zeros
        rw [NearRounding.arrAdd_zeros, NearRounding.arrAdd_zeros, List.forall₂_map_left_iff, List.forall₂_map_right_iff, List.forall₂_same]
        intro m _
        have hzip : ∀ (F : Part → Part → Part) (u v : Raw → Part),
            List.zipWith F (sel.map u) (sel2.map v) = (sel.zip sel2).map (fun x => F (u x.1) (v x.2)) := by
          intro F u v
          rw [List.zipWith_map, List.zip, List.map_zipWith]
        rw [hzip, hzip, List.map_map, List.map_map]
        refine sum_within _ fun x hx => ?_
        obtain ⟨a1, a2, a3, a4, -⟩ := hcl x.1 (List.of_mem_zip hx).1
        obtain ⟨-, -, -, b4, -⟩ := hcl2 x.2 (List.of_mem_zip hx).2
        exact single_within (mul_nonneg (by norm_num) unit_pos.le) _ _ _ _
          (p' := { f' x.1 with dens := fl (fl ((f' x.1).dens / fl phys) * fl ((g' x.2).dens / fl c.rscale)) })
          (p := { f x.1 with dens := (f x.1).dens / phys * ((g x.2).dens / c.rscale) }) a1 a2 a3 (product_within hf a4 b4 hp hr) m
      · rw [if_neg hl, if_neg hl]
        exact Or.inr ⟨_, rfl, rfl⟩

theorem sumFiles_agree {e : ℝ} {F F' : List Raw → Outcome (List ℝ)} {segs : List (List Raw)} (hne : segs ≠ [])
    (h : ∀ seg ∈ segs, Agree e (F' seg) (F seg)) : Agree e (WeightMean.sumFiles F' segs) (WeightMean.sumFiles F segs) := by
  have hadd : ∀ (segs : List (List Raw)) (a' a : List ℝ), (∀ seg ∈ segs, Agree e (F' seg) (F seg)) → List.Forall₂ (Within e) a' a →
      Agree e (WeightMean.addFiles F' a' segs) (WeightMean.addFiles F a segs) := by
    intro segs
    induction segs with
    | nil => exact fun a' a _ h => Or.inl ⟨a', a, rfl, rfl, h⟩
    | cons seg segs ih =>
      intro a' a hg h
      rw [WeightMean.addFiles, WeightMean.addFiles]
      rcases hg seg (by simp) with ⟨r', r, e1, e2, hw⟩ | ⟨x, e1, e2⟩
      · rw [e1, e2]
        exact ih _ _ (fun s hs => hg s (by simp [hs])) (addArr_within h hw)
      · rw [e1, e2]
        exact Or.inr ⟨x, rfl, rfl⟩
  cases segs with
  | nil => exact absurd rfl hne
  | cons seg segs =>
    rw [WeightMean.sumFiles, WeightMean.sumFiles]
    rcases h seg (by simp) with ⟨r', r, e1, e2, hw⟩ | ⟨x, e1, e2⟩
    · rw [e1, e2]
      exact hadd segs _ _ (fun s hs => h s (by simp [hs])) hw
    · rw [e1, e2]
      exact Or.inr ⟨x, rfl, rfl⟩

theorem ratio_within {n' n d' d a : ℝ} (ha : 0 < a) (hn : Within (25.5 * unit) n' n) (hd : Within (10 * unit) d' d) :
    Within (36 * unit) (n' / (if d' / a = 0 then 1 else d' / a)) (n / (if d / a = 0 then 1 else d / a)) := by
  obtain ⟨d0, hd⟩ := hd
  have hu := unit_pos
  have hu' := unit_le
  obtain ⟨n0, hn⟩ := hn
  refine ⟨by split <;> positivity, ?_⟩
  rcases d0.eq_or_lt with h | h
  · subst h
    have : d' = 0 := by simpa using hd
    subst this
    simp only [zero_div, if_true, div_one]
    nlinarith
  · have hb := abs_le.1 hd
    have hd' : (1 - 10 * unit) * d ≤ d' := by linarith
    have hpos : 0 < d' := lt_of_lt_of_le (mul_pos (by linarith) h) hd'
    rw [if_neg (by positivity), if_neg (by positivity)]
    have e : n' / (d' / a) - n / (d / a) = ((n' - n) * d + n * (d - d')) / (d' * d) * a := by
      field_simp
      ring
    rw [e, abs_mul, abs_div, abs_of_pos ha, abs_of_pos (mul_pos hpos h)]
    have e2 : 36 * unit * (n / (d / a)) = 36 * unit * (n * d') / (d' * d) * a := by field_simp
    rw [e2]
    refine mul_le_mul_of_nonneg_right (div_le_div_of_nonneg_right ?_ (by positivity)) ha.le
    calc |(n' - n) * d + n * (d - d')| ≤ |n' - n| * d + n * |d' - d| := by
          refine (abs_add_le _ _).trans_eq ?_
          rw [abs_mul, abs_mul, abs_of_pos h, abs_of_nonneg n0, abs_sub_comm d d']
      _ ≤ 25.5 * unit * n * d + n * (10 * unit * d) := by gcongr
      _ = 35.5 * unit * (n * d) := by ring
      _ ≤ 36 * unit * (n * ((1 - 10 * unit) * d)) := by
          have : 0 ≤ unit * (n * d) := by positivity
          nlinarith
      _ ≤ 36 * unit * (n * d') := by gcongr

theorem divide_ratio {a : ℝ} (ha : 0 < a) {n' n d' d : List ℝ} (hn : List.Forall₂ (Within (25.5 * unit)) n' n) (hd : List.Forall₂ (Within (10 * unit)) d' d) :
    List.Forall₂ (Within (36 * unit)) (WeightMean.divide n' (d'.map (fun x => x / a))) (WeightMean.divide n (d.map (fun x => x / a))) := by
  unfold WeightMean.divide
  induction hn generalizing d' d with
  | nil => simp
  | cons h _ ih =>
    cases hd with
    | nil => simp
    | cons k hd =>
      simp only [List.map_cons, List.zipWith_cons_cons, List.forall₂_cons]
      exact ⟨ratio_within ha h k, ih hd⟩

/-- C128: with all densities and their products in single precision, the density-weighted density of every pixel is that of exact arithmetic up to thirty-six
roundings, and if one of the computations raises an exception so does the other. -/
theorem density_weighted_single {fl : ℝ → ℝ} (hf : Single fl) (h1 : fl 1 = 1) {c : Config} (hc : GoodAxes c) (hk : c.L.kernel ≠ VORONOI_MESH)
    (hn : 0 < c.nbins) (hr : 0 < c.rscale) (ha : 0 < c.amumass) (hs : GoodSpecies c.sp) {phys : ℝ} (hp : 0 < phys) {segs : List (List Raw)} (hne : segs ≠ [])
    (hg : ∀ seg ∈ segs, ∀ r ∈ seg, GoodGas r) :
    (∃ D D', WeightMean.get_dens_weighted_density .hdf5 (tableSingle fl c) phys segs [segs] = .value D ∧
      DensityRounding.get_dens_weighted_density fl c phys segs = .value D' ∧
      List.Forall₂ (fun single exact => |single - exact| ≤ 36 * (2 : ℝ)⁻¹ ^ 24 * exact) D' D) ∨
    ∃ e, WeightMean.get_dens_weighted_density .hdf5 (tableSingle fl c) phys segs [segs] = .raised e ∧
      DensityRounding.get_dens_weighted_density fl c phys segs = .raised e := by
  obtain ⟨d, d', b1, b2, b3⟩ := column_single hf h1 hc hk hn hr.le ha hs hne hg
  have hgood : GoodConfig (tableSingle fl c) := by
    unfold tableSingle
    split
    · exact ⟨hn, hc, hk⟩
    · exact ⟨hn, hc, hk⟩
  have hT : TempRead false (tableSingle fl c).sp := by
    unfold tableSingle
    cases hsp : c.sp with
    | HI => simp only [hsp]; trivial
    | all => simp only [hsp]; trivial
    | ion table => simp only; trivial
    | Hion table => rw [hsp] at hs; exact hs.elim
  have hlen : d.length = (zeros (tableSingle fl c)).length := by
    rw [compute_spectra_eq hgood false hT segs hne] at b1
    cases b1
    simp
  have hmpi : compute_spectra_mpi (tableSingle fl c) false [segs] = .value d := by
    simp only [compute_spectra_mpi, b1]
    rw [addArr_zero_right hlen]
  have hd : List.Forall₂ (Within (10 * unit)) d' d := b3.imp fun x' x h => ⟨by
    have h0 := (abs_nonneg _).trans h
    by_contra hneg
    have : 10 * (2 : ℝ)⁻¹ ^ 24 * x < 0 := mul_neg_of_pos_of_neg (by positivity) (not_le.1 hneg)
    linarith, h⟩
  unfold WeightMean.get_dens_weighted_density WeightMean.mass_weight DensityRounding.get_dens_weighted_density
  rcases sumFiles_agree hne fun seg hseg => densweight_file hf h1 hc hk hn hr ha hs hp (hg seg hseg) with ⟨n', n, a2, a1, a3⟩ | ⟨x, a2, a1⟩
  · refine Or.inl ⟨_, _, ?_, ?_, (divide_ratio hp a3 hd).imp fun _ _ h => h.2⟩
    · simp only [WeightMean.countSegments, a1, hmpi]
    · simp only [a2, b2]
  · exact Or.inr ⟨x, by simp only [WeightMean.countSegments, a1], by simp only [a2]⟩

/-- For neutral hydrogen there is no exception: both computations read the same particles twice. -/
theorem density_weighted_HI {fl : ℝ → ℝ} (hf : Single fl) (h1 : fl 1 = 1) {c : Config} (hc : GoodAxes c) (hk : c.L.kernel ≠ VORONOI_MESH)
    (hn : 0 < c.nbins) (hr : 0 < c.rscale) (ha : 0 < c.amumass) (hs : c.sp = .HI ∨ c.sp = .all) {phys : ℝ} (hp : 0 < phys) {segs : List (List Raw)} (hne : segs ≠ [])
    (hg : ∀ seg ∈ segs, ∀ r ∈ seg, GoodGas r) :
    ∃ D D', WeightMean.get_dens_weighted_density .hdf5 c phys segs [segs] = .value D ∧
      DensityRounding.get_dens_weighted_density fl c phys segs = .value D' ∧
      List.Forall₂ (fun single exact => |single - exact| ≤ 36 * (2 : ℝ)⁻¹ ^ 24 * exact) D' D := by
  have hgs : GoodSpecies c.sp := by rcases hs with h | h <;> rw [h] <;> trivial
  have key := density_weighted_single hf h1 hc hk hn hr ha hgs hp hne hg
  rw [no_table fl hs] at key
  rcases key with h | ⟨x, -, h⟩
  · exact h
  exfalso
  have hb : ∀ (x : List ℕ) (f : List ℕ → Py (Option (List Part))), (Except.ok x >>= f) = f x := fun _ _ => rfl
  have hfile : ∀ seg ∈ segs, ∃ r, DensityRounding.densweight_single_file fl c phys seg = .value r := by
    intro seg _
    have e : ∀ parts, interpolate c false parts = _ := fun parts =>
      PartInt.compute_colden_eq c.L hk hn c.box c.lines hc parts (zeros c) (by simp [zeros])
    have hnear : particles_near_lines { c with sp := .all } seg = particles_near_lines c seg := rfl
    unfold DensityRounding.densweight_single_file DensityRounding.read_particle_data
    rw [hnear, particles_near_lines_eq hc, hb, hb]
    by_cases hi : (near_lines c.box (seg.map (fun r => (r.pos, r.h))) c.lines).isEmpty
    · rw [if_pos hi]
      exact ⟨_, rfl⟩
    · rw [if_neg hi, if_neg hi]
      rcases hs with h | h
      · simp only [h, List.length_map, if_true, e]
        exact ⟨_, rfl⟩
      · simp only [h, List.length_map, if_true, e]
        exact ⟨_, rfl⟩
  have hadd : ∀ (l : List (List Raw)) (a : List ℝ), (∀ seg ∈ l, ∃ r, DensityRounding.densweight_single_file fl c phys seg = .value r) →
      ∃ r, WeightMean.addFiles (DensityRounding.densweight_single_file fl c phys) a l = .value r := by
    intro l
    induction l with
    | nil => exact fun a _ => ⟨a, rfl⟩
    | cons s l ih =>
      intro a hl
      obtain ⟨r, hr⟩ := hl s (by simp)
      rw [WeightMean.addFiles, hr]
      exact ih _ fun t ht => hl t (by simp [ht])
  have hsum : ∃ r, WeightMean.sumFiles (DensityRounding.densweight_single_file fl c phys) segs = .value r := by
    cases segs with
    | nil => exact absurd rfl hne
    | cons s l =>
      obtain ⟨r, hr⟩ := hfile s (by simp)
      rw [WeightMean.sumFiles, hr]
      exact hadd _ _ fun t ht => hfile t (by simp [ht])
  obtain ⟨r, hr'⟩ := hsum
  obtain ⟨d, d', b1, b2, b3⟩ := column_single hf h1 hc hk hn hr.le ha hgs hne hg
  unfold DensityRounding.get_dens_weighted_density at h
  simp only [hr', b2] at h
  cases h

/-- Three particles in two files. -/
example : ∃ D D', WeightMean.get_dens_weighted_density .hdf5 (exConfig .HI) 2 [[exRaw 2, exRaw 9], [exRaw 4]] [[[exRaw 2, exRaw 9], [exRaw 4]]] = .value D ∧
    DensityRounding.get_dens_weighted_density (roundTo 24) (exConfig .HI) 2 [[exRaw 2, exRaw 9], [exRaw 4]] = .value D' ∧
    List.Forall₂ (fun single exact => |single - exact| ≤ 36 * (2 : ℝ)⁻¹ ^ 24 * exact) D' D :=
  density_weighted_HI roundTo_single roundTo_one (c := exConfig .HI) (exConfig_good _).axes (exConfig_good _).kernel (exConfig_good _).nbins
    (by norm_num [exConfig]) (by norm_num [exConfig]) (Or.inl rfl) (phys := 2) (by norm_num) (segs := [[exRaw 2, exRaw 9], [exRaw 4]]) (by simp) (by
      intro seg h r hr
      have : ∃ z, r = exRaw z := by
        simp only [List.mem_cons, List.not_mem_nil, or_false] at h
        rcases h with rfl | rfl
        · simp only [List.mem_cons, List.not_mem_nil, or_false] at hr
          rcases hr with rfl | rfl <;> exact ⟨_, rfl⟩
        · simp only [List.mem_cons, List.not_mem_nil, or_false] at hr
          exact ⟨_, hr⟩
      obtain ⟨z, rfl⟩ := this
      exact ⟨by norm_num [exRaw], by norm_num [exRaw], by norm_num [exRaw], by norm_num [exRaw]⟩)

end Verif.Props.DensWeightRounding
