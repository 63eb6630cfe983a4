import Verif.Props.TempRounding

/-!
C130: mass-weighted velocities in single precision.
-/

namespace Verif.Props.VelRounding
open Verif Verif.Spec Verif.Props Verif.PartInt Verif.IndexTable Verif.Absorption Verif.ComputeSpectra Verif.Rounding
open Verif.Props.CellRounding (Single roundTo_single)
open Verif.Props.DensityRounding Verif.Props.TempRounding

/-! ### Numbers with a sign -/

/-- `x'` is `x` up to a fraction `e`. -/
def Near' (e x' x : ℝ) : Prop := |x' - x| ≤ e * |x|

theorem Near'.of_within {e x' x : ℝ} (h : Within e x' x) : Near' e x' x := by
  unfold Near'
  rw [abs_of_nonneg h.1]
  exact h.2

theorem Near'.mul {e f x' x y' y : ℝ} (he : 0 ≤ e) (hx : Near' e x' x) (hy : Near' f y' y) : Near' (e + f + e * f) (x' * y') (x * y) := by
  unfold Near' at *
  have hx' : |x'| ≤ |x| + e * |x| := by
    have h1 := abs_sub_abs_le_abs_sub x' x
    linarith
  calc |x' * y' - x * y| = |x' * (y' - y) + (x' - x) * y| := by ring_nf
    _ ≤ |x'| * |y' - y| + |x' - x| * |y| := by
      rw [← abs_mul, ← abs_mul]
      exact abs_add_le _ _
    _ ≤ (|x| + e * |x|) * (f * |y|) + e * |x| * |y| := by gcongr
    _ = _ := by rw [abs_mul]; ring

theorem Near'.round {fl : ℝ → ℝ} (hf : Single fl) {e x' x : ℝ} (hx : Near' e x' x) : Near' (e + unit + e * unit) (fl x') x := by
  unfold Near' at *
  have hx' : |x'| ≤ |x| + e * |x| := by
    have h1 := abs_sub_abs_le_abs_sub x' x
    linarith
  have h1 := hf x'
  have hu : 0 ≤ unit := unit_pos.le
  calc |fl x' - x| ≤ |fl x' - x'| + |x' - x| := abs_sub_le _ _ _
    _ ≤ unit * (|x| + e * |x|) + e * |x| := by
      refine add_le_add (h1.trans ?_) hx
      exact mul_le_mul_of_nonneg_left hx' hu
    _ = _ := by ring

theorem Near'.mono {e f x' x : ℝ} (h : Near' e x' x) (hef : e ≤ f) : Near' f x' x :=
  h.trans (mul_le_mul_of_nonneg_right hef (abs_nonneg x))

theorem vel_within {fl : ℝ → ℝ} (hf : Single fl) {d' d v s a : ℝ} (hd : Within (10 * unit) d' d) (ha : 0 < a) :
    Near' (16.1 * unit) (fl (fl (d' * fl (fl v * fl s)) / fl a)) (d * (v * s) / a) := by
  have hu := unit_pos
  have hu' := unit_le
  have h2 : unit ^ 2 ≤ 1e-7 * unit := by nlinarith
  have h3 : unit ^ 3 ≤ 1e-7 * unit := by nlinarith
  have hv : Near' unit (fl v) v := hf v
  have hs : Near' unit (fl s) s := hf s
  have h1 : Near' (3.01 * unit) (fl (fl v * fl s)) (v * s) := by
    refine ((hv.mul hu.le hs).round hf).mono ?_
    ring_nf
    nlinarith
  have h4 : Near' (14.02 * unit) (fl (d' * fl (fl v * fl s))) (d * (v * s)) := by
    refine (((Near'.of_within hd).mul (by positivity) h1).round hf).mono ?_
    ring_nf
    nlinarith
  rw [div_eq_mul_inv, div_eq_mul_inv]
  refine ((h4.mul (by positivity) (Near'.of_within (Within.inv hf ha))).round hf).mono ?_
  ring_nf
  nlinarith

/-! ### Particles -/

/-- Two particles that differ in the rounding of their density and velocity. -/
def CloseVel (fl : ℝ → ℝ) (p' p : Part) : Prop :=
  p'.pos = p.pos ∧ p'.h = p.h ∧ 0 ≤ p.h ∧ Within (10 * unit) p'.dens p.dens ∧ ∀ k, p'.vel k = fl (p.vel k)

/-- The particles read for an average. -/
theorem read_vel {fl : ℝ → ℝ} (hf : Single fl) (h1 : fl 1 = 1) {c : Config} (hc : GoodAxes c) (hr : 0 ≤ c.rscale) (ha : 0 < c.amumass)
    (hs : GoodSpecies c.sp) {seg : List Raw} (hg : ∀ r ∈ seg, GoodGas r) :
    (ComputeSpectra.read_particle_data (tableSingle fl c) true seg = .ok none ∧ DensityRounding.read_particle_data fl c true seg = .ok none) ∨
    ∃ (sel : List Raw) (f f' : Raw → Part), ComputeSpectra.read_particle_data (tableSingle fl c) true seg = .ok (some (sel.map f)) ∧
      DensityRounding.read_particle_data fl c true seg = .ok (some (sel.map f')) ∧ ∀ r ∈ sel, CloseVel fl (f' r) (f r) := by
  have hb : ∀ (x : List ℕ) (f : List ℕ → Py (Option (List Part))), (Except.ok x >>= f) = f x := fun _ _ => rfl
  have hnear : particles_near_lines (tableSingle fl c) seg = particles_near_lines c seg := by
    unfold tableSingle
    split <;> rfl
  unfold ComputeSpectra.read_particle_data DensityRounding.read_particle_data
  rw [hnear, particles_near_lines_eq hc, hb, hb]
  generalize near_lines c.box (seg.map (fun r => (r.pos, r.h))) c.lines = ind
  by_cases hi : ind.isEmpty
  · exact Or.inl ⟨by rw [if_pos hi], by rw [if_pos hi]⟩
  rw [if_neg hi, if_neg hi]
  have hsel : ∀ r ∈ ind.filterMap (fun i => seg[i]?), GoodGas r := by
    intro r hm
    obtain ⟨i, -, h⟩ := List.mem_filterMap.1 hm
    exact hg r (List.mem_of_getElem? h)
  generalize ind.filterMap (fun i => seg[i]?) = sel at hsel
  have hu := unit_pos
  unfold tableSingle
  cases hsp : c.sp with
  | HI =>
    simp only [hsp]
    exact Or.inr ⟨sel, _, _, rfl, rfl, fun r hm =>
      ⟨rfl, rfl, (hsel r hm).h, mass_within hf (factor_within hf (elem_within hf hr (hsel r hm)) (hsel r hm).nHI) ha, fun _ => rfl⟩⟩
  | all =>
    simp only [hsp]
    exact Or.inr ⟨sel, _, _, rfl, rfl, fun r hm =>
      ⟨rfl, rfl, (hsel r hm).h, mass_within hf ((elem_within hf hr (hsel r hm)).mono (by linarith)) ha, fun _ => rfl⟩⟩
  | Hion table => rw [hsp] at hs; exact hs.elim
  | ion table =>
    rw [hsp] at hs
    simp only [hsp]
    have hfil : sel.filter (fun r => decide (0 < elemDen { c with sp := .ion (fun d t => table (fl d) (fl t)) } r)) =
        sel.filter (fun r => decide (0 < DensityRounding.elemDen fl c r)) := by
      apply List.filter_congr
      intro r hm
      rw [decide_eq_decide]
      exact ((elem_within hf hr (hsel r hm)).pos_iff (by linarith [unit_le])).symm
    rw [hfil]
    have hsel' : ∀ r ∈ sel.filter (fun r => decide (0 < DensityRounding.elemDen fl c r)), GoodGas r := fun r hm => hsel r (List.mem_filter.1 hm).1
    generalize sel.filter (fun r => decide (0 < DensityRounding.elemDen fl c r)) = sel' at hsel'
    by_cases he : sel'.isEmpty
    · exact Or.inl ⟨by rw [if_pos he], by rw [if_pos he]⟩
    rw [if_neg he, if_neg he]
    refine Or.inr ⟨sel', _, _, rfl, rfl, fun r hm => ⟨rfl, rfl, (hsel' r hm).h, ?_, fun _ => rfl⟩⟩
    change Within _ (fl (fl (DensityRounding.elemDen fl c r * fl (table (fl r.den) (DensityRounding.temperature fl r))) / fl c.amumass))
      (elemDen c r * table (fl r.den) (fl (fixTemp r.temp)) / c.amumass)
    rw [temperature_eq hf h1]
    exact mass_within hf (factor_within hf (elem_within hf hr (hsel' r hm)) (hs _ _)) ha

/-! ### Arrays -/

/-- Arrays of the same length, the first two of which differ by at most a fraction `e` of the third, which bounds the second. -/
def Tri (e : ℝ) (l' l a : List ℝ) : Prop :=
  l'.length = a.length ∧ l.length = a.length ∧ ∀ m, |l'.getD m 0 - l.getD m 0| ≤ e * a.getD m 0 ∧ |l.getD m 0| ≤ a.getD m 0

theorem addArr_getD {a b : List ℝ} (h : a.length = b.length) (m : ℕ) : (addArr a b).getD m 0 = a.getD m 0 + b.getD m 0 := by
  unfold addArr
  simp only [List.getD_eq_getElem?_getD, List.getElem?_zipWith]
  by_cases hm : m < a.length
  · rw [List.getElem?_eq_getElem hm, List.getElem?_eq_getElem (h ▸ hm)]
    rfl
  · rw [List.getElem?_eq_none (by omega), List.getElem?_eq_none (by omega)]
    simp

theorem Tri.add {e : ℝ} {l' l a k' k b : List ℝ} (h : Tri e l' l a) (g : Tri e k' k b) (hab : a.length = b.length) :
    Tri e (addArr l' k') (addArr l k) (addArr a b) := by
  obtain ⟨h1, h2, h3⟩ := h
  obtain ⟨g1, g2, g3⟩ := g
  refine ⟨by simp [addArr]; omega, by simp [addArr]; omega, fun m => ?_⟩
  rw [addArr_getD (by omega), addArr_getD (by omega), addArr_getD hab]
  constructor
  · rw [add_sub_add_comm, mul_add]
    exact (abs_add_le _ _).trans (add_le_add (h3 m).1 (g3 m).1)
  · exact (abs_add_le _ _).trans (add_le_add (h3 m).2 (g3 m).2)

theorem map_tri {e : ℝ} (n : ℕ) {f' f g : ℕ → ℝ} (h : ∀ m, |f' m - f m| ≤ e * g m ∧ |f m| ≤ g m) :
    Tri e ((List.range n).map f') ((List.range n).map f) ((List.range n).map g) := by
  refine ⟨by simp, by simp, fun m => ?_⟩
  by_cases hm : m < n
  · simpa [List.getD_eq_getElem?_getD, List.getElem?_map, List.getElem?_range hm] using h m
  · simp [List.getD_eq_getElem?_getD, hm]

theorem sum_tri {α : Type} {e : ℝ} {f' f g : α → ℝ} (xs : List α) (h : ∀ x ∈ xs, |f' x - f x| ≤ e * g x ∧ |f x| ≤ g x) :
    |(xs.map f').sum - (xs.map f).sum| ≤ e * (xs.map g).sum ∧ |(xs.map f).sum| ≤ (xs.map g).sum := by
  induction xs with
  | nil => simp
  | cons x xs ih =>
    obtain ⟨a, b⟩ := h x (by simp)
    obtain ⟨p, q⟩ := ih fun y hy => h y (by simp [hy])
    simp only [List.map_cons, List.sum_cons]
    constructor
    · rw [add_sub_add_comm, mul_add]
      exact (abs_add_le _ _).trans (add_le_add a p)
    · exact (abs_add_le _ _).trans (add_le_add b q)

/-- What a particle of density one would add is not negative. -/
theorem single_unit_nonneg (t : Table) (lines : List Line) (L : LineAbsorption) (nbins : ℕ) (p : Part) (hh : 0 ≤ p.h) (m : ℕ) :
    0 ≤ single t lines (coldenOn L nbins) { p with dens := 1 } m :=
  (single_within (e := 0) le_rfl t lines L nbins (p' := { p with dens := 1 }) (p := { p with dens := 1 }) rfl rfl hh ⟨zero_le_one, by simp⟩ m).1

theorem single_tri {e : ℝ} (t : Table) (lines : List Line) (L : LineAbsorption) (nbins : ℕ) {p' p : Part} (hpos : p'.pos = p.pos) (hh : p'.h = p.h)
    (hh0 : 0 ≤ p.h) {w' w : ℝ} (h : Near' e w' w) (m : ℕ) :
    |single t lines (coldenOn L nbins) { p' with dens := w' } m - single t lines (coldenOn L nbins) { p with dens := w } m| ≤
      e * single t lines (coldenOn L nbins) { p with dens := |w| } m ∧
    |single t lines (coldenOn L nbins) { p with dens := w } m| ≤ single t lines (coldenOn L nbins) { p with dens := |w| } m := by
  have hK := single_unit_nonneg t lines L nbins p hh0 m
  rw [WeightMean.single_scale t lines L nbins { p with dens := 1 } { p' with dens := w' } w' hpos hh (by simp) m,
    WeightMean.single_scale t lines L nbins { p with dens := 1 } { p with dens := w } w rfl rfl (by simp) m,
    WeightMean.single_scale t lines L nbins { p with dens := 1 } { p with dens := |w| } |w| rfl rfl (by simp) m]
  generalize single t lines (coldenOn L nbins) { p with dens := 1 } m = K at hK
  constructor
  · rw [← sub_mul, abs_mul, abs_of_nonneg hK, ← mul_assoc]
    exact mul_le_mul_of_nonneg_right h hK
  · rw [abs_mul, abs_of_nonneg hK]

theorem zeros_tri (e : ℝ) (c : Config) : Tri e (zeros c) (zeros c) (zeros c) := by
  refine ⟨rfl, rfl, fun m => ?_⟩
  have : (zeros c).getD m 0 = 0 := by
    unfold zeros
    by_cases hm : m < c.lines.length * c.nbins
    · simp [List.getD_eq_getElem?_getD, List.getElem?_replicate, hm]
    · simp [List.getD_eq_getElem?_getD, List.getElem?_replicate, hm]
  rw [this]
  simp

/-- What one segment adds, in single precision, exactly, and with the speeds along the axis. -/
theorem vel_file {fl : ℝ → ℝ} (hf : Single fl) (h1 : fl 1 = 1) {c : Config} (hc : GoodAxes c) (hk : c.L.kernel ≠ VORONOI_MESH) (hn : 0 < c.nbins)
    (hr : 0 ≤ c.rscale) (ha : 0 < c.amumass) (hs : GoodSpecies c.sp) {phys : ℝ} (hp : 0 < phys) (atime : ℝ) (ax : Fin 3) {seg : List Raw}
    (hg : ∀ r ∈ seg, GoodGas r) :
    ∃ r' r a, DensityRounding.vel_single_file fl c phys atime ax seg = .value r' ∧
      WeightMean.weighted_single_file (tableSingle fl c) phys (fun p => p.vel ax * Real.sqrt atime) seg = .value r ∧
      WeightMean.weighted_single_file (tableSingle fl c) phys (fun p => |p.vel ax * Real.sqrt atime|) seg = .value a ∧
      Tri (16.1 * unit) r' r a ∧ a.length = c.lines.length * c.nbins := by
  have hz : zeros (tableSingle fl c) = zeros c := by
    unfold tableSingle
    split <;> rfl
  have hint : interpolate (tableSingle fl c) = interpolate c := by
    unfold tableSingle
    split <;> rfl
  unfold WeightMean.weighted_single_file DensityRounding.vel_single_file
  rcases read_vel hf h1 hc hr ha hs hg with ⟨e1, e2⟩ | ⟨sel, f, f', e1, e2, hcl⟩
  · rw [e1, e2]
    refine ⟨_, _, _, rfl, rfl, rfl, ?_, ?_⟩
    · rw [hz]
      exact zeros_tri _ c
    · rw [hz]
      simp [zeros]
  · rw [e1, e2]
    have e : ∀ parts, interpolate c false parts = _ := fun parts =>
      PartInt.compute_colden_eq c.L hk hn c.box c.lines hc parts (zeros c) (by simp [zeros])
    simp only [hint, e]
    refine ⟨_, _, _, rfl, rfl, rfl, ?_, ?_⟩
    · unfold zeros
      rw [NearRounding.arrAdd_zeros, NearRounding.arrAdd_zeros, NearRounding.arrAdd_zeros]
      refine map_tri _ fun m => ?_
      simp only [List.map_map]
      refine sum_tri sel fun r hm => ?_
      obtain ⟨a1, a2, a3, a4, a5⟩ := hcl r hm
      have hw : Near' (16.1 * unit) (fl (fl ((f' r).dens * fl ((f' r).vel ax * fl (Real.sqrt atime))) / fl phys))
          ((f r).dens * ((f r).vel ax * Real.sqrt atime) / phys) := by
        rw [a5 ax]
        exact vel_within hf a4 hp
      have habs : (f r).dens * |(f r).vel ax * Real.sqrt atime| / phys = |(f r).dens * ((f r).vel ax * Real.sqrt atime) / phys| := by
        rw [abs_div, abs_mul (f r).dens, abs_of_pos hp, abs_of_nonneg a4.1]
      have := single_tri (build c.lines c.box) c.lines c.L c.nbins a1 a2 a3 hw m
      rw [← habs] at this
      exact this
    · simp [zeros]

theorem sumFiles_tri {e : ℝ} {n : ℕ} {F' F G : List Raw → Outcome (List ℝ)} {segs : List (List Raw)} (hne : segs ≠ [])
    (h : ∀ seg ∈ segs, ∃ r' r a, F' seg = .value r' ∧ F seg = .value r ∧ G seg = .value a ∧ Tri e r' r a ∧ a.length = n) :
    ∃ r' r a, WeightMean.sumFiles F' segs = .value r' ∧ WeightMean.sumFiles F segs = .value r ∧ WeightMean.sumFiles G segs = .value a ∧ Tri e r' r a ∧
      a.length = n := by
  have hadd : ∀ (segs : List (List Raw)) (x' x y : List ℝ),
      (∀ seg ∈ segs, ∃ r' r a, F' seg = .value r' ∧ F seg = .value r ∧ G seg = .value a ∧ Tri e r' r a ∧ a.length = n) → Tri e x' x y → y.length = n →
      ∃ r' r a, WeightMean.addFiles F' x' segs = .value r' ∧ WeightMean.addFiles F x segs = .value r ∧ WeightMean.addFiles G y segs = .value a ∧
        Tri e r' r a ∧ a.length = n := by
    intro segs
    induction segs with
    | nil => exact fun x' x y _ h hy => ⟨x', x, y, rfl, rfl, rfl, h, hy⟩
    | cons seg segs ih =>
      intro x' x y hg h hy
      obtain ⟨r', r, a, e1, e2, e3, hw, hl⟩ := hg seg (by simp)
      rw [WeightMean.addFiles, WeightMean.addFiles, WeightMean.addFiles, e1, e2, e3]
      exact ih _ _ _ (fun s hs => hg s (by simp [hs])) (h.add hw (by omega)) (by simp [addArr]; omega)
  cases segs with
  | nil => exact absurd rfl hne
  | cons seg segs =>
    obtain ⟨r', r, a, e1, e2, e3, hw, hl⟩ := h seg (by simp)
    rw [WeightMean.sumFiles, WeightMean.sumFiles, WeightMean.sumFiles, e1, e2, e3]
    exact hadd segs _ _ _ (fun s hs => h s (by simp [hs])) hw hl

/-! ### Quotients -/

theorem quotient_tri {n' n y d' d a : ℝ} (ha : 0 < a) (hn : |n' - n| ≤ 16.1 * unit * y ∧ |n| ≤ y) (hd : Within (10 * unit) d' d) :
    |n' / (if d' / a = 0 then 1 else d' / a) - n / (if d / a = 0 then 1 else d / a)| ≤ 27 * unit * (y / (if d / a = 0 then 1 else d / a)) := by
  obtain ⟨d0, hd⟩ := hd
  have hu := unit_pos
  have hu' := unit_le
  obtain ⟨hn, hy⟩ := hn
  have y0 : 0 ≤ y := (abs_nonneg n).trans hy
  rcases d0.eq_or_lt with h | h
  · subst h
    have : d' = 0 := by simpa using hd
    subst this
    simp only [zero_div, if_true, div_one]
    nlinarith
  · have hb := abs_le.1 hd
    have hd' : (1 - 10 * unit) * d ≤ d' := by linarith
    have hpos : 0 < d' := lt_of_lt_of_le (mul_pos (by linarith) h) hd'
    rw [if_neg (by positivity), if_neg (by positivity)]
    have e : n' / (d' / a) - n / (d / a) = ((n' - n) * d + n * (d - d')) / (d' * d) * a := by
      field_simp
      ring
    rw [e, abs_mul, abs_div, abs_of_pos ha, abs_of_pos (mul_pos hpos h)]
    have e2 : 27 * unit * (y / (d / a)) = 27 * unit * (y * d') / (d' * d) * a := by field_simp
    rw [e2]
    refine mul_le_mul_of_nonneg_right (div_le_div_of_nonneg_right ?_ (by positivity)) ha.le
    calc |(n' - n) * d + n * (d - d')| ≤ |n' - n| * d + |n| * |d' - d| := by
          refine (abs_add_le _ _).trans_eq ?_
          rw [abs_mul, abs_mul, abs_of_pos h, abs_sub_comm d d']
      _ ≤ 16.1 * unit * y * d + y * (10 * unit * d) := by gcongr
      _ = 26.1 * unit * (y * d) := by ring
      _ ≤ 27 * unit * (y * ((1 - 10 * unit) * d)) := by
          have : 0 ≤ unit * (y * d) := by positivity
          nlinarith
      _ ≤ 27 * unit * (y * d') := by gcongr

theorem divide_getD {n d : List ℝ} {a : ℝ} {m : ℕ} (hn : m < n.length) (hd : m < d.length) :
    (WeightMean.divide n (d.map (fun x => x / a))).getD m 0 = n.getD m 0 / (if d.getD m 0 / a = 0 then 1 else d.getD m 0 / a) := by
  simp [WeightMean.divide, List.getD_eq_getElem?_getD, List.getElem?_zipWith, List.getElem?_eq_getElem hn, List.getElem?_eq_getElem hd]

/-- C130: with all products in single precision, a component of the mass-weighted velocity of a pixel differs from that of exact arithmetic by at most
twenty-seven roundings of the mass-weighted speed along that axis. -/
theorem velocity_single {fl : ℝ → ℝ} (hf : Single fl) (h1 : fl 1 = 1) {c : Config} (hc : GoodAxes c) (hk : c.L.kernel ≠ VORONOI_MESH) (hn : 0 < c.nbins)
    (hr : 0 ≤ c.rscale) (ha : 0 < c.amumass) (hs : GoodSpecies c.sp) {phys : ℝ} (hp : 0 < phys) (atime : ℝ) (ax : Fin 3) {segs : List (List Raw)}
    (hne : segs ≠ []) (hg : ∀ seg ∈ segs, ∀ r ∈ seg, GoodGas r) :
    ∃ V V' S, WeightMean.mass_weight .hdf5 (tableSingle fl c) phys
        (WeightMean.weighted_single_file (tableSingle fl c) phys (fun p => p.vel ax * Real.sqrt atime)) segs [segs] = .value V ∧
      DensityRounding.get_velocity fl c phys atime ax segs = .value V' ∧
      WeightMean.mass_weight .hdf5 (tableSingle fl c) phys
        (WeightMean.weighted_single_file (tableSingle fl c) phys (fun p => |p.vel ax * Real.sqrt atime|)) segs [segs] = .value S ∧
      V.length = c.lines.length * c.nbins ∧ V'.length = c.lines.length * c.nbins ∧ S.length = c.lines.length * c.nbins ∧
      ∀ m < c.lines.length * c.nbins, |V'.getD m 0 - V.getD m 0| ≤ 27 * (2 : ℝ)⁻¹ ^ 24 * S.getD m 0 := by
  obtain ⟨n', n, y, a2, a1, a0, ⟨l1, l2, a3⟩, hl⟩ := sumFiles_tri hne fun seg hseg => vel_file hf h1 hc hk hn hr ha hs hp atime ax (hg seg hseg)
  obtain ⟨d, d', b1, b2, b3⟩ := column_single hf h1 hc hk hn hr ha hs hne hg
  have hgood : GoodConfig (tableSingle fl c) := by
    unfold tableSingle
    split
    · exact ⟨hn, hc, hk⟩
    · exact ⟨hn, hc, hk⟩
  have hT : TempRead false (tableSingle fl c).sp := by
    unfold tableSingle
    cases hsp : c.sp with
    | HI => simp only [hsp]; trivial
    | all => simp only [hsp]; trivial
    | ion table => simp only; trivial
    | Hion table => rw [hsp] at hs; exact hs.elim
  have hlen : d.length = (zeros (tableSingle fl c)).length := by
    rw [compute_spectra_eq hgood false hT segs hne] at b1
    cases b1
    simp
  have hmpi : compute_spectra_mpi (tableSingle fl c) false [segs] = .value d := by
    simp only [compute_spectra_mpi, b1]
    rw [addArr_zero_right hlen]
  have hdl : d.length = c.lines.length * c.nbins := by
    rw [hlen]
    unfold tableSingle
    split <;> simp [zeros]
  have hdl' : d'.length = c.lines.length * c.nbins := by rw [b3.length_eq, hdl]
  refine ⟨WeightMean.divide n (d.map (fun x => x / phys)), WeightMean.divide n' (d'.map (fun x => x / phys)),
    WeightMean.divide y (d.map (fun x => x / phys)), ?_, ?_, ?_, ?_, ?_, ?_, ?_⟩
  · unfold WeightMean.mass_weight
    simp only [WeightMean.countSegments, a1, hmpi]
  · unfold DensityRounding.get_velocity
    simp only [a2, b2]
  · unfold WeightMean.mass_weight
    simp only [WeightMean.countSegments, a0, hmpi]
  · simp [WeightMean.divide]; omega
  · simp [WeightMean.divide]; omega
  · simp [WeightMean.divide]; omega
  · intro m hm
    rw [divide_getD (by omega) (by omega), divide_getD (by omega) (by omega), divide_getD (by omega) (by omega)]
    refine quotient_tri hp (a3 m) ?_
    have hb := List.forall₂_iff_get.1 b3
    have h := hb.2 m (by omega) (by omega)
    simp only [List.get_eq_getElem] at h
    rw [List.getD_eq_getElem?_getD, List.getD_eq_getElem?_getD, List.getElem?_eq_getElem (by omega), List.getElem?_eq_getElem (by omega),
      Option.getD_some, Option.getD_some]
    refine ⟨?_, h⟩
    have h0 := (abs_nonneg _).trans h
    by_contra hneg
    have := mul_neg_of_pos_of_neg (show (0 : ℝ) < 10 * (2 : ℝ)⁻¹ ^ 24 by positivity) (not_le.1 hneg)
    linarith

/-- C130: the exact average of `velocity_single` is what `get_velocity` returns in pixel `j` of sightline `i`, unless NumPy divides by another pixel. -/
theorem velocity_pixels {f : WeightMean.Format} {c : Config} {phys atime : ℝ} {own : List (List Raw)} {ranks : List (List (List Raw))}
    {v : ℕ → ℕ → Fin 3 → Option ℝ} (hb : WeightMean.broadcasts c.lines.length c.nbins = false)
    (hv : WeightMean.get_velocity f c phys atime own ranks = .value v) (ax : Fin 3) :
    ∃ V, WeightMean.mass_weight f c phys (WeightMean.weighted_single_file c phys (fun p => p.vel ax * Real.sqrt atime)) own ranks = .value V ∧
      ∀ i j, v i j ax = V[i * c.nbins + j]? := by
  unfold WeightMean.get_velocity at hv
  split at hv <;> try contradiction
  rename_i x y z hx hy hz
  split at hv <;> try contradiction
  rename_i colden hcol
  cases hv
  have hax : WeightMean.velocity_sum f c phys atime ax own = .value (![x, y, z] ax) := by
    fin_cases ax
    · exact hx
    · exact hy
    · exact hz
  refine ⟨WeightMean.divide (![x, y, z] ax) (colden.map (fun x => x / phys)), ?_, fun i j => ?_⟩
  · unfold WeightMean.velocity_sum at hax
    unfold WeightMean.mass_weight
    split at hax
    · contradiction
    · rename_i n hn
      simp only [hn, hax, hcol]
  · unfold WeightMean.velocityDen WeightMean.divide
    simp only [hb, Bool.false_eq_true, if_false, List.getElem?_zipWith]
    generalize (![x, y, z] ax)[i * c.nbins + j]? = p
    generalize (colden.map (fun x => x / phys))[i * c.nbins + j]? = q
    cases p <;> cases q <;> rfl

/-- A particle that moves. -/
noncomputable def exMoving (z : ℝ) : Raw := { exRaw z with vel := ![1, z - 3, 2] }

/-- The hypotheses can be met: three moving particles of neutral hydrogen in two files, rounded to twenty-four binary digits. -/
example : ∃ V V' S, WeightMean.mass_weight .hdf5 (exConfig .HI) 2
      (WeightMean.weighted_single_file (exConfig .HI) 2 (fun p => p.vel 1 * Real.sqrt 4)) [[exMoving 2, exMoving 9], [exMoving 4]]
      [[[exMoving 2, exMoving 9], [exMoving 4]]] = .value V ∧
    DensityRounding.get_velocity (roundTo 24) (exConfig .HI) 2 4 1 [[exMoving 2, exMoving 9], [exMoving 4]] = .value V' ∧
    WeightMean.mass_weight .hdf5 (exConfig .HI) 2
      (WeightMean.weighted_single_file (exConfig .HI) 2 (fun p => |p.vel 1 * Real.sqrt 4|)) [[exMoving 2, exMoving 9], [exMoving 4]]
      [[[exMoving 2, exMoving 9], [exMoving 4]]] = .value S ∧
    V.length = (exConfig .HI).lines.length * (exConfig .HI).nbins ∧ V'.length = (exConfig .HI).lines.length * (exConfig .HI).nbins ∧
    S.length = (exConfig .HI).lines.length * (exConfig .HI).nbins ∧
    ∀ m < (exConfig .HI).lines.length * (exConfig .HI).nbins, |V'.getD m 0 - V.getD m 0| ≤ 27 * (2 : ℝ)⁻¹ ^ 24 * S.getD m 0 := by
  have := velocity_single roundTo_single roundTo_one (c := exConfig .HI) (exConfig_good _).axes (exConfig_good _).kernel (exConfig_good _).nbins
    (by norm_num [exConfig]) (by norm_num [exConfig]) trivial (phys := 2) (by norm_num) 4 1 (segs := [[exMoving 2, exMoving 9], [exMoving 4]]) (by simp) (by
      intro seg h r hr
      have : ∃ z, r = exMoving z := by
        simp only [List.mem_cons, List.not_mem_nil, or_false] at h
        rcases h with rfl | rfl
        · simp only [List.mem_cons, List.not_mem_nil, or_false] at hr
          rcases hr with rfl | rfl <;> exact ⟨_, rfl⟩
        · simp only [List.mem_cons, List.not_mem_nil, or_false] at hr
          exact ⟨_, hr⟩
      obtain ⟨z, rfl⟩ := this
      exact ⟨by norm_num [exMoving, exRaw], by norm_num [exMoving, exRaw], by norm_num [exMoving, exRaw], by norm_num [exMoving, exRaw]⟩)
  rwa [no_table (roundTo 24) (c := exConfig .HI) (Or.inl rfl)] at this

/-- `velocity_pixels` applies to this gas: one sightline of four pixels. -/
example : ∃ v V, WeightMean.get_velocity .hdf5 (exConfig .HI) 2 4 [[exMoving 2, exMoving 9], [exMoving 4]] [[[exMoving 2, exMoving 9], [exMoving 4]]] = .value v ∧
    WeightMean.mass_weight .hdf5 (exConfig .HI) 2 (WeightMean.weighted_single_file (exConfig .HI) 2 (fun p => p.vel 1 * Real.sqrt 4))
      [[exMoving 2, exMoving 9], [exMoving 4]] [[[exMoving 2, exMoving 9], [exMoving 4]]] = .value V ∧
    ∀ i j, v i j 1 = V[i * (exConfig .HI).nbins + j]? := by
  obtain ⟨v, hv, -⟩ := WeightMean.velocity_get (exConfig_good .HI) trivial 2 4 (own := [[exMoving 2, exMoving 9], [exMoving 4]]) (by simp)
    (ranks := [[[exMoving 2, exMoving 9], [exMoving 4]]]) (by simp)
  obtain ⟨V, h, g⟩ := velocity_pixels (by simp [exConfig, WeightMean.broadcasts]) hv 1
  exact ⟨v, V, hv, h, g⟩

end Verif.Props.VelRounding
