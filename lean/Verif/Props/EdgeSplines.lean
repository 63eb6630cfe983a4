import Verif.Props.EdgeRounding
import Verif.Props.Kernels

/-!
C124 for splines: the column density when the squared radius of a particle is in single precision.
-/

namespace Verif.Props.EdgeRounding
open Verif Verif.Spec Verif.Props Verif.PartInt Verif.IndexTable Verif.Absorption Verif.Rounding Verif.Props.NearRounding
open Verif.Props.CellRounding (Single roundTo_single)

/-- Contribution of a particle to element `m` of the column density array, with the squared radius in single precision. -/
noncomputable def coldenG (fl : ℝ → ℝ) (L : LineAbsorption) (off nbins : ℕ) (dr2 dens pos smooth : ℝ) (m : ℕ) : ℝ :=
  if fl (smooth * smooth) - dr2 ≤ 0 then 0
  else
    let zrange := √(fl (smooth * smooth) - dr2)
    let d := L.vbox / nbins / L.velfac
    pixelSum off nbins (fun z => dens * get_kern_frac L.kernel (d * z - pos) (d * z - pos + d) smooth dr2 zrange)
      (intRange ⌊(pos - zrange) / d⌋ ⌈(pos + zrange) / d⌉) m

theorem coldenG_outside (fl : ℝ → ℝ) (L : LineAbsorption) {off nbins m : ℕ} (hn : 0 < nbins) (hm : m < off ∨ off + nbins ≤ m)
    (dr2 dens pos smooth : ℝ) : coldenG fl L off nbins dr2 dens pos smooth m = 0 := by
  unfold coldenG
  split
  · rfl
  · exact pixelSum_outside hn _ _ hm

theorem coldenG_offset (fl : ℝ → ℝ) (L : LineAbsorption) (off nbins : ℕ) (dr2 dens pos h : ℝ) (j : ℕ) :
    coldenG fl L off nbins dr2 dens pos h (off + j) = coldenG fl L 0 nbins dr2 dens pos h j := by
  unfold coldenG
  simp only [pixelSum_offset]

theorem add_colden_any (fl : ℝ → ℝ) (L : LineAbsorption) (hk : L.kernel ≠ VORONOI_MESH) {off nbins : ℕ} (hn : 0 < nbins) {a : List ℝ}
    (ha : off + nbins ≤ a.length) (dr2 dens pos smooth : ℝ) :
    EdgeRounding.add_colden_particle fl L a off nbins dr2 dens pos smooth = .ok (arrAdd a (coldenG fl L off nbins dr2 dens pos smooth)) := by
  unfold EdgeRounding.add_colden_particle
  simp only [hk, false_and, if_false, ne_eq, not_false_eq_true, true_and]
  by_cases h1 : fl (smooth * smooth) - dr2 ≤ 0
  · have : coldenG fl L off nbins dr2 dens pos smooth = fun _ => 0 := by
      funext m
      unfold coldenG
      rw [if_pos h1]
    rw [if_pos h1, this, arrAdd_zero]
  · rw [if_neg h1, coldenLoop_eq _ hn _ _ _ _ _ _ _ ha]
    congr 2
    funext m
    unfold coldenG
    rw [if_neg h1]

/-! ### The kernel near its edge -/

/-- Half the chord of a particle, whatever the distance of the sightline. -/
theorem column_chord {W : ℝ → ℝ} (hW : IsKernel W) {h : ℝ} (hh : 0 < h) (dr2 : ℝ) :
    kernelColumn W h dr2 = ∫ z in -√(h * h - dr2)..√(h * h - dr2), onLine W h dr2 z := by
  rcases le_total dr2 (h ^ 2) with hd | hd
  · exact kernelColumn_eq hW hh hd
  · rw [Real.sqrt_eq_zero_of_nonpos (by nlinarith), neg_zero, intervalIntegral.integral_same]
    unfold kernelColumn
    have : onLine W h dr2 = fun _ => 0 := by
      funext z
      apply hW.compact
      rw [le_div_iff₀ hh, one_mul]
      apply Real.le_sqrt_of_sq_le
      nlinarith [sq_nonneg z]
    rw [this]
    simp

/-- Integrals of a kernel over ranges that end near its edge. -/
theorem ranges_near {k : ℤ} {W : ℝ → ℝ} (hk : SphKernel k W) {h dr2 R r C : ℝ} (hh : 0 < h) (hR : 0 ≤ R) (hr : 0 ≤ r)
    (hC : ∀ z, min R r ≤ |z| → onLine W h dr2 z ≤ C) :
    |(∫ z in -R..R, onLine W h dr2 z) - ∫ z in -r..r, onLine W h dr2 z| ≤ 2 * |R - r| * C := by
  have hi : ∀ a b, IntervalIntegrable (onLine W h dr2) MeasureTheory.volume a b := by
    intro a b
    rw [onLine_eq_alongLine]
    exact alongLine_integrable hk.antitoneOn hh dr2 a b
  have hnn : ∀ z, 0 ≤ onLine W h dr2 z := fun z => hk.isKernel.nonneg _ (by positivity)
  have e : (∫ z in -R..R, onLine W h dr2 z) - ∫ z in -r..r, onLine W h dr2 z =
      (∫ z in -R..(-r), onLine W h dr2 z) + ∫ z in r..R, onLine W h dr2 z := by
    have e1 := intervalIntegral.integral_add_adjacent_intervals (hi (-R) (-r)) (hi (-r) r)
    have e2 := intervalIntegral.integral_add_adjacent_intervals (hi (-R) r) (hi r R)
    linarith
  rw [e]
  have b1 : |∫ z in -R..(-r), onLine W h dr2 z| ≤ C * |(-r) - (-R)| := by
    rw [← Real.norm_eq_abs]
    refine intervalIntegral.norm_integral_le_of_norm_le_const fun z hz => ?_
    rw [Real.norm_eq_abs, abs_of_nonneg (hnn z)]
    apply hC
    rw [Set.mem_uIoc] at hz
    rw [le_abs]
    right
    rcases hz with hz | hz
    · exact (min_le_right _ _).trans (by linarith)
    · exact (min_le_left _ _).trans (by linarith)
  have b2 : |∫ z in r..R, onLine W h dr2 z| ≤ C * |R - r| := by
    rw [← Real.norm_eq_abs]
    refine intervalIntegral.norm_integral_le_of_norm_le_const fun z hz => ?_
    rw [Real.norm_eq_abs, abs_of_nonneg (hnn z)]
    apply hC
    rw [Set.mem_uIoc] at hz
    rw [le_abs]
    left
    rcases hz with hz | hz
    · exact (min_le_right _ _).trans (by linarith)
    · exact (min_le_left _ _).trans (by linarith)
  rw [show (-r) - (-R) = R - r by ring] at b1
  calc _ ≤ _ := abs_add_le _ _
    _ ≤ C * |R - r| + C * |R - r| := add_le_add b1 b2
    _ = _ := by ring

/-- What a spline particle adds in all, against the column of its kernel. -/
theorem coldenG_sum {fl : ℝ → ℝ} (hf : Single fl) (L : LineAbsorption) (hL : GoodAbs L) {W : ℝ → ℝ} (hk : SphKernel L.kernel W) {nbins off n : ℕ}
    (hn : 0 < nbins) (ho : off + nbins ≤ n) {dens : ℝ} (hd : 0 ≤ dens) (pos : ℝ) {h : ℝ} (hh : 0 < h) (dr2 : ℝ) :
    |∑ m ∈ Finset.range n, coldenG fl L off nbins dr2 dens pos h m - dens * kernelColumn W h dr2| ≤
      dens * (L.vbox / L.velfac / nbins / 8 * onLine W h dr2 0 + h / 2 ^ 11 * W (1 - (2 : ℝ)⁻¹ ^ 24)) := by
  have hnb : (0 : ℝ) < nbins := by exact_mod_cast hn
  have hd' : 0 < L.vbox / nbins / L.velfac := by have := hL.vbox; have := hL.velfac; positivity
  have hW := hk.isKernel
  have h0' : onLine W h dr2 0 = W (√dr2 / h) := by unfold onLine; norm_num
  have hnn : 0 ≤ onLine W h dr2 0 := hW.nonneg _ (by positivity)
  have nr := Single.near hf (x := h * h) (b := h * h) (by rw [abs_of_nonneg (mul_self_nonneg _)])
  have hx0 : (0 : ℝ) ≤ 1 - (2 : ℝ)⁻¹ ^ 24 := by norm_num
  have hC0 := hW.nonneg _ hx0
  set R := √(fl (h * h) - dr2) with hRd
  set r := √(h * h - dr2) with hrd
  have hRr : |R - r| ≤ h / 2 ^ 12 := by
    refine halfChord_near (x := h * h) (x' := fl (h * h)) (d := dr2) (by positivity) ?_
    rw [abs_le]
    have e : (h / 2 ^ 12) ^ 2 = (2 : ℝ)⁻¹ ^ 24 * (h * h) := by ring
    rw [e]
    constructor <;> nlinarith [nr.1, nr.2]
  have hC : ∀ z, min R r ≤ |z| → onLine W h dr2 z ≤ W (1 - (2 : ℝ)⁻¹ ^ 24) := by
    intro z hz
    refine hW.antitone _ _ hx0 ?_
    rw [le_div_iff₀ hh]
    apply Real.le_sqrt_of_sq_le
    have hq : ((1 - (2 : ℝ)⁻¹ ^ 24) * h) ^ 2 ≤ h * h - (2 : ℝ)⁻¹ ^ 24 * (h * h) := by
      norm_num
      nlinarith [mul_self_nonneg h]
    have hp : 0 ≤ (2 : ℝ)⁻¹ ^ 24 * (h * h) := by positivity
    rcases min_le_iff.1 hz with hz | hz
    · have := (Real.sqrt_le_left (Real.sqrt_nonneg _ |>.trans hz)).1 hz
      rw [sq_abs] at this
      linarith [nr.1]
    · have := (Real.sqrt_le_left (Real.sqrt_nonneg _ |>.trans hz)).1 hz
      rw [sq_abs] at this
      linarith
  have hrange := ranges_near hk hh (Real.sqrt_nonneg (fl (h * h) - dr2)) (Real.sqrt_nonneg (h * h - dr2)) hC
  have hrange : |(∫ z in -R..R, onLine W h dr2 z) - ∫ z in -r..r, onLine W h dr2 z| ≤ h / 2 ^ 11 * W (1 - (2 : ℝ)⁻¹ ^ 24) := by
    refine hrange.trans ?_
    calc 2 * |R - r| * W (1 - (2 : ℝ)⁻¹ ^ 24) ≤ 2 * (h / 2 ^ 12) * W (1 - (2 : ℝ)⁻¹ ^ 24) := by gcongr
      _ = _ := by ring
  rw [column_chord hW hh, ← hrd]
  have hsum : |∑ m ∈ Finset.range n, coldenG fl L off nbins dr2 dens pos h m - dens * ∫ z in -R..R, onLine W h dr2 z| ≤
      dens * (L.vbox / L.velfac / nbins / 8 * onLine W h dr2 0) := by
    rw [show L.vbox / L.velfac / nbins = L.vbox / nbins / L.velfac by field_simp]
    unfold coldenG
    by_cases hz : fl (h * h) - dr2 ≤ 0
    · simp only [hz, if_true, Finset.sum_const_zero]
      rw [hRd, Real.sqrt_eq_zero_of_nonpos hz]
      simp only [neg_zero, intervalIntegral.integral_same]
      rw [mul_zero, sub_zero, abs_zero]
      positivity
    · simp only [hz, if_false]
      rw [pixelSum_total hn ho, hk.get, List.sum_map_mul_left]
      have := sum_sph_kern_frac hk.antitoneOn hW.nonneg hh dr2 (p := pos) hd' (Real.sqrt_nonneg (fl (h * h) - dr2))
      rw [← mul_sub, abs_mul, abs_of_nonneg hd, h0']
      rw [← onLine_eq_alongLine] at this
      exact mul_le_mul_of_nonneg_left this hd
  calc _ ≤ |∑ m ∈ Finset.range n, coldenG fl L off nbins dr2 dens pos h m - dens * ∫ z in -R..R, onLine W h dr2 z| +
        |dens * (∫ z in -R..R, onLine W h dr2 z) - dens * ∫ z in -r..r, onLine W h dr2 z| := abs_sub_le _ _ _
    _ ≤ _ := by
      rw [← mul_sub, abs_mul, abs_of_nonneg hd, mul_add]
      exact add_le_add hsum (mul_le_mul_of_nonneg_left hrange hd)

/-- C124, column density of a spline: the guarantee of C08, and at most a two thousandth of the radius times the kernel within one rounding of its edge.
The sightline may be anywhere, outside the particle too. -/
theorem colden_deposit_sph {fl : ℝ → ℝ} (hf : Single fl) (L : LineAbsorption) (hL : GoodAbs L) {W : ℝ → ℝ} (hk : SphKernel L.kernel W) {nbins off : ℕ}
    (hn : 0 < nbins) {a : List ℝ} (ha : off + nbins ≤ a.length) {dens : ℝ} (hd : 0 ≤ dens) (pos : ℝ) {h : ℝ} (hh : 0 < h) (dr2 : ℝ) :
    ∃ out, EdgeRounding.add_colden_particle fl L a off nbins dr2 dens pos h = .ok out ∧
      |out.sum - a.sum - dens * kernelColumn W h dr2| ≤
        dens * (L.vbox / L.velfac / nbins / 8 * onLine W h dr2 0 + h / 2 ^ 11 * W (1 - (2 : ℝ)⁻¹ ^ 24)) ∧ OnlySlice a out off nbins := by
  have hv : L.kernel ≠ VORONOI_MESH := by
    generalize L.kernel = k at hk; cases hk <;> decide
  refine ⟨_, add_colden_any fl L hv hn ha dr2 dens pos h, ?_, by simp, ?_⟩
  · rw [arrAdd_sum, add_sub_cancel_left]
    exact coldenG_sum hf L hL hk hn ha hd pos hh dr2
  · intro m hm
    rw [arrAdd_getElem?, coldenG_outside fl L hn hm]; simp

/-- The kernels within one rounding of their edge. -/
theorem spline_edge : sph_cubic_kernel (1 - (2 : ℝ)⁻¹ ^ 24) = 16 / Real.pi / 2 ^ 72 ∧
    sph_quintic_kernel (1 - (2 : ℝ)⁻¹ ^ 24) = 2187 / (40 * Real.pi) / 2 ^ 120 := by
  constructor
  · rw [cubic_outer (by norm_num) (by norm_num)]
    ring
  · rw [quintic_outer (by norm_num) (by norm_num)]
    ring

/-! ### Whole spectra -/

/-- What particle `p` at squared distance `d` from line `i` adds to element `m`. -/
noncomputable def coldenOnA (fl : ℝ → ℝ) (L : LineAbsorption) (nbins i : ℕ) (l : Line) (p : Part) (d : ℝ) (m : ℕ) : ℝ :=
  coldenG fl L (i * nbins) nbins d p.dens (axisCoord p.pos l.axis) p.h m

theorem compute_colden_any (fl : ℝ → ℝ) (L : LineAbsorption) (hv : L.kernel ≠ VORONOI_MESH) {nbins : ℕ} (hn : 0 < nbins)
    (box : ℝ) (lines : List Line) (hax : ∀ l ∈ lines, l.axis = 1 ∨ l.axis = 2 ∨ l.axis = 3)
    (parts : List Part) {sched : List ℕ} (hs : sched.Perm (List.range parts.length)) (out : List ℝ) (hout : out.length = lines.length * nbins) :
    EdgeRounding.compute_colden fl L nbins box lines parts sched out = .ok (arrAdd out (fun m =>
      (parts.map (fun p => NearRounding.single fl (build lines box) lines (coldenOnA fl L nbins) p m)).sum)) := by
  unfold EdgeRounding.compute_colden
  refine NearRounding.overLines_eq (coldenOnA fl L nbins) _ hv box lines parts _ (lines.length * nbins) ?_ hs out hout
  intro i l hl es hes a ha
  unfold EdgeRounding.coldenLine
  have hi : i < lines.length := by
    by_contra hc; rw [List.getElem?_eq_none (by omega)] at hl; cases hl
  rw [foldlM_arrAdd _ (fun e m => (parts[e.1.1]?).elim 0 (fun p => coldenOnA fl L nbins i l p e.1.2 m)) (lines.length * nbins)]
  · congr 2; funext m; rw [List.map_map]; rfl
  · intro e he b hb
    obtain ⟨e', he', rfl⟩ := List.mem_map.1 he
    obtain ⟨p, hp⟩ := hes e' he'
    simp only
    rw [readAt_eq hp, ok_bind, coord_eq (hax l (List.mem_of_getElem? hl)), ok_bind, if_neg hv, hp]
    exact add_colden_any fl L hv hn (by rw [hb]; exact slice_le hi) _ _ _ _
  · exact ha

/-- The column of a kernel along a sightline that passes inside its radius by at most `e`. -/
theorem column_grazed {k : ℤ} {W : ℝ → ℝ} (hk : SphKernel k W) {h e dr2 : ℝ} (he : 0 ≤ e) (heh : e ≤ h) (hh : 0 < h) (hd0 : 0 ≤ dr2) (hd : h - e ≤ √ dr2) :
    0 ≤ kernelColumn W h dr2 ∧ kernelColumn W h dr2 ≤ 2 * √ (2 * h * e) * W (1 - e / h) := by
  have hW := hk.isKernel
  have hnn : ∀ z, 0 ≤ onLine W h dr2 z := fun z => hW.nonneg _ (by positivity)
  have hx : 0 ≤ 1 - e / h := by rw [sub_nonneg, div_le_one hh]; exact heh
  refine ⟨MeasureTheory.integral_nonneg hnn, ?_⟩
  rw [column_chord hW hh]
  have hC : ∀ z, min (√ (h * h - dr2)) 0 ≤ |z| → onLine W h dr2 z ≤ W (1 - e / h) := by
    intro z _
    refine hW.antitone _ _ hx ?_
    rw [le_div_iff₀ hh, sub_mul, one_mul, div_mul_cancel₀ _ hh.ne']
    refine hd.trans (Real.sqrt_le_sqrt ?_)
    nlinarith [sq_nonneg z]
  have := ranges_near hk hh (Real.sqrt_nonneg (h * h - dr2)) le_rfl hC
  rw [neg_zero, intervalIntegral.integral_same, sub_zero, sub_zero, abs_of_nonneg (Real.sqrt_nonneg _)] at this
  refine (le_abs_self _).trans (this.trans ?_)
  have hc : √ (h * h - dr2) ≤ √ (2 * h * e) := by
    apply Real.sqrt_le_sqrt
    have := Real.sq_sqrt hd0
    nlinarith
  have := hW.nonneg _ hx
  gcongr

open Classical in
/-- C124, column density of whole spectra of splines: with the search and the squared radii in single precision, the column of a sightline is the sum of
those of the kernels along it. It differs from that by at most what C08 allows, the kernels within one rounding of their edge, and the columns of the
particles it grazes by at most a four millionth of the box. -/
theorem column_spectrum_sph {fl : ℝ → ℝ} (hf : Single fl) (L : LineAbsorption) (hL : GoodAbs L) {W : ℝ → ℝ} (hk : SphKernel L.kernel W) {nbins : ℕ}
    (hn : 0 < nbins) {box : ℝ} (hbox : 0 < box) {lines : List Line} (hl : ∀ l ∈ lines, GoodLine box l)
    {parts : List Part} (hp : ∀ p ∈ parts, SmallPart box (p.pos, p.h) ∧ box / 2 ^ 22 ≤ p.h ∧ 0 ≤ p.dens) {sched : List ℕ}
    (hs : sched.Perm (List.range parts.length)) :
    ∃ r, EdgeRounding.compute_colden fl L nbins box lines parts sched (List.replicate (lines.length * nbins) 0) = .ok r ∧
      ∀ i l, lines[i]? = some l →
        |(lineSpectrum r nbins i).sum - (parts.map (fun p => p.dens * kernelColumn W p.h (transDist2 box l.axis p.pos l.cofm))).sum| ≤
          ((parts.filter (fun p => HardlyOutside box (p.pos, p.h) l)).map (fun p => p.dens *
            (L.vbox / L.velfac / nbins / 8 * onLine W p.h (transDist2 box l.axis p.pos l.cofm) 0 + p.h / 2 ^ 11 * W (1 - (2 : ℝ)⁻¹ ^ 24)))).sum +
          ((parts.filter (fun p => transDist2 box l.axis p.pos l.cofm < p.h ^ 2 ∧ ¬ ClearlyNear box (p.pos, p.h) l)).map
            (fun p => p.dens * (2 * √ (2 * p.h * (box / 2 ^ 22)) * W (1 - box / 2 ^ 22 / p.h)))).sum := by
  have hv : L.kernel ≠ VORONOI_MESH := by
    generalize L.kernel = k at hk; cases hk <;> decide
  have hW := hk.isKernel
  refine ⟨_, compute_colden_any fl L hv hn box lines (fun l hm => (hl l hm).1) parts hs _ (by simp), ?_⟩
  intro i l hi
  have hil : i < lines.length := by
    by_contra hc; rw [List.getElem?_eq_none (by omega)] at hi; cases hi
  rw [lineSpectrum_arrAdd hil, arrAdd_zeros]
  have e1 : ∀ j < nbins, (parts.map (fun p => NearRounding.single fl (build lines box) lines (coldenOnA fl L nbins) p (i * nbins + j))).sum =
      (parts.map (fun p => if StdMap.find? (NearRounding.get_near_lines fl (build lines box) p.pos p.h) i ≠ none then
        coldenG fl L 0 nbins (transDist2 box l.axis p.pos l.cofm) p.dens (axisCoord p.pos l.axis) p.h j else 0)).sum := by
    intro j hj
    congr 1
    refine List.map_congr_left fun p hpm => ?_
    rw [single_found hf hbox hl (hp p hpm).1.1 (coldenOnA fl L nbins) hi hj (fun i l p d m hm => coldenG_outside fl L hn hm ..)]
    split
    · exact coldenG_offset ..
    · rfl
  rw [List.map_congr_left (fun j hj => e1 j (List.mem_range.1 hj)), sum_pixels]
  clear e1 hs
  have hδ : 0 < box / 2 ^ 22 := by positivity
  induction parts with
  | nil => simp
  | cons p ps ih =>
    have ih := ih (fun q hq => hp q (by simp [hq]))
    obtain ⟨hsm, hmin, hdens⟩ := hp p (by simp)
    have hh : 0 < p.h := hsm.2.1
    have hvf := hL.velfac
    have hvb := hL.vbox
    have hA0 : 0 ≤ p.dens * (L.vbox / L.velfac / nbins / 8 * onLine W p.h (transDist2 box l.axis p.pos l.cofm) 0 + p.h / 2 ^ 11 * W (1 - (2 : ℝ)⁻¹ ^ 24)) := by
      have h1 : 0 ≤ onLine W p.h (transDist2 box l.axis p.pos l.cofm) 0 := hW.nonneg _ (by positivity)
      have h2 : 0 ≤ W (1 - (2 : ℝ)⁻¹ ^ 24) := hW.nonneg _ (by norm_num)
      positivity
    have hB0 : 0 ≤ p.dens * (2 * √ (2 * p.h * (box / 2 ^ 22)) * W (1 - box / 2 ^ 22 / p.h)) := by
      have : 0 ≤ W (1 - box / 2 ^ 22 / p.h) := hW.nonneg _ (by rw [sub_nonneg, div_le_one hh]; exact hmin)
      positivity
    have hd0 : 0 ≤ transDist2 box l.axis p.pos l.cofm := by
      rw [transDist2_eq (hl l (List.mem_of_getElem? hi)).1]
      positivity
    simp only [List.map_cons, List.sum_cons, List.filter_cons]
    rw [add_sub_add_comm]
    refine (abs_add_le _ _).trans ?_
    by_cases q : StdMap.find? (NearRounding.get_near_lines fl (build lines box) p.pos p.h) i ≠ none
    · have hho : HardlyOutside box (p.pos, p.h) l := by
        obtain ⟨d, hd⟩ := Option.ne_none_iff_exists'.1 q
        obtain ⟨l', h1, h2, h3⟩ := near_single_distance hf hbox hl (p := (p.pos, p.h)) hsm.1 i d hd
        rw [hi] at h1
        cases h1
        exact h3
      have hc := coldenG_sum hf L hL hk (off := 0) (n := nbins) hn (by omega) hdens (axisCoord p.pos l.axis) hh (transDist2 box l.axis p.pos l.cofm)
      rw [if_pos (decide_eq_true hho), List.map_cons, List.sum_cons]
      simp only [q, if_true, ne_eq, not_false_eq_true]
      split
      · rw [List.map_cons, List.sum_cons]
        linarith
      · linarith
    · have hkey : |∑ j ∈ Finset.range nbins, (if StdMap.find? (NearRounding.get_near_lines fl (build lines box) p.pos p.h) i ≠ none then
          coldenG fl L 0 nbins (transDist2 box l.axis p.pos l.cofm) p.dens (axisCoord p.pos l.axis) p.h j else 0) -
          p.dens * kernelColumn W p.h (transDist2 box l.axis p.pos l.cofm)| = p.dens * kernelColumn W p.h (transDist2 box l.axis p.pos l.cofm) := by
        simp only [q, if_false, Finset.sum_const_zero, zero_sub, abs_neg]
        refine abs_of_nonneg (mul_nonneg hdens (MeasureTheory.integral_nonneg fun z => hW.nonneg _ (by positivity)))
      rw [hkey]
      have hnc : ¬ ClearlyNear box (p.pos, p.h) l := by
        intro hcl
        apply q
        have := near_single_found hf hbox hl hsm hi hcl
        simp only at this
        rw [this]
        exact Option.some_ne_none _
      have hA : ∀ xs : List Part, (List.map (fun p => p.dens * (L.vbox / L.velfac / nbins / 8 * onLine W p.h (transDist2 box l.axis p.pos l.cofm) 0 +
          p.h / 2 ^ 11 * W (1 - (2 : ℝ)⁻¹ ^ 24))) xs).sum ≤ (List.map (fun p => p.dens * (L.vbox / L.velfac / nbins / 8 *
            onLine W p.h (transDist2 box l.axis p.pos l.cofm) 0 + p.h / 2 ^ 11 * W (1 - (2 : ℝ)⁻¹ ^ 24)))
            (if decide (HardlyOutside box (p.pos, p.h) l) = true then p :: xs else xs)).sum := by
        intro xs
        split
        · rw [List.map_cons, List.sum_cons]
          linarith
        · exact le_rfl
      have hA := hA (ps.filter (fun p => HardlyOutside box (p.pos, p.h) l))
      by_cases hin : transDist2 box l.axis p.pos l.cofm < p.h ^ 2
      · rw [if_pos (c := decide (transDist2 box l.axis p.pos l.cofm < p.h ^ 2 ∧ ¬ ClearlyNear box (p.pos, p.h) l) = true) (decide_eq_true ⟨hin, hnc⟩), List.map_cons (l := ps.filter _), List.sum_cons]
        have hgr := (column_grazed hk hδ.le hmin hh hd0 (by
          unfold ClearlyNear at hnc
          simp only at hnc
          linarith)).2
        have := mul_le_mul_of_nonneg_left hgr hdens
        linarith
      · have h0 : kernelColumn W p.h (transDist2 box l.axis p.pos l.cofm) = 0 := by
          rw [column_chord hW hh, Real.sqrt_eq_zero_of_nonpos (by nlinarith), neg_zero, intervalIntegral.integral_same]
        rw [h0, mul_zero, if_neg (c := decide (transDist2 box l.axis p.pos l.cofm < p.h ^ 2 ∧ ¬ ClearlyNear box (p.pos, p.h) l) = true) (by simp [hin])]
        linarith

/-! ### Examples -/

/-- A sightline at the radius of a cubic spline gets next to nothing. -/
example : ∃ out, EdgeRounding.add_colden_particle (roundTo 24) (exAbs SPH_CUBIC_SPLINE) [0, 0, 0, 0] 0 4 4 1 3 2 = .ok out ∧
    |out.sum| ≤ 2 / 2 ^ 11 * (16 / Real.pi / 2 ^ 72) := by
  obtain ⟨out, h1, h2, -⟩ := colden_deposit_sph roundTo_single (exAbs SPH_CUBIC_SPLINE) (exAbs_good _) SphKernel.cubic (nbins := 4) (off := 0)
    (by norm_num) (a := [0, 0, 0, 0]) (by simp) (dens := 1) (by norm_num) 3 (h := 2) (by norm_num) 4
  have e1 : kernelColumn sph_cubic_kernel 2 4 = 0 := by
    rw [column_chord cubic_isKernel (by norm_num), Real.sqrt_eq_zero_of_nonpos (by norm_num), neg_zero, intervalIntegral.integral_same]
  have e2 : onLine sph_cubic_kernel 2 4 0 = 0 := by
    apply cubic_zero
    rw [show (4 : ℝ) + 0 ^ 2 = 2 ^ 2 by norm_num, Real.sqrt_sq (by norm_num)]
    norm_num
  refine ⟨out, h1, ?_⟩
  rw [e1, e2, spline_edge.1] at h2
  simpa using h2

/-- A sightline of the example of C122 meets the hypotheses for whole spectra. -/
example (L : LineAbsorption) (hL : GoodAbs L) (hk : SphKernel L.kernel sph_quintic_kernel) :
    ∃ r, EdgeRounding.compute_colden (roundTo 24) L 16 100000 [edgeLine] [⟨edgePart.1, edgePart.1, 1, 10000, edgePart.2⟩] [0] (List.replicate 16 0) = .ok r := by
  have hl : ∀ l ∈ [edgeLine], GoodLine 100000 l := fun l h => (List.mem_singleton.1 h) ▸ edge_line_good
  obtain ⟨r, h, -⟩ := column_spectrum_sph roundTo_single L hL hk (nbins := 16) (by norm_num) (box := 100000) (by norm_num) hl
    (parts := [⟨edgePart.1, edgePart.1, 1, 10000, edgePart.2⟩]) (by
      intro p h
      rw [List.mem_singleton.1 h]
      refine ⟨edge_part_small, ?_, by norm_num⟩
      simp only [edgePart]
      norm_num) (sched := [0]) (by simp)
  exact ⟨r, by simpa using h⟩

end Verif.Props.EdgeRounding
