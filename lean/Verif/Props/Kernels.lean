import Verif.Lemmas.Quadrature
import Verif.Props.Deposit

/-!
C07 and C08: the smoothing kernels, and the fraction of a kernel that falls in a pixel.
-/

namespace Verif.Props

open Verif Absorption Real

/-- What a spherical smoothing kernel of unit radius has to be, as a function of the distance to the
centre: continuous, never negative, zero from distance one on, non-increasing, and of unit mass in
space. -/
structure IsKernel (W : ℝ → ℝ) : Prop where
  cont : Continuous W
  nonneg : ∀ q, 0 ≤ q → 0 ≤ W q
  compact : ∀ q, 1 ≤ q → W q = 0
  antitone : ∀ q r, 0 ≤ q → q ≤ r → W r ≤ W q
  unit_mass : ∫ x : EuclideanSpace ℝ (Fin 3), W ‖x‖ = 1

/-- C07, cubic spline. -/
theorem cubic_isKernel : IsKernel sph_cubic_kernel where
  cont := cubic_continuous
  nonneg _ h := sph_cubic_kernel_nonneg h
  compact _ h := cubic_zero h
  antitone q r hq hr := cubic_antitone (Set.mem_Ici.2 hq) (Set.mem_Ici.2 (hq.trans hr)) hr
  unit_mass := by
    rw [integral_radial _ (fun q h => cubic_zero h.le), cubic_radial]
    have := pi_pos; field_simp

/-- C07, quintic spline. -/
theorem quintic_isKernel : IsKernel sph_quintic_kernel where
  cont := quintic_continuous
  nonneg _ h := sph_quintic_kernel_nonneg h
  compact _ h := quintic_zero h
  antitone q r hq hr := quintic_antitone (Set.mem_Ici.2 hq) (Set.mem_Ici.2 (hq.trans hr)) hr
  unit_mass := by
    rw [integral_radial _ (fun q h => quintic_zero h.le), quintic_radial]
    have := pi_pos; field_simp

/-- C07, top hat: the constant used for the top hat makes a uniform unit ball of unit mass, and the
fraction computed for a pixel is this constant times the length of the pixel inside the particle. -/
theorem tophat_unit_mass :
    ∃ c : ℝ, (∫ x : EuclideanSpace ℝ (Fin 3), if ‖x‖ ≤ 1 then c else 0) = 1 ∧
      ∀ zlow zhigh h dr2 zr : ℝ, tophat_kern_frac zlow zhigh h dr2 zr =
        c * (MeasureTheory.volume (Set.Icc zlow zhigh ∩ Set.Icc (-zr) zr)).toReal := by
  refine ⟨3 / 4 / π, ?_, ?_⟩
  · rw [integral_radial (fun q => if q ≤ 1 then 3 / 4 / π else 0) (fun q h => if_neg (by linarith))]
    rw [integral_poly (a := 0) (b := 1) (p := fun q => 3 / 4 / π * q ^ 2)
      (F := fun q => 3 / 4 / π * (q ^ 3 / 3)) (by norm_num)]
    · have := pi_pos; field_simp; norm_num
    · intro x _ h; simp only [h, if_true]; ring
    · intro x
      exact (((hasDerivAt_pow 3 x).div_const 3).const_mul (3 / 4 / π)).congr_deriv (by push_cast; ring)
    · fun_prop
  · intro zlow zhigh h dr2 zr
    unfold tophat_kern_frac
    simp only
    rw [Set.Icc_inter_Icc, Real.volume_Icc, ENNReal.toReal_ofReal', max_comm 0]

/-- Which kernel function each SPH code stands for. -/
inductive SphKernel : ℤ → (ℝ → ℝ) → Prop
  | cubic : SphKernel SPH_CUBIC_SPLINE sph_cubic_kernel
  | quintic : SphKernel SPH_QUINTIC_SPLINE sph_quintic_kernel

theorem SphKernel.isKernel {k : ℤ} {W : ℝ → ℝ} (h : SphKernel k W) : IsKernel W := by
  cases h
  · exact cubic_isKernel
  · exact quintic_isKernel

theorem SphKernel.antitoneOn {k : ℤ} {W : ℝ → ℝ} (h : SphKernel k W) : AntitoneOn W (Set.Ici 0) :=
  fun q hq r _ hqr => h.isKernel.antitone q r hq hqr

theorem SphKernel.get {k : ℤ} {W : ℝ → ℝ} (h : SphKernel k W) : get_kern_frac k = sph_kern_frac W := by
  cases h
  · unfold get_kern_frac
    rw [if_neg (by decide), if_pos rfl]; rfl
  · unfold get_kern_frac
    rw [if_neg (by decide), if_neg (by decide), if_neg (by decide), if_pos rfl]; rfl

/-- Value of a kernel of radius `h` at distance `z` along a line whose squared distance from the
centre is `dr2`. -/
noncomputable def onLine (W : ℝ → ℝ) (h dr2 z : ℝ) : ℝ := W (√(dr2 + z ^ 2) / h)

theorem onLine_eq_alongLine (W : ℝ → ℝ) (h dr2 : ℝ) : onLine W h dr2 = alongLine W h dr2 := by
  funext z; unfold onLine alongLine; rw [pow_two]

theorem onLine_outside {W : ℝ → ℝ} (hW : IsKernel W) {h dr2 z : ℝ} (hh : 0 < h) (_hdr : dr2 ≤ h ^ 2)
    (hz : √(h * h - dr2) ≤ |z|) : onLine W h dr2 z = 0 := by
  apply hW.compact
  rw [le_div_iff₀ hh, one_mul]
  apply Real.le_sqrt_of_sq_le
  have := Real.sqrt_le_left (Real.sqrt_nonneg _ |>.trans hz) |>.1 hz
  rw [sq_abs] at this
  nlinarith

/-- C08, one pixel `[zlow, zhigh]` on a line through a particle, with the range the caller passes:
the computed fraction is between zero and the pixel length times the largest kernel value on the
line, differs from the exact integral of the kernel over the pixel by at most an eighth of the same
bound, and is zero for a pixel that misses the particle. -/
theorem pixel_fraction {k : ℤ} {W : ℝ → ℝ} (hk : SphKernel k W) {h dr2 : ℝ} (hh : 0 < h)
    (hdr0 : 0 ≤ dr2) (hdr : dr2 ≤ h ^ 2) {zlow zhigh : ℝ} (hz : zlow ≤ zhigh) :
    let frac := get_kern_frac k zlow zhigh h dr2 (√(h * h - dr2))
    0 ≤ frac ∧ |frac - ∫ z in zlow..zhigh, onLine W h dr2 z| ≤ (zhigh - zlow) / 8 * onLine W h dr2 0 ∧
      frac ≤ (zhigh - zlow) * onLine W h dr2 0 ∧
      ((∀ z ∈ Set.Icc zlow zhigh, h ^ 2 ≤ z ^ 2 + dr2) → frac = 0) := by
  intro frac
  have hW := hk.isKernel
  have hr := Real.sqrt_nonneg (h * h - dr2)
  have hA : ∀ z, alongLine W h dr2 z = onLine W h dr2 z := fun z => by rw [onLine_eq_alongLine]
  have hle0 : ∀ z, onLine W h dr2 z ≤ onLine W h dr2 0 := by
    intro z
    rw [← hA, ← hA]; exact alongLine_le hk.antitoneOn hh dr2 (by nlinarith)
  have hnn : ∀ z, 0 ≤ onLine W h dr2 z := fun z => hW.nonneg _ (by positivity)
  have hfr : frac = sph_kern_frac W zlow zhigh h dr2 (√(h * h - dr2)) := by simp only [frac, hk.get]
  have h0 : 0 ≤ frac := kern_frac_nonneg _ hh.le _ _ _ _
  -- the part of the pixel outside the particle contributes nothing
  have hint : ∫ z in clamp (√(h * h - dr2)) zlow..clamp (√(h * h - dr2)) zhigh, alongLine W h dr2 z =
      ∫ z in zlow..zhigh, onLine W h dr2 z := by
    set r := √(h * h - dr2) with hrdef
    have hi : ∀ a b, IntervalIntegrable (alongLine W h dr2) MeasureTheory.volume a b :=
      fun a b => alongLine_integrable hk.antitoneOn hh dr2 a b
    have hzero : ∀ x, ∫ z in clamp r x..x, alongLine W h dr2 z = 0 := by
      intro x
      by_cases hin : -r ≤ x ∧ x ≤ r
      · have : clamp r x = x := by unfold clamp; rw [min_eq_left hin.2, max_eq_right hin.1]
        rw [this, intervalIntegral.integral_same]
      · rw [intervalIntegral.integral_congr (g := fun _ => 0)]
        · simp
        · intro z hz
          simp only
          rw [hA]
          apply onLine_outside hW hh hdr
          rw [← hrdef]
          unfold clamp at hz
          rcases le_total x r with h1 | h1
          · have h2 : x ≤ -r := by
              by_contra hc; push Not at hc; exact hin ⟨hc.le, h1⟩
            rw [min_eq_left h1, max_eq_left h2, Set.uIcc_of_ge h2] at hz
            rw [le_abs]; right; linarith [hz.2]
          · rw [min_eq_right h1, max_eq_right (by linarith), Set.uIcc_of_le h1] at hz
            exact hz.1.trans (le_abs_self z)
    have e1 := intervalIntegral.integral_add_adjacent_intervals (hi (clamp r zlow) zlow) (hi zlow zhigh)
    have e2 := intervalIntegral.integral_add_adjacent_intervals (hi (clamp r zlow) (clamp r zhigh))
      (hi (clamp r zhigh) zhigh)
    rw [hzero, zero_add] at e1
    rw [hzero, add_zero] at e2
    rw [e2, ← e1]
    simp only [hA]
  have h0' : onLine W h dr2 0 = W (√dr2 / h) := by unfold onLine; norm_num
  refine ⟨h0, ?_, ?_, ?_⟩
  · rw [hfr, ← hint]
    refine (sph_kern_frac_error hk.antitoneOn hh dr2 hr hz).trans ?_
    have := total_variation hk.antitoneOn hh dr2 hW.nonneg (clamp (√(h * h - dr2)) zlow)
      (clamp (√(h * h - dr2)) zhigh)
    rw [h0']
    have := mul_le_mul_of_nonneg_left this (by linarith : 0 ≤ (zhigh - zlow) / 16)
    linarith
  · rw [hfr, sph_kern_frac_eq]
    have hub : 0 ≤ (zhigh - zlow) * onLine W h dr2 0 := mul_nonneg (by linarith) (hnn 0)
    split
    · exact hub
    · rename_i hle
      push Not at hle
      have hlen : min zhigh (√(h * h - dr2)) - max zlow (-√(h * h - dr2)) ≤ zhigh - zlow := by
        have := min_le_left zhigh (√(h * h - dr2))
        have := le_max_left zlow (-√(h * h - dr2))
        linarith
      refine le_trans ?_ (mul_le_mul_of_nonneg_right hlen (hnn 0))
      unfold trap
      simp only [Finset.sum_range_succ, Finset.sum_range_zero, hA]
      rw [div_mul_eq_mul_div, div_le_iff₀ (by norm_num), mul_assoc]
      apply mul_le_mul_of_nonneg_left _ (by linarith)
      set a := max zlow (-√(h * h - dr2))
      set b := min zhigh (√(h * h - dr2))
      have := hle0 a; have := hle0 b
      have := fun i : ℝ => hle0 ((i + 1) * ((b - a) / 8) + a)
      linarith [this ((0 : ℕ) : ℝ), this ((1 : ℕ) : ℝ), this ((2 : ℕ) : ℝ), this ((3 : ℕ) : ℝ),
        this ((4 : ℕ) : ℝ), this ((5 : ℕ) : ℝ), this ((6 : ℕ) : ℝ)]
  · intro hmiss
    rw [hfr, sph_kern_frac_eq]
    split
    · rfl
    · rename_i hle
      push Not at hle
      have : max zlow (-√(h * h - dr2)) = min zhigh (√(h * h - dr2)) := by
        by_contra hne
        have hlt := lt_of_le_of_ne hle hne
        set a := max zlow (-√(h * h - dr2)) with ha
        set b := min zhigh (√(h * h - dr2)) with hb
        have a1 : zlow ≤ a := le_max_left _ _
        have a2 : -√(h * h - dr2) ≤ a := le_max_right _ _
        have b1 : b ≤ zhigh := min_le_left _ _
        have b2 : b ≤ √(h * h - dr2) := min_le_right _ _
        have hm := hmiss ((a + b) / 2) ⟨by linarith, by linarith⟩
        have hs := Real.sq_sqrt (by nlinarith : 0 ≤ h * h - dr2)
        nlinarith
      rw [this]; unfold trap; simp

/-- Extending a pixel beyond the particle changes nothing. -/
theorem pixel_fraction_clip {k : ℤ} {W : ℝ → ℝ} (hk : SphKernel k W) {h dr2 zr : ℝ}
    {zlow zhigh zlow' zhigh' : ℝ} (h1 : zlow = zlow' ∨ zlow ≤ -zr ∧ zlow' ≤ -zr)
    (h2 : zhigh = zhigh' ∨ zr ≤ zhigh ∧ zr ≤ zhigh') :
    get_kern_frac k zlow zhigh h dr2 zr = get_kern_frac k zlow' zhigh' h dr2 zr := by
  have e1 : max zlow (-zr) = max zlow' (-zr) := by
    rcases h1 with rfl | ⟨a, b⟩
    · rfl
    · rw [max_eq_right a, max_eq_right b]
  have e2 : min zhigh zr = min zhigh' zr := by
    rcases h2 with rfl | ⟨a, b⟩
    · rfl
    · rw [min_eq_right a, min_eq_right b]
  rw [hk.get, sph_kern_frac_eq, sph_kern_frac_eq, e1, e2]

/-- Column of a kernel of radius `h` along a whole straight line at squared distance `dr2`. -/
noncomputable def kernelColumn (W : ℝ → ℝ) (h dr2 : ℝ) : ℝ := ∫ z : ℝ, onLine W h dr2 z

theorem kernelColumn_eq {W : ℝ → ℝ} (hW : IsKernel W) {h dr2 : ℝ} (hh : 0 < h) (hdr : dr2 ≤ h ^ 2) :
    kernelColumn W h dr2 = ∫ z in -√(h * h - dr2)..√(h * h - dr2), onLine W h dr2 z := by
  have hr := Real.sqrt_nonneg (h * h - dr2)
  rw [intervalIntegral.integral_of_le (by linarith), kernelColumn,
    ← MeasureTheory.integral_indicator measurableSet_Ioc]
  congr 1
  funext z
  by_cases hz : z ∈ Set.Ioc (-√(h * h - dr2)) (√(h * h - dr2))
  · rw [Set.indicator_of_mem hz]
  · rw [Set.indicator_of_notMem hz]
    apply onLine_outside hW hh hdr
    rw [Set.mem_Ioc, not_and_or, not_lt, not_le] at hz
    rw [le_abs]
    rcases hz with hz | hz
    · right; linarith
    · left; linarith

/-- C08, whole particle: for the cubic and quintic kernels the column added to a sightline is the
density times the column of the kernel along the sightline, up to an error of at most one eighth of
a pixel times the largest kernel value on the line. The bound vanishes with the pixel size and does
not depend on where the particle lies, nor on whether it wraps around the box. -/
theorem colden_conserved_sph (L : LineAbsorption) (hL : GoodAbs L) {W : ℝ → ℝ}
    (hk : SphKernel L.kernel W) {nbins off : ℕ} (hn : 0 < nbins) {a : List ℝ}
    (ha : off + nbins ≤ a.length) {dens : ℝ} (hd : 0 ≤ dens) (pos : ℝ) {h dr2 : ℝ} (hh : 0 < h)
    (hdr : dr2 ≤ h ^ 2) :
    ∃ out, add_colden_particle L a off nbins dr2 dens pos h = .ok out ∧
      |out.sum - a.sum - dens * kernelColumn W h dr2| ≤
        dens * (L.vbox / L.velfac / nbins / 8 * onLine W h dr2 0) ∧ OnlySlice a out off nbins := by
  refine ⟨_, add_colden_eq L hn ha dr2 dens pos h, ?_, by simp, ?_⟩
  · have hv : L.kernel ≠ VORONOI_MESH := by
      generalize L.kernel = k at hk; cases hk <;> decide
    have hnb : (0 : ℝ) < nbins := by exact_mod_cast hn
    have hd' : 0 < L.vbox / nbins / L.velfac := by have := hL.vbox; have := hL.velfac; positivity
    have hW := hk.isKernel
    rw [arrAdd_sum, kernelColumn_eq hW hh hdr, show L.vbox / L.velfac / nbins = L.vbox / nbins / L.velfac by
      field_simp]
    have h0' : onLine W h dr2 0 = W (√dr2 / h) := by unfold onLine; norm_num
    have hnn : 0 ≤ onLine W h dr2 0 := hW.nonneg _ (by positivity)
    unfold coldenF
    simp only [hv, false_and, if_false, ne_eq, not_false_eq_true, true_and]
    by_cases hz : h * h - dr2 ≤ 0
    · simp only [hz, if_true, Finset.sum_const_zero]
      rw [Real.sqrt_eq_zero_of_nonpos hz]
      simp only [neg_zero, intervalIntegral.integral_same]
      rw [mul_zero, add_zero, sub_self, sub_zero, abs_zero]
      positivity
    · simp only [hz, if_false]
      rw [pixelSum_total hn ha, hk.get, List.sum_map_mul_left]
      have := sum_sph_kern_frac hk.antitoneOn hW.nonneg hh dr2 (p := pos) hd'
        (Real.sqrt_nonneg (h * h - dr2))
      rw [onLine_eq_alongLine, add_sub_cancel_left, ← mul_sub, abs_mul, abs_of_nonneg hd,
        ← onLine_eq_alongLine, h0']
      rw [← onLine_eq_alongLine] at this
      exact mul_le_mul_of_nonneg_left this hd
  · intro m hm
    rw [arrAdd_getElem?, coldenF_outside L hn hm]; simp

/-- The hypotheses hold for a concrete particle. -/
example : ∃ out, add_colden_particle (exAbs SPH_QUINTIC_SPLINE) [0, 0, 0, 0] 0 4 1 1 3 2 = .ok out ∧
    |out.sum - 0 - 1 * kernelColumn sph_quintic_kernel 2 1| ≤
      1 * ((exAbs SPH_QUINTIC_SPLINE).vbox / (exAbs SPH_QUINTIC_SPLINE).velfac / 4 / 8 *
        onLine sph_quintic_kernel 2 1 0) := by
  obtain ⟨out, h1, h2, -⟩ := colden_conserved_sph (exAbs SPH_QUINTIC_SPLINE) (exAbs_good _)
    SphKernel.quintic (nbins := 4) (off := 0) (by norm_num) (a := [0, 0, 0, 0]) (by simp)
    (dens := 1) (by norm_num) 3 (h := 2) (dr2 := 1) (by norm_num) (by norm_num)
  exact ⟨out, h1, by simpa using h2⟩

example := pixel_fraction (k := SPH_QUINTIC_SPLINE) (W := sph_quintic_kernel) .quintic
  (h := 2) (dr2 := 1) (by norm_num) (by norm_num) (by norm_num) (zlow := -1) (zhigh := 1) (by norm_num)

example := pixel_fraction_clip (k := SPH_QUINTIC_SPLINE) (W := sph_quintic_kernel) .quintic
  (h := 2) (dr2 := 1) (zr := 1.7) (zlow := -2) (zlow' := -3) (zhigh := 1) (zhigh' := 1) (by norm_num) (by norm_num)

end Verif.Props
