import Verif.Model.CodeProfile
import Verif.Props.ProfileAccuracy
import Verif.Props.TauIntegral

/-!
C94 and C95, and the optical depth of each pixel, with the line profile that the code computes.
-/

namespace Verif.Props.CodeProfile
open Verif Verif.Spec Verif.Absorption Verif.Model.Faddeeva Verif.Props.TailCut Verif.Props.TauIntegral Real MeasureTheory

/-- `L` with the Voigt function itself as line profile. -/
noncomputable def exactly (L : LineAbsorption) : LineAbsorption := { L with profile := fun u a => voigtH a u }

theorem codeProfile_near (F : RealFns) (fuel : ℕ) (u : ℝ) {a : ℝ} (ha : 1e-100 ≤ a) : |codeProfile F fuel u a - voigtH a u| ≤ 6e-10 * voigtH a u := by
  obtain ⟨r, hr, he⟩ := profile_accurate F fuel u ha
  unfold codeProfile
  rw [hr]
  exact he

theorem foldl_sum (l : List ℕ) (f : ℕ → ℝ) (a : ℝ) : l.foldl (fun t i => t + f i) a = a + (l.map f).sum := by
  induction l generalizing a with
  | nil => simp
  | cons i l ih =>
    rw [List.foldl_cons, ih, List.map_cons, List.sum_cons]
    ring

/-- A mean over a pixel is a sum with weights which do not depend on the profile. -/
theorem outer_near {s t : SingleAbsorber} (hb : 0 < s.btherm) (hst : t.btherm = s.btherm) {ε v w : ℝ} (hw : 0 ≤ w)
    (h : ∀ x, |s.tau_kern_inner x - t.tau_kern_inner x| ≤ ε * t.tau_kern_inner x) :
    |s.tau_kern_outer v (v + w) - t.tau_kern_outer v (v + w)| ≤ ε * t.tau_kern_outer v (v + w) := by
  unfold SingleAbsorber.tau_kern_outer
  simp only [add_sub_cancel_left, hst]
  split_ifs with hc
  · exact h _
  · push Not at hc
    have hpos : 1 ≤ ⌈w / (s.btherm / 2) / 2⌉ := by
      rw [Int.one_le_ceil_iff]
      have : 0 < w := by linarith
      positivity
    have hr : (1 : ℝ) ≤ (⌈w / (s.btherm / 2) / 2⌉ : ℝ) := by exact_mod_cast hpos
    have hden : (0 : ℝ) < ((2 * ⌈w / (s.btherm / 2) / 2⌉ + 1 : ℤ) : ℝ) - 1 := by push_cast; linarith
    rw [foldl_sum _ (fun i : ℕ => s.tau_kern_inner (i * (w / (((2 * ⌈w / (s.btherm / 2) / 2⌉ + 1 : ℤ) : ℝ) - 1)) + v)),
      foldl_sum _ (fun i : ℕ => t.tau_kern_inner (i * (w / (((2 * ⌈w / (s.btherm / 2) / 2⌉ + 1 : ℤ) : ℝ) - 1)) + v))]
    generalize List.range' 1 (2 * ⌈w / (s.btherm / 2) / 2⌉ + 1 - 2).toNat = l
    generalize ((2 * ⌈w / (s.btherm / 2) / 2⌉ + 1 : ℤ) : ℝ) - 1 = m at *
    have hl : |(l.map fun i : ℕ => s.tau_kern_inner (i * (w / m) + v)).sum - (l.map fun i : ℕ => t.tau_kern_inner (i * (w / m) + v)).sum| ≤
        ε * (l.map fun i : ℕ => t.tau_kern_inner (i * (w / m) + v)).sum := by
      induction l with
      | nil => simp
      | cons i l ih =>
        simp only [List.map_cons, List.sum_cons]
        rw [add_sub_add_comm, mul_add]
        exact (abs_add_le _ _).trans (add_le_add (h _) ih)
    have e1 := h v
    have e2 := h (v + w)
    rw [← sub_div, abs_div, abs_of_pos hden, mul_div_assoc']
    refine div_le_div_of_nonneg_right ?_ hden.le
    generalize (l.map fun i : ℕ => s.tau_kern_inner (i * (w / m) + v)).sum = A at *
    generalize (l.map fun i : ℕ => t.tau_kern_inner (i * (w / m) + v)).sum = B at *
    rw [abs_le] at *
    constructor <;> linarith

theorem inner_near {s t : SingleAbsorber} {ε : ℝ} (hs : 0 ≤ s.vsmooth) (hm : 0 ≤ s.m_vhigh) (h1 : s.btherm = t.btherm) (h2 : s.vdr2 = t.vdr2)
    (h3 : s.vsmooth = t.vsmooth) (h4 : s.aa = t.aa) (h5 : s.kernel = t.kernel) (h : ∀ u, |s.profile u s.aa - t.profile u s.aa| ≤ ε * t.profile u s.aa)
    (x : ℝ) : |s.tau_kern_inner x - t.tau_kern_inner x| ≤ ε * t.tau_kern_inner x := by
  have hmv : t.m_vhigh = s.m_vhigh := by
    unfold SingleAbsorber.m_vhigh
    rw [h2, h3, h5]
  have hwt : ∀ v, weight t v = weight s v := by
    intro v
    unfold weight
    rw [h2, h3, h5]
  have hnode : ∀ i, node t i = node s i := by
    intro i
    unfold node
    rw [hmv]
  rw [inner_eq, inner_eq, hmv, ← mul_sub, abs_mul, abs_of_nonneg (by positivity), mul_left_comm ε]
  refine mul_le_mul_of_nonneg_left ?_ (by positivity)
  rw [← Finset.sum_sub_distrib, Finset.mul_sum]
  refine (Finset.abs_sum_le_sum_abs _ _).trans (Finset.sum_le_sum fun i _ => ?_)
  rw [hwt, hnode, ← mul_sub, abs_mul, abs_of_nonneg (weight_nonneg hs _), mul_left_comm ε, ← h1, ← h4]
  exact mul_le_mul_of_nonneg_left (h _) (weight_nonneg hs _)

theorem vhigh_nonneg (s : SingleAbsorber) (h : s.kernel = VORONOI_MESH → s.vdr2 ≤ s.vsmooth) : 0 ≤ s.m_vhigh := by
  unfold SingleAbsorber.m_vhigh
  split_ifs with h1 h2
  · have := h h1
    linarith
  · exact le_rfl
  · positivity
  · exact le_rfl

/-- The optical depth a particle gets in a pixel is that of the Voigt function, to within a relative error of 6e-10. -/
theorem tauPixel_accurate (F : RealFns) (fuel : ℕ) (L : LineAbsorption) (hL : GoodAbs L) {nbins : ℕ} (hn : 0 < nbins) {dr2 dens temp h : ℝ} (hd : 0 ≤ dens)
    (ht : 0 < temp) (hh : 0 ≤ h) (hcell : L.kernel = VORONOI_MESH → dr2 ≤ h) (hdamp : 1e-100 ≤ L.voigt_fac / (L.bfac * √temp)) (ppos pvel : ℝ) (z : ℤ) :
    |tauPixel (LineAbsorption.withCode F fuel L) nbins dr2 dens ppos pvel temp h z - tauPixel (exactly L) nbins dr2 dens ppos pvel temp h z| ≤
      6e-10 * tauPixel (exactly L) nbins dr2 dens ppos pvel temp h z := by
  have hb : 0 < L.bfac * √temp := mul_pos hL.bfac (sqrt_pos.2 ht)
  have hw : 0 < L.vbox / nbins := div_pos hL.vbox (by exact_mod_cast hn)
  have hst : 0 ≤ strength L dens temp := by
    have := hL.sigma
    have := hL.velfac
    have : 0 < LIGHT := by norm_num [LIGHT]
    unfold strength
    positivity
  rw [tauPixel_outer, tauPixel_outer]
  change |strength L dens temp * _ - strength L dens temp * _| ≤ 6e-10 * (strength L dens temp * _)
  rw [← mul_sub, abs_mul, abs_of_nonneg hst, mul_left_comm]
  refine mul_le_mul_of_nonneg_left ?_ hst
  refine outer_near (s := absorber (LineAbsorption.withCode F fuel L) dr2 temp h) (t := absorber (exactly L) dr2 temp h) hb rfl hw.le fun x => ?_
  refine inner_near (s := absorber (LineAbsorption.withCode F fuel L) dr2 temp h) (t := absorber (exactly L) dr2 temp h) (mul_nonneg hL.velfac.le hh) (vhigh_nonneg _ fun hk => ?_) rfl rfl rfl rfl rfl (fun u => codeProfile_near F fuel u hdamp) x
  have hk' : L.kernel = VORONOI_MESH := hk
  change (if L.kernel ≠ VORONOI_MESH then L.velfac * dr2 * L.velfac else L.velfac * dr2) ≤ L.velfac * h
  rw [if_neg (not_not.2 hk')]
  exact mul_le_mul_of_nonneg_left (hcell hk') hL.velfac.le

/-- C05 with the line profile of the code: optical depth never decreases. -/
theorem tau_deposit_code (F : RealFns) (fuel : ℕ) (L : LineAbsorption) (hL : GoodAbs L)
    {nbins off : ℕ} (hn : 0 < nbins) {a : List ℝ} (ha : off + nbins ≤ a.length) {dens temp h dr2 : ℝ} (hd : 0 ≤ dens) (ht : 0 < temp)
    (hh : 0 ≤ h) (hcell : L.kernel = VORONOI_MESH → dr2 ≤ h) (hdamp : 1e-100 ≤ L.voigt_fac / (L.bfac * √temp)) (ppos pvel : ℝ) :
    ∃ out, add_tau_particle (LineAbsorption.withCode F fuel L) a off nbins dr2 dens ppos pvel temp h = .ok out ∧
      OnlySlice a out off nbins ∧ ∀ (m : ℕ) (x : ℝ), a[m]? = some x → ∃ y, out[m]? = some y ∧ x ≤ y := by
  refine tau_deposit_mono (LineAbsorption.withCode F fuel L) ⟨hL.vbox, hL.velfac, hL.bfac, hL.sigma⟩ hn ha (fun x => ?_) hd ht hh hcell ppos pvel
  have h1 := codeProfile_near F fuel x hdamp
  have h2 := voigtH_pos (lt_of_lt_of_le (by norm_num) hdamp) x
  have h3 := (abs_le.1 h1).1
  change 0 ≤ codeProfile F fuel x (L.voigt_fac / (L.bfac * √temp))
  norm_num at h3
  linarith

/-- C94, partial, with the line profile of the code: each pixel gets its optical depth up to `tautail`, and two parts in 10⁹ of it. -/
theorem tail_cut_code_partial (F : RealFns) (fuel : ℕ) (L : LineAbsorption) (hL : GoodAbs L) (hk : L.kernel ≠ VORONOI_MESH)
    {nbins off : ℕ} (hn : 0 < nbins) {a : List ℝ} (ha : off + nbins ≤ a.length) {dens ppos pvel temp dr2 h : ℝ} (hd : 0 ≤ dens) (ht : 0 < temp)
    (hh : 0 ≤ h) (hdr : dr2 < h ^ 2) (htail : 0 < L.tautail) (hdamp : 1e-100 ≤ L.voigt_fac / (L.bfac * √temp))
    (hin : ∀ z, ¬Beyond L nbins dr2 ppos pvel h z → L.tautail ≤ tauPixel (LineAbsorption.withCode F fuel L) nbins dr2 dens ppos pvel temp h z) :
    ∃ out, add_tau_particle (LineAbsorption.withCode F fuel L) a off nbins dr2 dens ppos pvel temp h = .ok out ∧
      ∀ z : ℤ, centrePixel L nbins ppos pvel - (nbins / 2 : ℕ) ≤ z → z < centrePixel L nbins ppos pvel + (nbins / 2 : ℕ) →
        ∀ x, a[off + (z % nbins).toNat]? = some x → ∃ y, out[off + (z % nbins).toNat]? = some y ∧
          x + tauPixel (LineAbsorption.withCode F fuel L) nbins dr2 dens ppos pvel temp h z - 1.000000002 * L.tautail < y ∧
          y ≤ x + tauPixel (LineAbsorption.withCode F fuel L) nbins dr2 dens ppos pvel temp h z := by
  have hL' : GoodAbs (LineAbsorption.withCode F fuel L) := ⟨hL.vbox, hL.velfac, hL.bfac, hL.sigma⟩
  have hLe : GoodAbs (exactly L) := ⟨hL.vbox, hL.velfac, hL.bfac, hL.sigma⟩
  obtain ⟨out, h1, h2⟩ := tau_deposit (LineAbsorption.withCode F fuel L) hL' hk hn ha dens ppos pvel temp hdr
  refine ⟨out, h1, fun z z1 z2 x hx => ?_⟩
  have hout := h2.2.1 z z1 z2
  rw [hx, Option.map_some] at hout
  refine ⟨_, hout, ?_⟩
  have hb : 0 < L.bfac * √temp := mul_pos hL.bfac (sqrt_pos.2 ht)
  have hvf : 0 < L.voigt_fac := by
    have h3 : 0 < L.voigt_fac / (L.bfac * √temp) := lt_of_lt_of_le (by norm_num) hdamp
    have := mul_pos h3 hb
    rwa [div_mul_cancel₀ _ hb.ne'] at this
  have hacc := tauPixel_accurate F fuel L hL hn (dr2 := dr2) hd ht hh (fun hc => absurd hc hk) hdamp ppos pvel
  have hnn : ∀ y, 0 ≤ tauPixel (exactly L) nbins dr2 dens ppos pvel temp h y := by
    intro y
    have h3 := (abs_nonneg _).trans (hacc y)
    norm_num at h3
    linarith
  have hnc : ∀ y, 0 ≤ tauPixel (LineAbsorption.withCode F fuel L) nbins dr2 dens ppos pvel temp h y := by
    intro y
    have h3 := (abs_le.1 (hacc y)).1
    have h4 := hnn y
    norm_num at h3
    linarith
  by_cases hR : Reached (pixelTau (LineAbsorption.withCode F fuel L) nbins dr2 dens ppos pvel temp h) (LineAbsorption.withCode F fuel L).tautail
      (centrePixel (LineAbsorption.withCode F fuel L) nbins ppos pvel) z
  · rw [if_pos hR]
    exact ⟨by norm_num; linarith, le_rfl⟩
  · rw [if_neg hR]
    have key : ∀ y, tauPixel (LineAbsorption.withCode F fuel L) nbins dr2 dens ppos pvel temp h y < L.tautail →
        (centrePixel L nbins ppos pvel ≤ y ∧ y < z ∨ z < y ∧ y < centrePixel L nbins ppos pvel) →
        tauPixel (LineAbsorption.withCode F fuel L) nbins dr2 dens ppos pvel temp h z < 1.000000002 * L.tautail := by
      intro y hy hyz
      have hB : Beyond L nbins dr2 ppos pvel h y := by
        by_contra hc
        exact absurd (hin y hc) (not_le.2 hy)
      have hm := tauPixel_beyond (exactly L) hLe (fun u a _ => rfl) hvf hk hn hd ht hh hdr hB hyz (dens := dens) (temp := temp)
      have a1 := (abs_le.1 (hacc z)).2
      have a2 := (abs_le.1 (hacc y)).1
      have a3 := hnn z
      have a4 := hnn y
      norm_num at a1 a2 ⊢
      linarith
    have hlt : tauPixel (LineAbsorption.withCode F fuel L) nbins dr2 dens ppos pvel temp h z < 1.000000002 * L.tautail := by
      unfold Reached at hR
      rw [not_and_or] at hR
      rcases hR with hR | hR <;> push Not at hR
      · obtain ⟨-, y, y1, y2, y3⟩ := hR
        exact key y y3 (Or.inl ⟨y1, y2⟩)
      · obtain ⟨-, y, y1, y2, y3⟩ := hR
        exact key y y3 (Or.inr ⟨y1, y2⟩)
    have := hnc z
    exact ⟨by linarith, by linarith⟩

theorem outer_integrable {s : SingleAbsorber} (hp : IsVoigt s.profile) (ha : 0 < s.aa) (hb : 0 < s.btherm) (w : ℝ) :
    Integrable fun v => s.tau_kern_outer v (v + w) := by
  have hin := inner_integrable hp ha hb
  unfold SingleAbsorber.tau_kern_outer
  simp only [add_sub_cancel_left]
  split_ifs with hc
  · have : ∀ v : ℝ, s.tau_kern_inner ((v + w + v) / 2) = s.tau_kern_inner (w / 2 + v) := fun v => by congr 1; ring
    simp only [this]
    exact hin.comp_add_left _
  · have hw' : Integrable fun v => s.tau_kern_inner (v + w) / 2 := (hin.comp_add_right w).div_const 2
    obtain ⟨h1, -⟩ := foldl_inner hp ha hb (List.range' 1 (2 * ⌈w / (s.btherm / 2) / 2⌉ + 1 - 2).toNat)
      (w / (((2 * ⌈w / (s.btherm / 2) / 2⌉ + 1 : ℤ) : ℝ) - 1)) (hin.div_const 2)
    exact (h1.add hw').div_const _

theorem tauPixel_integrable {L : LineAbsorption} (hL : GoodAbs L) (hp : IsVoigt L.profile) (hvf : 0 < L.voigt_fac) {nbins : ℕ}
    (dr2 dens ppos h : ℝ) {temp : ℝ} (ht : 0 < temp) (z : ℤ) : Integrable fun pvel => tauPixel L nbins dr2 dens ppos pvel temp h z := by
  have hb : 0 < L.bfac * √temp := mul_pos hL.bfac (sqrt_pos.2 ht)
  simp only [tauPixel_outer]
  refine Integrable.const_mul ?_ _
  have e : ∀ pvel : ℝ, (absorber L dr2 temp h).tau_kern_outer (z * (L.vbox / nbins) - (L.velfac * ppos + pvel))
      (z * (L.vbox / nbins) - (L.velfac * ppos + pvel) + L.vbox / nbins) =
      (fun v => (absorber L dr2 temp h).tau_kern_outer v (v + L.vbox / nbins)) (z * (L.vbox / nbins) - L.velfac * ppos - pvel) := by
    intro pvel
    dsimp only
    congr 1 <;> ring
  simp only [e]
  exact (outer_integrable (s := absorber L dr2 temp h) hp (div_pos hvf hb) hb (L.vbox / nbins)).comp_sub_left _

/-- C95 with the line profile of the code: the optical depth integrated over velocity is that of the Voigt function to 6e-10. -/
theorem tau_integral_code (F : RealFns) (fuel : ℕ) {L : LineAbsorption} (hL : GoodAbs L) {nbins : ℕ} (hn : 0 < nbins) {dr2 dens temp h : ℝ} (hd : 0 ≤ dens)
    (ht : 0 < temp) (hh : 0 ≤ h) (hcell : L.kernel = VORONOI_MESH → dr2 ≤ h) (hdamp : 1e-100 ≤ L.voigt_fac / (L.bfac * √temp)) (ppos : ℝ) (z : ℤ) :
    let I := ∫ pvel, tauPixel (exactly L) nbins dr2 dens ppos pvel temp h z
    ENNReal.ofReal ((1 - 6e-10) * I) ≤ ∫⁻ pvel, ENNReal.ofReal (tauPixel (LineAbsorption.withCode F fuel L) nbins dr2 dens ppos pvel temp h z) ∧
    ∫⁻ pvel, ENNReal.ofReal (tauPixel (LineAbsorption.withCode F fuel L) nbins dr2 dens ppos pvel temp h z) ≤ ENNReal.ofReal ((1 + 6e-10) * I) := by
  intro I
  have hLe : GoodAbs (exactly L) := ⟨hL.vbox, hL.velfac, hL.bfac, hL.sigma⟩
  have hb : 0 < L.bfac * √temp := mul_pos hL.bfac (sqrt_pos.2 ht)
  have hvf : 0 < L.voigt_fac := by
    have h3 : 0 < L.voigt_fac / (L.bfac * √temp) := lt_of_lt_of_le (by norm_num) hdamp
    have := mul_pos h3 hb
    rwa [div_mul_cancel₀ _ hb.ne'] at this
  have hacc := fun pvel => tauPixel_accurate F fuel L hL hn (dr2 := dr2) hd ht hh hcell hdamp ppos pvel z
  have hint := tauPixel_integrable hLe (fun u a _ => rfl) hvf (nbins := nbins) dr2 dens ppos h ht z
  have hnn : ∀ y, 0 ≤ tauPixel (exactly L) nbins dr2 dens ppos y temp h z := by
    intro y
    have h3 := (abs_nonneg _).trans (hacc y)
    norm_num at h3
    linarith
  have key : ∀ c : ℝ, 0 ≤ c → ENNReal.ofReal (c * I) = ∫⁻ pvel, ENNReal.ofReal (c * tauPixel (exactly L) nbins dr2 dens ppos pvel temp h z) := by
    intro c hc
    rw [← ofReal_integral_eq_lintegral_ofReal (hint.const_mul c) (Filter.Eventually.of_forall fun y => mul_nonneg hc (hnn y)), integral_const_mul]
  constructor
  · rw [key _ (by norm_num)]
    refine lintegral_mono fun y => ENNReal.ofReal_le_ofReal ?_
    have := (abs_le.1 (hacc y)).1
    norm_num at this ⊢
    linarith
  · rw [key _ (by norm_num)]
    refine lintegral_mono fun y => ENNReal.ofReal_le_ofReal ?_
    have := (abs_le.1 (hacc y)).2
    norm_num at this ⊢
    linarith

/-- Witness: a line of width 5 km/s at 1 K, with a damping parameter of 0.2. -/
example : GoodAbs (onePixAbs 1) ∧ (1e-100 : ℝ) ≤ (onePixAbs 1).voigt_fac / ((onePixAbs 1).bfac * √1) := by
  refine ⟨onePixAbs_good 1, ?_⟩
  change (1e-100 : ℝ) ≤ 1 / (5 * √1)
  rw [sqrt_one]
  norm_num

theorem onePix_damp : (1e-100 : ℝ) ≤ (onePixAbs 1).voigt_fac / ((onePixAbs 1).bfac * √1) := by
  change (1e-100 : ℝ) ≤ 1 / (5 * √1)
  rw [sqrt_one]
  norm_num

example (F : RealFns) := tauPixel_accurate F 10 (onePixAbs 1) (onePixAbs_good 1) (nbins := 4) (by norm_num) (dr2 := 1) (dens := 3) (temp := 1)
  (h := 2) (by norm_num) (by norm_num) (by norm_num) (fun h => by norm_num) onePix_damp 0.3 7 2

example (F : RealFns) := tau_deposit_code F 10 (onePixAbs 1) (onePixAbs_good 1) (nbins := 4) (off := 1) (by norm_num)
  (a := [0, 1, 2, 0, 1]) (by simp) (dr2 := 1) (dens := 3) (temp := 1) (h := 2) (by norm_num) (by norm_num) (by norm_num)
  (fun h => by norm_num) onePix_damp 0.3 7

end Verif.Props.CodeProfile
