import Verif.Props.TailCut

/-!
C95: the integral over velocity of the optical depth of a particle, for the Voigt function itself.
-/

namespace Verif.Props.TauIntegral
open Verif Verif.Spec Verif.Absorption Verif.Props.TailCut Real MeasureTheory

/-- The trapezium rule with eight intervals for the integral of `f` from `-r` to `r`. -/
noncomputable def trapezium8 (f : ℝ → ℝ) (r : ℝ) : ℝ :=
  2 * r / 8 * (f (-r) / 2 + ∑ i ∈ Finset.range 7, f (-r + (i + 1) * (2 * r / 8)) + f r / 2)

theorem voigtH_integrable {a : ℝ} (ha : 0 < a) : Integrable (voigtH a) := by
  by_contra h
  have := voigtH_integral ha
  rw [integral_undef h] at this
  exact absurd this (sqrt_pos.2 pi_pos).ne

theorem shifted_integrable {a b : ℝ} (ha : 0 < a) (hb : 0 < b) (c : ℝ) : Integrable fun v => voigtH a ((c - v) / b) := by
  have h1 : Integrable fun v => voigtH a (v / b) := (voigtH_integrable ha).comp_div hb.ne'
  exact h1.comp_sub_left c

theorem shifted_integral {a b : ℝ} (ha : 0 < a) (hb : 0 < b) (c : ℝ) : ∫ v, voigtH a ((c - v) / b) = b * √π := by
  rw [integral_sub_left_eq_self (fun v => voigtH a (v / b)) volume c, Measure.integral_comp_div, voigtH_integral ha, abs_of_pos hb, smul_eq_mul]

section
variable {s : SingleAbsorber} (hp : IsVoigt s.profile) (ha : 0 < s.aa) (hb : 0 < s.btherm)
include hp ha hb

theorem inner_voigt (v : ℝ) : s.tau_kern_inner v =
    2 * s.m_vhigh / 8 * ∑ i ∈ Finset.range 7, weight s (node s i) * voigtH s.aa ((node s i - v) / s.btherm) := by
  rw [inner_eq]
  congr 1
  exact Finset.sum_congr rfl fun i _ => by rw [hp _ _ ha]

theorem inner_integrable : Integrable s.tau_kern_inner := by
  rw [show s.tau_kern_inner = _ from funext (inner_voigt hp ha hb)]
  exact (integrable_finsetSum _ fun i _ => (shifted_integrable ha hb _).const_mul _).const_mul _

theorem inner_integral : ∫ v, s.tau_kern_inner v = s.btherm * √π * (2 * s.m_vhigh / 8 * ∑ i ∈ Finset.range 7, weight s (node s i)) := by
  rw [show s.tau_kern_inner = _ from funext (inner_voigt hp ha hb), integral_const_mul,
    integral_finsetSum _ fun i _ => (shifted_integrable ha hb _).const_mul _]
  simp only [integral_const_mul, shifted_integral ha hb]
  rw [← Finset.sum_mul]
  ring

theorem foldl_inner (l : List ℕ) (d : ℝ) {f : ℝ → ℝ} (hf : Integrable f) :
    Integrable (fun v => l.foldl (fun t (i : ℕ) => t + s.tau_kern_inner (i * d + v)) (f v)) ∧
    ∫ v, l.foldl (fun t (i : ℕ) => t + s.tau_kern_inner (i * d + v)) (f v) = (∫ v, f v) + l.length * ∫ v, s.tau_kern_inner v := by
  have hin := inner_integrable hp ha hb
  induction l generalizing f with
  | nil => exact ⟨hf, by simp⟩
  | cons i l ih =>
    have hi : Integrable fun v => s.tau_kern_inner (i * d + v) := hin.comp_add_left _
    obtain ⟨h1, h2⟩ := ih (hf.add hi)
    refine ⟨h1, ?_⟩
    simp only [List.foldl_cons]
    refine Eq.trans h2 ?_
    have e : ∫ v, (f + fun v => s.tau_kern_inner (i * d + v)) v = (∫ v, f v) + ∫ v, s.tau_kern_inner (i * d + v) := integral_add hf hi
    rw [e, integral_add_left_eq_self s.tau_kern_inner, List.length_cons]
    push_cast
    ring

/-- The mean over a pixel has the same integral. -/
theorem outer_integral {w : ℝ} (hw : 0 < w) :
    ∫ v, s.tau_kern_outer v (v + w) = ∫ v, s.tau_kern_inner v := by
  have hin := inner_integrable hp ha hb
  unfold SingleAbsorber.tau_kern_outer
  simp only [add_sub_cancel_left]
  split_ifs with hc
  · have : ∀ v : ℝ, s.tau_kern_inner ((v + w + v) / 2) = s.tau_kern_inner (w / 2 + v) := fun v => by congr 1; ring
    simp only [this]
    exact integral_add_left_eq_self s.tau_kern_inner _
  · have hpos : 1 ≤ ⌈w / (s.btherm / 2) / 2⌉ := by
      rw [Int.one_le_ceil_iff]
      positivity
    set n := ⌈w / (s.btherm / 2) / 2⌉ with hn
    have hden : ((2 * n + 1 : ℤ) : ℝ) - 1 ≠ 0 := by
      have : (1 : ℝ) ≤ n := by exact_mod_cast hpos
      push_cast
      linarith
    have hw' : Integrable fun v => s.tau_kern_inner (v + w) / 2 := (hin.comp_add_right w).div_const 2
    obtain ⟨h1, h2⟩ := foldl_inner hp ha hb (List.range' 1 (2 * n + 1 - 2).toNat) (w / (((2 * n + 1 : ℤ) : ℝ) - 1)) (hin.div_const 2)
    rw [integral_div, integral_add h1 hw', h2, integral_div, integral_div, integral_add_right_eq_self s.tau_kern_inner, List.length_range']
    have hl : (((2 * n + 1 - 2).toNat : ℕ) : ℝ) = 2 * n - 1 := by
      have : (((2 * n + 1 - 2).toNat : ℕ) : ℤ) = 2 * n - 1 := by omega
      exact_mod_cast this
    rw [hl, div_eq_iff hden]
    push_cast
    ring

end

/-- The velocity-integrated optical depth in a pixel of a particle whose velocity runs over all values. -/
theorem tauPixel_integral {L : LineAbsorption} (hL : GoodAbs L) (hp : IsVoigt L.profile) (hvf : 0 < L.voigt_fac) {nbins : ℕ} (hn : 0 < nbins)
    (dr2 dens ppos h : ℝ) {temp : ℝ} (ht : 0 < temp) (z : ℤ) :
    ∫ pvel, tauPixel L nbins dr2 dens ppos pvel temp h z = L.sigma_a * (LIGHT / 1e5) * dens / L.velfac *
      (2 * (absorber L dr2 temp h).m_vhigh / 8 * ∑ i ∈ Finset.range 7, weight (absorber L dr2 temp h) (node (absorber L dr2 temp h) i)) := by
  have hb : 0 < L.bfac * √temp := mul_pos hL.bfac (sqrt_pos.2 ht)
  have hpi : 0 < √π := sqrt_pos.2 pi_pos
  have hw : 0 < L.vbox / nbins := div_pos hL.vbox (by exact_mod_cast hn)
  have hv := hL.velfac
  simp only [tauPixel_outer]
  rw [integral_const_mul]
  have e : ∀ pvel : ℝ, (absorber L dr2 temp h).tau_kern_outer (z * (L.vbox / nbins) - (L.velfac * ppos + pvel))
      (z * (L.vbox / nbins) - (L.velfac * ppos + pvel) + L.vbox / nbins) =
      (fun v => (absorber L dr2 temp h).tau_kern_outer v (v + L.vbox / nbins)) (z * (L.vbox / nbins) - L.velfac * ppos - pvel) := by
    intro pvel
    dsimp only
    congr 1 <;> ring
  simp only [e]
  rw [integral_sub_left_eq_self (fun v => (absorber L dr2 temp h).tau_kern_outer v (v + L.vbox / nbins)) volume,
    outer_integral (s := absorber L dr2 temp h) hp (div_pos hvf hb) hb hw, inner_integral (s := absorber L dr2 temp h) hp (div_pos hvf hb) hb]
  have e2 : (absorber L dr2 temp h).btherm = L.bfac * √temp := rfl
  rw [e2]
  unfold strength
  have := hL.bfac
  have := sqrt_pos.2 ht
  field_simp

/-- C95, SPH kernels `W`: the optical depth of a particle, integrated over velocity, is the cross-section times the speed of light
in km/s times the column density of the particle along the sightline, by the trapezium rule on the chord through the particle. -/
theorem tau_integral_sph {L : LineAbsorption} (hL : GoodAbs L) (hp : IsVoigt L.profile) (hvf : 0 < L.voigt_fac) {W : ℝ → ℝ}
    (hk : L.kernel = SPH_CUBIC_SPLINE ∧ W = sph_cubic_kernel ∨ L.kernel = SPH_QUINTIC_SPLINE ∧ W = sph_quintic_kernel)
    {nbins : ℕ} (hn : 0 < nbins) {dr2 h temp : ℝ} (dens ppos : ℝ) (hh : 0 < h) (hdr : dr2 < h ^ 2) (ht : 0 < temp) (z : ℤ) :
    ∫ pvel, tauPixel L nbins dr2 dens ppos pvel temp h z =
      L.sigma_a * (LIGHT / 1e5) * (dens * trapezium8 (fun x => W (√(dr2 + x ^ 2) / h)) √(h ^ 2 - dr2)) := by
  have hv := hL.velfac
  have hm : L.kernel ≠ VORONOI_MESH := by rcases hk with ⟨h, -⟩ | ⟨h, -⟩ <;> rw [h] <;> decide
  rw [tauPixel_integral hL hp hvf hn dr2 dens ppos h ht z, vhigh_sph hm hv hdr]
  set r := √(h ^ 2 - dr2) with hr
  have hr2 : r ^ 2 = h ^ 2 - dr2 := sq_sqrt (by linarith)
  have h1 : W 1 = 0 := by
    rcases hk with ⟨-, rfl⟩ | ⟨-, rfl⟩
    · unfold sph_cubic_kernel; simp
    · unfold sph_quintic_kernel; simp
  have hend : √(dr2 + r ^ 2) / h = 1 := by
    rw [hr2, show dr2 + (h ^ 2 - dr2) = h ^ 2 by ring, sqrt_sq hh.le, div_self hh.ne']
  have hW : ∀ x, weight (absorber L dr2 temp h) (L.velfac * x) = W (√(dr2 + x ^ 2) / h) := by
    intro x
    have e : (absorber L dr2 temp h).vdr2 + L.velfac * x * (L.velfac * x) = L.velfac ^ 2 * (dr2 + x ^ 2) := by
      unfold absorber
      simp only [hm, ne_eq, not_false_eq_true, if_true]
      ring
    have e2 : √((absorber L dr2 temp h).vdr2 + L.velfac * x * (L.velfac * x)) / (absorber L dr2 temp h).vsmooth = √(dr2 + x ^ 2) / h := by
      rw [e, sqrt_mul (by positivity), sqrt_sq hv.le]
      change L.velfac * _ / (L.velfac * h) = _
      field_simp
    unfold weight
    rw [e2]
    change (if L.kernel = _ then _ else if L.kernel = _ then _ else _) = _
    rcases hk with ⟨h, rfl⟩ | ⟨h, rfl⟩ <;> rw [h]
    · rw [if_pos rfl]
    · rw [if_neg (by decide), if_pos rfl]
  have hnode : ∀ i : ℕ, node (absorber L dr2 temp h) i = L.velfac * (-r + (i + 1) * (2 * r / 8)) := by
    intro i
    unfold node
    rw [vhigh_sph hm hv hdr]
    ring
  simp only [hnode, hW]
  unfold trapezium8
  dsimp only
  rw [neg_sq, hend, h1]
  field_simp
  ring

/-- `sph_kern_frac` of a pixel that holds the whole particle is the trapezium rule on the chord. -/
theorem kern_frac_whole {W : ℝ → ℝ} {zlow zhigh h dr2 r : ℝ} (hr : 0 ≤ r) (h1 : zlow ≤ -r) (h2 : r ≤ zhigh) :
    sph_kern_frac W zlow zhigh h dr2 r = trapezium8 (fun x => W (√(dr2 + x ^ 2) / h)) r := by
  unfold sph_kern_frac trapezium8
  simp only [max_eq_right h1, min_eq_right h2]
  rw [if_neg (by linarith)]
  have h8 : ((NGRID : ℕ) : ℝ) = 8 := by norm_num [NGRID]
  have hrg : List.range' 1 (NGRID - 1) = [1, 2, 3, 4, 5, 6, 7] := rfl
  rw [hrg, h8]
  simp only [List.foldl_cons, List.foldl_nil, Finset.sum_range_succ, Finset.sum_range_zero]
  push_cast
  have e : ∀ k : ℝ, k * ((r - -r) / 8) + -r = -r + k * (2 * r / 8) := fun k => by ring
  simp only [e, ← sq]
  norm_num
  ring

theorem kern_frac_apart {W : ℝ → ℝ} {zlow zhigh h dr2 r : ℝ} (h1 : r ≤ zlow ∨ zhigh ≤ -r) :
    sph_kern_frac W zlow zhigh h dr2 r = 0 := by
  unfold sph_kern_frac
  dsimp only
  split_ifs with hc
  · rfl
  · push Not at hc
    have : min zhigh r - max zlow (-r) = 0 := by
      have a1 := min_le_left zhigh r
      have a2 := min_le_right zhigh r
      have a3 := le_max_left zlow (-r)
      have a4 := le_max_right zlow (-r)
      rcases h1 with h1 | h1 <;> linarith
    rw [this, zero_div, zero_mul]

/-- C95, partial: for the SPH kernels, and particles inside one pixel, the optical depth integrated over velocity is the cross-section
times the speed of light times the column density added to the spectrum. Missing: particles over several pixels, whose column density
is a finer trapezium rule than that of the optical depth (`tau_integral_sph`); false for the other kernels (`tau_column_tophat`,
`tau_column_mesh`). -/
theorem tau_column_partial {L : LineAbsorption} (hL : GoodAbs L) (hp : IsVoigt L.profile) (hvf : 0 < L.voigt_fac)
    (hk : L.kernel = SPH_CUBIC_SPLINE ∨ L.kernel = SPH_QUINTIC_SPLINE)
    {nbins off : ℕ} (hn : 0 < nbins) {a : List ℝ} (ha : off + nbins ≤ a.length) {dr2 h temp ppos : ℝ} (dens : ℝ) (hh : 0 < h) (hdr : dr2 < h ^ 2)
    (ht : 0 < temp) {z₀ : ℤ} (h1 : z₀ * (L.vbox / L.velfac / nbins) ≤ ppos - √(h ^ 2 - dr2))
    (h2 : ppos + √(h ^ 2 - dr2) ≤ (z₀ + 1) * (L.vbox / L.velfac / nbins)) (z : ℤ) :
    ∃ out, add_colden_particle L a off nbins dr2 dens ppos h = .ok out ∧
      ∫ pvel, tauPixel L nbins dr2 dens ppos pvel temp h z = L.sigma_a * (LIGHT / 1e5) * (out.sum - a.sum) := by
  refine ⟨_, add_colden_eq L hn ha dr2 dens ppos h, ?_⟩
  have hm : L.kernel ≠ VORONOI_MESH := by rcases hk with h | h <;> rw [h] <;> decide
  obtain ⟨W, hW⟩ : ∃ W, L.kernel = SPH_CUBIC_SPLINE ∧ W = sph_cubic_kernel ∨ L.kernel = SPH_QUINTIC_SPLINE ∧ W = sph_quintic_kernel := by
    rcases hk with h | h
    · exact ⟨_, Or.inl ⟨h, rfl⟩⟩
    · exact ⟨_, Or.inr ⟨h, rfl⟩⟩
  have hg : get_kern_frac L.kernel = sph_kern_frac W := by
    unfold get_kern_frac
    rcases hW with ⟨h, rfl⟩ | ⟨h, rfl⟩ <;> rw [h]
    · rw [if_neg (by decide), if_pos rfl]; rfl
    · rw [if_neg (by decide), if_neg (by decide), if_neg (by decide), if_pos rfl]; rfl
  rw [tau_integral_sph hL hp hvf hW hn dens ppos hh hdr ht z, arrAdd_sum, add_sub_cancel_left]
  congr 1
  unfold coldenF
  simp only [hm, false_and, if_false, ne_eq, not_false_eq_true, true_and]
  have hneg : ¬h * h - dr2 ≤ 0 := by nlinarith
  simp only [hneg, if_false]
  rw [pixelSum_total hn ha, hg]
  have hnb : (0 : ℝ) < nbins := by exact_mod_cast hn
  have hd : 0 < L.vbox / nbins / L.velfac := by have := hL.vbox; have := hL.velfac; positivity
  rw [show L.vbox / L.velfac / nbins = L.vbox / nbins / L.velfac by ring] at h1 h2
  set d := L.vbox / nbins / L.velfac
  rw [show h * h - dr2 = h ^ 2 - dr2 by ring]
  have hr : 0 < √(h ^ 2 - dr2) := sqrt_pos.2 (by linarith)
  set r := √(h ^ 2 - dr2)
  have hval : ∀ y : ℤ, dens * sph_kern_frac W (d * y - ppos) (d * y - ppos + d) h dr2 r =
      if y = z₀ then dens * trapezium8 (fun x => W (√(dr2 + x ^ 2) / h)) r else 0 := by
    intro y
    split_ifs with hy
    · subst hy
      rw [kern_frac_whole hr.le (by linarith) (by linarith)]
    · rcases lt_or_gt_of_ne hy with hlt | hlt
      · have : (y : ℝ) + 1 ≤ z₀ := by exact_mod_cast hlt
        rw [kern_frac_apart (Or.inr (by nlinarith)), mul_zero]
      · have : (z₀ : ℝ) + 1 ≤ y := by exact_mod_cast hlt
        rw [kern_frac_apart (Or.inl (by nlinarith)), mul_zero]
  simp only [hval]
  have hmem : z₀ ∈ intRange ⌊(ppos - r) / d⌋ ⌈(ppos + r) / d⌉ := by
    rw [mem_intRange]
    constructor
    · have : (ppos - r) / d < ((z₀ + 1 : ℤ) : ℝ) := by rw [div_lt_iff₀ hd]; push_cast; linarith
      have := Int.floor_lt.2 this
      omega
    · have : ((z₀ : ℤ) : ℝ) < (ppos + r) / d := by rw [lt_div_iff₀ hd]; linarith
      exact (Int.lt_ceil.2 this).le
  have hnd : (intRange ⌊(ppos - r) / d⌋ ⌈(ppos + r) / d⌉).Nodup := by
    unfold intRange
    exact List.Nodup.map (fun i j h => by simpa using h) List.nodup_range
  rw [List.sum_map_ite_eq, List.count_eq_one_of_mem hnd hmem]
  simp

/-- C95 fails for the top-hat kernel: the optical depth is an eighth lower than the column density, because the ends of the chord, where
the density is as large as in the middle, are left out. -/
theorem tau_column_tophat {L : LineAbsorption} (hL : GoodAbs L) (hp : IsVoigt L.profile) (hvf : 0 < L.voigt_fac) (hk : L.kernel = TOP_HAT_KERNEL)
    {nbins off : ℕ} (hn : 0 < nbins) {a : List ℝ} (ha : off + nbins ≤ a.length) {dr2 h temp : ℝ} (dens ppos : ℝ) (hdr : dr2 < h ^ 2)
    (ht : 0 < temp) (z : ℤ) :
    ∃ out, add_colden_particle L a off nbins dr2 dens ppos h = .ok out ∧
      ∫ pvel, tauPixel L nbins dr2 dens ppos pvel temp h z = 7 / 8 * (L.sigma_a * (LIGHT / 1e5) * (out.sum - a.sum)) := by
  obtain ⟨out, h1, h2, -⟩ := colden_conserved_tophat L hL hk hn ha dens ppos hdr.le
  refine ⟨out, h1, ?_⟩
  have hm : L.kernel ≠ VORONOI_MESH := by rw [hk]; decide
  have hw : ∀ x, weight (absorber L dr2 temp h) x = 3 / 4 / π := by
    intro x
    unfold weight
    change (if L.kernel = _ then _ else if L.kernel = _ then _ else if L.kernel = _ then _ else _) = _
    rw [hk, if_neg (by decide), if_neg (by decide), if_pos rfl]
  rw [tauPixel_integral hL hp hvf hn dr2 dens ppos h ht z, vhigh_sph hm hL.velfac hdr, h2, chordLength_eq hdr.le]
  simp only [hw, Finset.sum_const, Finset.card_range, nsmul_eq_mul]
  have := pi_pos
  have := hL.velfac
  field_simp
  push_cast
  ring

/-- C95 fails for the moving mesh in the same way. -/
theorem tau_column_mesh {L : LineAbsorption} (hL : GoodAbs L) (hp : IsVoigt L.profile) (hvf : 0 < L.voigt_fac) (hk : L.kernel = VORONOI_MESH)
    {nbins off : ℕ} (hn : 0 < nbins) {a : List ℝ} (ha : off + nbins ≤ a.length) {lo hi temp : ℝ} (dens ppos : ℝ) (hlo : 0 < lo) (hle : lo ≤ hi)
    (hbox : hi ≤ 2 * (L.vbox / L.velfac)) (ht : 0 < temp) (z : ℤ) :
    ∃ out, add_colden_particle L a off nbins lo dens ppos hi = .ok out ∧
      ∫ pvel, tauPixel L nbins lo dens ((lo + hi) / 2) pvel temp hi z = 7 / 8 * (L.sigma_a * (LIGHT / 1e5) * (out.sum - a.sum)) := by
  obtain ⟨out, h1, h2, -⟩ := colden_conserved_voronoi L hL hk hn ha dens ppos hle hbox
  refine ⟨out, h1, ?_⟩
  have hv := hL.velfac
  have hw : ∀ x, weight (absorber L lo temp hi) x = 1 := by
    intro x
    unfold weight
    change (if L.kernel = _ then _ else if L.kernel = _ then _ else if L.kernel = _ then _ else _) = _
    rw [hk, if_neg (by decide), if_neg (by decide), if_neg (by decide)]
  have hm : (absorber L lo temp hi).m_vhigh = L.velfac * ((hi - lo) / 2) := by
    unfold SingleAbsorber.m_vhigh absorber
    simp only [hk, if_true, ne_eq, not_true, if_false]
    rw [if_pos ⟨by positivity, mul_pos hv (by linarith)⟩]
    ring
  rw [tauPixel_integral hL hp hvf hn lo dens ((lo + hi) / 2) hi ht z, hm, h2]
  simp only [hw, Finset.sum_const, Finset.card_range, nsmul_eq_mul]
  field_simp
  push_cast
  ring

/-- Witness for `tau_integral_sph` and `tau_column_partial`: a particle inside pixel 1 of 4, with the cubic spline. -/
example : ∃ out, add_colden_particle { onePixAbs 1 with kernel := SPH_CUBIC_SPLINE } [0, 0, 0, 0] 0 4 0 1 3 1 = .ok out ∧
    ∫ pvel, tauPixel { onePixAbs 1 with kernel := SPH_CUBIC_SPLINE } 4 0 1 3 pvel 1 1 2 =
      (onePixAbs 1).sigma_a * (LIGHT / 1e5) * (out.sum - 0) := by
  have hg : GoodAbs { onePixAbs 1 with kernel := SPH_CUBIC_SPLINE } := by
    have := onePixAbs_good 1
    exact ⟨this.1, this.2, this.3, this.4⟩
  have hs : √((1 : ℝ) ^ 2 - 0) = 1 := by norm_num
  obtain ⟨out, h1, h2⟩ := tau_column_partial (L := { onePixAbs 1 with kernel := SPH_CUBIC_SPLINE }) hg (fun u a _ => rfl)
    (by norm_num [onePixAbs]) (Or.inl rfl) (nbins := 4) (off := 0) (by norm_num) (a := [0, 0, 0, 0]) (by simp) (dr2 := 0) (h := 1) (temp := 1)
    (ppos := 3) 1 (by norm_num) (by norm_num) (by norm_num) (z₀ := 1) (by rw [hs]; norm_num [onePixAbs]) (by rw [hs]; norm_num [onePixAbs]) 2
  exact ⟨out, h1, by rw [h2]; simp [onePixAbs]⟩

/-- C95 does not hold: the optical depth of a particle with the top-hat kernel differs from the cross-section times its column density. -/
theorem tau_column_fails : ∃ out, add_colden_particle (onePixAbs 1) [0, 0, 0, 0] 0 4 0 1 3 1 = .ok out ∧
    ∫ pvel, tauPixel (onePixAbs 1) 4 0 1 3 pvel 1 1 2 ≠ (onePixAbs 1).sigma_a * (LIGHT / 1e5) * out.sum := by
  obtain ⟨out, h1, h2⟩ := tau_column_tophat (onePixAbs_good 1) (fun u a _ => rfl) (by norm_num [onePixAbs]) rfl (nbins := 4) (off := 0)
    (by norm_num) (a := [0, 0, 0, 0]) (by simp) (dr2 := 0) (h := 1) (temp := 1) 1 3 (by norm_num) (by norm_num) 2
  obtain ⟨out', h1', h3, -⟩ := colden_conserved_tophat (onePixAbs 1) (onePixAbs_good 1) rfl (nbins := 4) (off := 0) (by norm_num)
    (a := [0, 0, 0, 0]) (by simp) 1 3 (h := 1) (dr2 := 0) (by norm_num)
  obtain rfl : out' = out := by rw [h1] at h1'; cases h1'; rfl
  refine ⟨out', h1, ?_⟩
  rw [h2]
  have hL : 0 < LIGHT := by norm_num [LIGHT]
  have hpi := pi_pos
  have hsum : 0 < out'.sum := by
    rw [h3, chordLength_eq (by norm_num)]
    norm_num
    positivity
  have hs : 0 < (onePixAbs 1).sigma_a := by unfold onePixAbs; positivity
  have : 0 < (onePixAbs 1).sigma_a * (LIGHT / 1e5) * out'.sum := by positivity
  intro h
  have e : ([0, 0, 0, 0] : List ℝ).sum = 0 := by simp
  rw [e, sub_zero] at h
  linarith

/-- Witness for `tau_column_mesh`: the cell from 1 to 3. -/
example : ∃ out, add_colden_particle { onePixAbs 1 with kernel := VORONOI_MESH } [0, 0, 0, 0] 0 4 1 1 2 3 = .ok out ∧
    ∫ pvel, tauPixel { onePixAbs 1 with kernel := VORONOI_MESH } 4 1 1 ((1 + 3) / 2) pvel 1 3 2 =
      7 / 8 * ((onePixAbs 1).sigma_a * (LIGHT / 1e5) * (out.sum - 0)) := by
  have hg : GoodAbs { onePixAbs 1 with kernel := VORONOI_MESH } := by
    have := onePixAbs_good 1
    exact ⟨this.1, this.2, this.3, this.4⟩
  obtain ⟨out, h1, h2⟩ := tau_column_mesh (L := { onePixAbs 1 with kernel := VORONOI_MESH }) hg (fun u a _ => rfl)
    (by norm_num [onePixAbs]) rfl (nbins := 4) (off := 0) (by norm_num) (a := [0, 0, 0, 0]) (by simp) (lo := 1) (hi := 3) (temp := 1)
    1 2 (by norm_num) (by norm_num) (by norm_num [onePixAbs]) (by norm_num) 2
  exact ⟨out, h1, by rw [h2]; simp [onePixAbs]⟩

example := tau_integral_sph (L := { onePixAbs 1 with kernel := SPH_QUINTIC_SPLINE })
  ⟨(onePixAbs_good 1).1, (onePixAbs_good 1).2, (onePixAbs_good 1).3, (onePixAbs_good 1).4⟩ (fun u a _ => rfl) (by norm_num [onePixAbs]) (Or.inr ⟨rfl, rfl⟩)
  (nbins := 4) (by norm_num) (dr2 := 0.5) (h := 1) (temp := 1) 2 3 (by norm_num) (by norm_num) (by norm_num) 2

example := tau_column_tophat (L := onePixAbs 1) (onePixAbs_good 1) (fun u a _ => rfl) (by norm_num [onePixAbs]) rfl (nbins := 4) (off := 0) (by norm_num)
  (a := [0, 0, 0, 0]) (by simp) (dr2 := 0.5) (h := 1) (temp := 1) 2 3 (by norm_num) (by norm_num) 2

end Verif.Props.TauIntegral
