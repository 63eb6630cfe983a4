import Mathlib.Analysis.Complex.ExponentialBounds
import Verif.Spec.Voigt
import Verif.Props.Deposit

/-!
C94: what the cut in the wings of a line loses. C95: the integral of the optical depth. Both for the Voigt function itself.
-/

namespace Verif.Props.TailCut
open Verif Verif.Spec Verif.Absorption Real

/-- `Faddeeva::w(u + ia).real()` is the Voigt function (fake_spectra/singleabs.h:56-61). -/
def IsVoigt (profile : ℝ → ℝ → ℝ) : Prop := ∀ u a : ℝ, 0 < a → profile u a = voigtH a u

/-- The density of the particle at velocity `vv` from its centre, relative to that given. -/
noncomputable def weight (s : SingleAbsorber) (vv : ℝ) : ℝ :=
  if s.kernel = SPH_CUBIC_SPLINE then sph_cubic_kernel (√(s.vdr2 + vv * vv) / s.vsmooth)
  else if s.kernel = SPH_QUINTIC_SPLINE then sph_quintic_kernel (√(s.vdr2 + vv * vv) / s.vsmooth)
  else if s.kernel = TOP_HAT_KERNEL then 3 / 4 / π
  else 1

/-- The velocities at which the density is taken. -/
noncomputable def node (s : SingleAbsorber) (i : ℕ) : ℝ := ((i : ℝ) + 1) * (2 * s.m_vhigh / 8) - s.m_vhigh

theorem inner_eq (s : SingleAbsorber) (v : ℝ) : s.tau_kern_inner v =
    2 * s.m_vhigh / 8 * ∑ i ∈ Finset.range 7, weight s (node s i) * s.profile ((node s i - v) / s.btherm) s.aa := by
  unfold SingleAbsorber.tau_kern_inner
  have h8 : ((NGRID : ℕ) : ℝ) = 8 := by norm_num [NGRID]
  have hr : List.range' 1 (NGRID - 1) = [0 + 1, 1 + 1, 2 + 1, 3 + 1, 4 + 1, 5 + 1, 6 + 1] := rfl
  have hterm : ∀ (t : ℝ) (i : ℕ), (let vv := ((i + 1 : ℕ) : ℝ) * (2 * s.m_vhigh / 8) - s.m_vhigh
      let q := √(s.vdr2 + vv * vv) / s.vsmooth
      let vdiff := vv - v
      let T0 := vdiff / s.btherm
      let tbin := s.profile T0 s.aa
      let tbin :=
        if s.kernel = SPH_CUBIC_SPLINE then tbin * sph_cubic_kernel q
        else if s.kernel = SPH_QUINTIC_SPLINE then tbin * sph_quintic_kernel q
        else if s.kernel = TOP_HAT_KERNEL then tbin * (3 / 4 / π)
        else tbin
      t + tbin) = t + weight s (node s i) * s.profile ((node s i - v) / s.btherm) s.aa := by
    intro t i
    unfold weight node
    push_cast
    split_ifs <;> ring
  simp only [h8, hr, List.foldl_cons, List.foldl_nil]
  congr 1
  rw [hterm, hterm, hterm, hterm, hterm, hterm, hterm]
  simp only [Finset.sum_range_succ, Finset.sum_range_zero]

theorem weight_nonneg {s : SingleAbsorber} (hs : 0 ≤ s.vsmooth) (vv : ℝ) : 0 ≤ weight s vv := by
  have hp := pi_pos
  unfold weight
  split_ifs
  · exact sph_cubic_kernel_nonneg (by positivity)
  · exact sph_quintic_kernel_nonneg (by positivity)
  · positivity
  · exact zero_le_one

theorem node_abs {s : SingleAbsorber} (hm : 0 ≤ s.m_vhigh) {i : ℕ} (hi : i < 7) : |node s i| ≤ s.m_vhigh := by
  have h : (i : ℝ) ≤ 6 := by exact_mod_cast (show i ≤ 6 by omega)
  have h0 : (0 : ℝ) ≤ i := Nat.cast_nonneg _
  unfold node
  rw [abs_le]
  constructor <;> nlinarith

/-- Away from the particle, beyond its smoothing length, absorption decreases. -/
theorem inner_antitone {s : SingleAbsorber} (hp : IsVoigt s.profile) (ha : 0 < s.aa) (hb : 0 < s.btherm) (hs : 0 ≤ s.vsmooth)
    (hm : 0 ≤ s.m_vhigh) {v w : ℝ} (h : s.m_vhigh ≤ v ∧ v ≤ w ∨ w ≤ v ∧ v ≤ -s.m_vhigh) : s.tau_kern_inner w ≤ s.tau_kern_inner v := by
  rw [inner_eq, inner_eq]
  refine mul_le_mul_of_nonneg_left ?_ (by positivity)
  refine Finset.sum_le_sum fun i hi => mul_le_mul_of_nonneg_left ?_ (weight_nonneg hs _)
  rw [hp _ _ ha, hp _ _ ha]
  have hn := abs_le.1 (node_abs hm (Finset.mem_range.1 hi))
  rcases eq_or_ne v w with rfl | hne
  · exact le_rfl
  · refine (voigtH_lt ha ?_).le
    rw [abs_div, abs_div, abs_of_pos hb]
    refine div_lt_div_of_pos_right ?_ hb
    rcases h with ⟨h1, h2⟩ | ⟨h1, h2⟩
    · have : v < w := lt_of_le_of_ne h2 hne
      rw [abs_of_nonpos (by linarith), abs_of_nonpos (by linarith)]
      linarith
    · have : w < v := lt_of_le_of_ne h1 hne.symm
      rw [abs_of_nonneg (by linarith), abs_of_nonneg (by linarith)]
      linarith

theorem foldl_le {l : List ℕ} {f g : ℕ → ℝ} {a b : ℝ} (hab : a ≤ b) (h : ∀ i ∈ l, f i ≤ g i) :
    l.foldl (fun t i => t + f i) a ≤ l.foldl (fun t i => t + g i) b := by
  induction l generalizing a b with
  | nil => exact hab
  | cons i l ih =>
    rw [List.foldl_cons, List.foldl_cons]
    exact ih (add_le_add hab (h i (by simp))) fun j hj => h j (by simp [hj])

/-- The mean over a pixel is smaller if the value at each of its points is. -/
theorem outer_le {s : SingleAbsorber} (hb : 0 < s.btherm) {x y w : ℝ} (hw : 0 ≤ w)
    (h : ∀ d, 0 ≤ d → d ≤ w → s.tau_kern_inner (y + d) ≤ s.tau_kern_inner (x + d)) :
    s.tau_kern_outer y (y + w) ≤ s.tau_kern_outer x (x + w) := by
  unfold SingleAbsorber.tau_kern_outer
  simp only [add_sub_cancel_left]
  split_ifs with hc
  · have := h (w / 2) (by linarith) (by linarith)
    rw [show (y + w + y) / 2 = y + w / 2 by ring, show (x + w + x) / 2 = x + w / 2 by ring]
    exact this
  · push Not at hc
    have hpos : 1 ≤ ⌈w / (s.btherm / 2) / 2⌉ := by
      rw [Int.one_le_ceil_iff]
      have : 0 < w := by linarith
      positivity
    have hr : (1 : ℝ) ≤ (⌈w / (s.btherm / 2) / 2⌉ : ℝ) := by exact_mod_cast hpos
    have hden : (0 : ℝ) < ((2 * ⌈w / (s.btherm / 2) / 2⌉ + 1 : ℤ) : ℝ) - 1 := by push_cast; linarith
    refine div_le_div_of_nonneg_right ?_ hden.le
    have e0 : s.tau_kern_inner y ≤ s.tau_kern_inner x := by simpa using h 0 le_rfl hw
    have e1 : s.tau_kern_inner (y + w) ≤ s.tau_kern_inner (x + w) := h w hw le_rfl
    refine add_le_add (foldl_le (by linarith) ?_) (by linarith)
    intro i hi
    rw [List.mem_range'_1] at hi
    have hi2 : (i : ℤ) < 2 * ⌈w / (s.btherm / 2) / 2⌉ := by omega
    have hi3 : (i : ℝ) ≤ ((2 * ⌈w / (s.btherm / 2) / 2⌉ + 1 : ℤ) : ℝ) - 1 := by
      have : ((i : ℤ) : ℝ) ≤ ((2 * ⌈w / (s.btherm / 2) / 2⌉ : ℤ) : ℝ) := by exact_mod_cast hi2.le
      push_cast at this ⊢
      linarith
    rw [add_comm _ y, add_comm _ x]
    refine h _ (by positivity) ?_
    rw [mul_div_assoc', div_le_iff₀ hden, mul_comm]
    exact mul_le_mul_of_nonneg_left hi3 hw

/-- The absorber of a particle, fake_spectra/absorption.cpp:232-236. -/
noncomputable def absorber (L : LineAbsorption) (dr2 temp smooth : ℝ) : SingleAbsorber :=
  ⟨L.profile, L.bfac * √temp, if L.kernel ≠ VORONOI_MESH then L.velfac * dr2 * L.velfac else L.velfac * dr2, L.velfac * smooth,
    L.voigt_fac / (L.bfac * √temp), L.kernel⟩

/-- Amplitude of the optical depth, fake_spectra/absorption.cpp:244, times the density and divided by `velfac` (line 259). -/
noncomputable def strength (L : LineAbsorption) (dens temp : ℝ) : ℝ :=
  L.sigma_a / √π * (LIGHT / 1e5 / (L.bfac * √temp)) * dens / L.velfac

theorem tauPixel_outer (L : LineAbsorption) (nbins : ℕ) (dr2 dens pos1 pvel temp smooth : ℝ) (z : ℤ) :
    tauPixel L nbins dr2 dens pos1 pvel temp smooth z = strength L dens temp *
      (absorber L dr2 temp smooth).tau_kern_outer (z * (L.vbox / nbins) - (L.velfac * pos1 + pvel))
        (z * (L.vbox / nbins) - (L.velfac * pos1 + pvel) + L.vbox / nbins) := by
  unfold tauPixel strength absorber
  dsimp only
  ring

theorem vhigh_sph {L : LineAbsorption} (hk : L.kernel ≠ VORONOI_MESH) (hv : 0 < L.velfac) {dr2 h : ℝ} (hh : dr2 < h ^ 2) (temp : ℝ) :
    (absorber L dr2 temp h).m_vhigh = L.velfac * √(h ^ 2 - dr2) := by
  unfold SingleAbsorber.m_vhigh absorber
  simp only [hk, if_false, ne_eq, not_false_eq_true, if_true]
  have e : L.velfac * h * (L.velfac * h) - L.velfac * dr2 * L.velfac = L.velfac ^ 2 * (h ^ 2 - dr2) := by ring
  rw [if_pos (by nlinarith [mul_pos (mul_pos hv hv) (sub_pos.2 hh)]), e, sqrt_mul (by positivity), sqrt_sq hv.le]

/-- The pixel lies beyond the edge of the particle: all its velocities are further from that of the particle than the velocity of the
edge, `velfac` times half the chord through the particle. -/
def Beyond (L : LineAbsorption) (nbins : ℕ) (dr2 ppos pvel h : ℝ) (z : ℤ) : Prop :=
  L.velfac * ppos + pvel + L.velfac * √(h ^ 2 - dr2) ≤ z * (L.vbox / nbins) ∨
  (z + 1) * (L.vbox / nbins) ≤ L.velfac * ppos + pvel - L.velfac * √(h ^ 2 - dr2)

/-- Beyond the edge of the particle, optical depth decreases away from it. -/
theorem tauPixel_beyond (L : LineAbsorption) (hL : GoodAbs L) (hp : IsVoigt L.profile) (hvf : 0 < L.voigt_fac) (hk : L.kernel ≠ VORONOI_MESH)
    {nbins : ℕ} (hn : 0 < nbins) {dens ppos pvel temp dr2 h : ℝ} (hd : 0 ≤ dens) (ht : 0 < temp) (hh : 0 ≤ h) (hdr : dr2 < h ^ 2) {y z : ℤ}
    (hy : Beyond L nbins dr2 ppos pvel h y)
    (hyz : centrePixel L nbins ppos pvel ≤ y ∧ y < z ∨ z < y ∧ y < centrePixel L nbins ppos pvel) :
    tauPixel L nbins dr2 dens ppos pvel temp h z ≤ tauPixel L nbins dr2 dens ppos pvel temp h y := by
  have hb : 0 < L.bfac * √temp := mul_pos hL.bfac (sqrt_pos.2 ht)
  have haa : 0 < L.voigt_fac / (L.bfac * √temp) := by positivity
  have hw : 0 < L.vbox / nbins := div_pos hL.vbox (by exact_mod_cast hn)
  have hst : 0 ≤ strength L dens temp := by
    have := hL.sigma
    have := hL.velfac
    have : 0 < LIGHT := by norm_num [LIGHT]
    unfold strength
    positivity
  rw [tauPixel_outer, tauPixel_outer]
  refine mul_le_mul_of_nonneg_left ?_ hst
  refine outer_le (s := absorber L dr2 temp h) hb hw.le fun d d0 d1 => ?_
  have hvh := vhigh_sph hk hL.velfac hdr temp
  have hm0 : 0 ≤ (absorber L dr2 temp h).m_vhigh := by rw [hvh]; have := hL.velfac; positivity
  refine inner_antitone (s := absorber L dr2 temp h) hp haa hb (mul_nonneg hL.velfac.le hh) hm0 ?_
  rw [hvh]
  have hc1 : (centrePixel L nbins ppos pvel : ℝ) * (L.vbox / nbins) ≤ L.velfac * ppos + pvel := by
    have := Int.floor_le ((L.velfac * ppos + pvel) / (L.vbox / nbins))
    rwa [le_div_iff₀ hw] at this
  have hc2 : L.velfac * ppos + pvel < ((centrePixel L nbins ppos pvel : ℝ) + 1) * (L.vbox / nbins) := by
    have := Int.lt_floor_add_one ((L.velfac * ppos + pvel) / (L.vbox / nbins))
    rwa [div_lt_iff₀ hw] at this
  have hm1 : 0 ≤ L.velfac * √(h ^ 2 - dr2) := by rw [← hvh]; exact hm0
  rcases hyz with ⟨y1, y2⟩ | ⟨y1, y2⟩
  · left
    have hy1 : (centrePixel L nbins ppos pvel : ℝ) ≤ y := by exact_mod_cast y1
    have hyz' : (y : ℝ) ≤ z := by exact_mod_cast y2.le
    have hmul := mul_le_mul_of_nonneg_right hyz' hw.le
    have hmul2 := mul_le_mul_of_nonneg_right hy1 hw.le
    rcases hy with hy | hy
    · exact ⟨by linarith, by linarith⟩
    · exfalso
      nlinarith
  · right
    have hy1 : (y : ℝ) + 1 ≤ centrePixel L nbins ppos pvel := by exact_mod_cast y2
    have hyz' : (z : ℝ) ≤ y := by exact_mod_cast y1.le
    have hmul := mul_le_mul_of_nonneg_right hyz' hw.le
    have hmul2 := mul_le_mul_of_nonneg_right hy1 hw.le
    rcases hy with hy | hy
    · exfalso
      nlinarith
    · exact ⟨by linarith, by nlinarith⟩

/-- C94, partial: if the loops do not stop before the edge of the particle, each pixel gets its optical depth up to less than `tautail`.
Missing: particles whose absorption falls below `tautail` between two of the velocities the density is taken at
(`tail_cut_loses`). -/
theorem tail_cut_partial (L : LineAbsorption) (hL : GoodAbs L) (hp : IsVoigt L.profile) (hvf : 0 < L.voigt_fac) (hk : L.kernel ≠ VORONOI_MESH)
    {nbins off : ℕ} (hn : 0 < nbins) {a : List ℝ} (ha : off + nbins ≤ a.length) {dens ppos pvel temp dr2 h : ℝ} (hd : 0 ≤ dens) (ht : 0 < temp)
    (hh : 0 ≤ h) (hdr : dr2 < h ^ 2) (htail : 0 < L.tautail)
    (hin : ∀ z, ¬Beyond L nbins dr2 ppos pvel h z → L.tautail ≤ tauPixel L nbins dr2 dens ppos pvel temp h z) :
    ∃ out, add_tau_particle L a off nbins dr2 dens ppos pvel temp h = .ok out ∧
      ∀ z : ℤ, centrePixel L nbins ppos pvel - (nbins / 2 : ℕ) ≤ z → z < centrePixel L nbins ppos pvel + (nbins / 2 : ℕ) →
        ∀ x, a[off + (z % nbins).toNat]? = some x → ∃ y, out[off + (z % nbins).toNat]? = some y ∧
          x + tauPixel L nbins dr2 dens ppos pvel temp h z - L.tautail < y ∧ y ≤ x + tauPixel L nbins dr2 dens ppos pvel temp h z := by
  obtain ⟨out, h1, h2⟩ := tau_deposit L hL hk hn ha dens ppos pvel temp hdr
  refine ⟨out, h1, fun z z1 z2 x hx => ?_⟩
  have hout := h2.2.1 z z1 z2
  rw [hx, Option.map_some] at hout
  refine ⟨_, hout, ?_⟩
  have hb : 0 < L.bfac * √temp := mul_pos hL.bfac (sqrt_pos.2 ht)
  have haa : 0 < L.voigt_fac / (L.bfac * √temp) := by positivity
  have hnn : 0 ≤ tauPixel L nbins dr2 dens ppos pvel temp h z :=
    tauPixel_nonneg L hL hn (fun x => by rw [hp _ _ haa]; exact (voigtH_pos haa _).le) hd ht hh (fun hc => absurd hc hk) ppos pvel z
  have hmono : ∀ y : ℤ, Beyond L nbins dr2 ppos pvel h y →
      (centrePixel L nbins ppos pvel ≤ y ∧ y < z ∨ z < y ∧ y < centrePixel L nbins ppos pvel) →
      tauPixel L nbins dr2 dens ppos pvel temp h z ≤ tauPixel L nbins dr2 dens ppos pvel temp h y :=
    fun y hy hyz => tauPixel_beyond L hL hp hvf hk hn hd ht hh hdr hy hyz
  by_cases hR : Reached (pixelTau L nbins dr2 dens ppos pvel temp h) L.tautail (centrePixel L nbins ppos pvel) z
  · rw [if_pos hR]
    exact ⟨by linarith, le_rfl⟩
  · rw [if_neg hR]
    have hlt : tauPixel L nbins dr2 dens ppos pvel temp h z < L.tautail := by
      unfold Reached at hR
      rw [not_and_or] at hR
      have key : ∀ y, tauPixel L nbins dr2 dens ppos pvel temp h y < L.tautail → Beyond L nbins dr2 ppos pvel h y := by
        intro y hy
        by_contra hc
        exact absurd (hin y hc) (not_le.2 hy)
      rcases hR with hR | hR <;> push Not at hR
      · obtain ⟨-, y, y1, y2, y3⟩ := hR
        exact lt_of_le_of_lt (hmono y (key y y3) (Or.inl ⟨y1, y2⟩)) y3
      · obtain ⟨-, y, y1, y2, y3⟩ := hR
        exact lt_of_le_of_lt (hmono y (key y y3) (Or.inr ⟨y1, y2⟩)) y3
    exact ⟨by linarith, by linarith⟩

/-- C05 for the Voigt function: optical depth never decreases. -/
theorem tau_deposit_voigt (L : LineAbsorption) (hL : GoodAbs L) (hp : IsVoigt L.profile) (hvf : 0 < L.voigt_fac)
    {nbins off : ℕ} (hn : 0 < nbins) {a : List ℝ} (ha : off + nbins ≤ a.length) {dens temp h dr2 : ℝ} (hd : 0 ≤ dens) (ht : 0 < temp)
    (hh : 0 ≤ h) (hcell : L.kernel = VORONOI_MESH → dr2 ≤ h) (ppos pvel : ℝ) :
    ∃ out, add_tau_particle L a off nbins dr2 dens ppos pvel temp h = .ok out ∧
      OnlySlice a out off nbins ∧ ∀ (m : ℕ) (x : ℝ), a[m]? = some x → ∃ y, out[m]? = some y ∧ x ≤ y := by
  have haa : 0 < L.voigt_fac / (L.bfac * √temp) := div_pos hvf (mul_pos hL.bfac (sqrt_pos.2 ht))
  exact tau_deposit_mono L hL hn ha (fun x => by rw [hp x _ haa]; exact (voigtH_pos haa x).le) hd ht hh hcell ppos pvel

/-! ### A particle inside one pixel -/

/-- A box of 8 km/s with pixels of 2 km/s and a line of width 5 km/s at 1 K. -/
noncomputable def onePixAbs (t : ℝ) : LineAbsorption := ⟨fun u a => voigtH a u, t, √π / (LIGHT / 1e5), 5, 1, 1, 8, TOP_HAT_KERNEL⟩

theorem onePixAbs_good (t : ℝ) : GoodAbs (onePixAbs t) := by
  have : 0 < LIGHT := by norm_num [LIGHT]
  exact ⟨by norm_num [onePixAbs], by norm_num [onePixAbs], by norm_num [onePixAbs], by unfold onePixAbs; positivity⟩

theorem onePix_pos : 0 < tauPixel (onePixAbs 0) 4 0 1 3 0 1 1 1 := by
  have hL := onePixAbs_good 0
  have h1 : 0 < LIGHT := by norm_num [LIGHT]
  rw [tauPixel_outer]
  refine mul_pos ?_ ?_
  · unfold strength
    have := hL.bfac
    have := hL.velfac
    have : 0 < (onePixAbs 0).sigma_a := by unfold onePixAbs; positivity
    rw [sqrt_one]
    positivity
  · have hb : (absorber (onePixAbs 0) 0 1 1).btherm = 5 := by
      change 5 * √1 = (5 : ℝ)
      rw [sqrt_one, mul_one]
    unfold SingleAbsorber.tau_kern_outer
    rw [hb, if_pos (by norm_num [onePixAbs]), inner_eq, vhigh_sph (by decide) hL.velfac (by norm_num)]
    have hm : 0 < (onePixAbs 0).velfac * √(1 ^ 2 - 0) := mul_pos hL.velfac (by norm_num)
    refine mul_pos (by positivity) (Finset.sum_pos (fun i _ => ?_) (by simp))
    have hw : ∀ x, weight (absorber (onePixAbs 0) 0 1 1) x = 3 / 4 / π := fun x => rfl
    rw [hw]
    refine mul_pos (by have := pi_pos; positivity) ?_
    refine voigtH_pos ?_ _
    change 0 < 1 / (5 * √1)
    rw [sqrt_one]
    norm_num

/-- Witness for `tail_cut_partial`: a particle of half a pixel in the middle of pixel 1 of 4. -/
example : ∃ t, 0 < t ∧ ∃ out, add_tau_particle (onePixAbs t) [0, 0, 0, 0] 0 4 0 1 3 0 1 1 = .ok out ∧ ∃ y, out[1]? = some y ∧ 0 < y ∧ y ≤ t := by
  refine ⟨_, onePix_pos, ?_⟩
  set t := tauPixel (onePixAbs 0) 4 0 1 3 0 1 1 1 with ht
  have hsame : ∀ z, tauPixel (onePixAbs t) 4 0 1 3 0 1 1 z = tauPixel (onePixAbs 0) 4 0 1 3 0 1 1 z := fun z => rfl
  have hc : centrePixel (onePixAbs t) 4 3 0 = 1 := by
    unfold centrePixel onePixAbs
    norm_num
  obtain ⟨out, h1, h2⟩ := tail_cut_partial (onePixAbs t) (onePixAbs_good t) (fun u a _ => rfl) (by norm_num [onePixAbs]) (by decide)
    (nbins := 4) (off := 0) (by norm_num) (a := [0, 0, 0, 0]) (by simp) (dens := 1) (ppos := 3) (pvel := 0) (temp := 1) (dr2 := 0) (h := 1)
    (by norm_num) (by norm_num) (by norm_num) (by norm_num) onePix_pos (by
      intro z hz
      have hs : √((1 : ℝ) ^ 2 - 0) = 1 := by norm_num
      unfold Beyond at hz
      rw [hs] at hz
      norm_num [onePixAbs] at hz
      have e1 : (z : ℝ) < 2 := by linarith [hz.1]
      have e3 : z < 2 := by exact_mod_cast e1
      have e4 : 0 < z := hz.2
      obtain rfl : z = 1 := by omega
      exact le_rfl)
  obtain ⟨y, h3, h4, h5⟩ := h2 1 (by rw [hc]; norm_num) (by rw [hc]; norm_num) 0 rfl
  rw [hsame, ← ht, zero_add] at h4 h5
  exact ⟨out, h1, y, h3, by simpa [onePixAbs] using h4, h5⟩

/-! ### A wide particle and a narrow line -/

/-- A box of 256 km/s with pixels of 1 km/s, a line of width 1 km/s at 1 K and damping 1e-3, top-hat kernel and the usual
`tautail=1e-7`. -/
noncomputable def wideAbs : LineAbsorption := ⟨fun u a => voigtH a u, 1e-7, √π / (LIGHT / 1e5), 1, 1e-3, 1, 256, TOP_HAT_KERNEL⟩

theorem wideAbs_good : GoodAbs wideAbs := by
  have : 0 < LIGHT := by norm_num [LIGHT]
  exact ⟨by norm_num [wideAbs], by norm_num [wideAbs], by norm_num [wideAbs], by unfold wideAbs; positivity⟩

theorem wide_strength (dens : ℝ) : strength wideAbs dens 1 = dens := by
  have h1 : 0 < LIGHT := by norm_num [LIGHT]
  have h2 : 0 < √π := sqrt_pos.2 pi_pos
  unfold strength wideAbs
  simp only [sqrt_one, mul_one, div_one]
  field_simp

theorem wide_inner (v : ℝ) : (absorber wideAbs 0 1 80).tau_kern_inner v =
    20 * ∑ i ∈ Finset.range 7, 3 / 4 / π * voigtH 1e-3 (((i : ℝ) + 1) * 20 - 80 - v) := by
  have hv : (absorber wideAbs 0 1 80).m_vhigh = 80 := by
    rw [vhigh_sph (by decide) wideAbs_good.velfac (by norm_num)]
    have : √((80 : ℝ) ^ 2 - 0) = 80 := by rw [sub_zero]; exact sqrt_sq (by norm_num)
    rw [this]
    norm_num [wideAbs]
  rw [inner_eq, hv]
  congr 1
  · norm_num
  · refine Finset.sum_congr rfl fun i _ => ?_
    have hw : ∀ x, weight (absorber wideAbs 0 1 80) x = 3 / 4 / π := fun x => rfl
    have hp : ∀ u, (absorber wideAbs 0 1 80).profile u (absorber wideAbs 0 1 80).aa = voigtH 1e-3 u := by
      intro u
      change voigtH (1e-3 / (1 * √1)) u = _
      rw [sqrt_one, mul_one, div_one]
    have hb : (absorber wideAbs 0 1 80).btherm = 1 := by
      change 1 * √1 = (1 : ℝ)
      rw [sqrt_one, mul_one]
    rw [hw, hp, hb, div_one]
    unfold node
    rw [hv]
    norm_num

theorem wide_outer (x : ℝ) : (absorber wideAbs 0 1 80).tau_kern_outer x (x + 1) =
    ((absorber wideAbs 0 1 80).tau_kern_inner x / 2 + (absorber wideAbs 0 1 80).tau_kern_inner (1 / 2 + x) +
      (absorber wideAbs 0 1 80).tau_kern_inner (x + 1) / 2) / 2 := by
  have hb : (absorber wideAbs 0 1 80).btherm = 1 := by
    change 1 * √1 = (1 : ℝ)
    rw [sqrt_one, mul_one]
  unfold SingleAbsorber.tau_kern_outer
  rw [hb]
  simp only [add_sub_cancel_left]
  rw [if_neg (by norm_num)]
  have hc : ⌈(1 : ℝ) / (1 / 2) / 2⌉ = 1 := by norm_num
  simp only [hc]
  have hr : List.range' 1 ((2 * 1 + 1 - 2 : ℤ)).toNat = [1] := rfl
  rw [hr]
  simp only [List.foldl_cons, List.foldl_nil]
  norm_num

theorem wide_pixel (dens : ℝ) (z : ℤ) : tauPixel wideAbs 256 0 dens 128 0 1 80 z =
    dens * (absorber wideAbs 0 1 80).tau_kern_outer (z - 128) (z - 128 + 1) := by
  rw [tauPixel_outer, wide_strength]
  have e1 : wideAbs.vbox / (256 : ℕ) = 1 := by norm_num [wideAbs]
  have e2 : wideAbs.velfac * 128 + 0 = 128 := by norm_num [wideAbs]
  rw [e1, e2, mul_one]

theorem wide_low {v : ℝ} (h1 : 10 ≤ v) (h2 : v ≤ 11) : (absorber wideAbs 0 1 80).tau_kern_inner v ≤ 1.8e-3 := by
  have hpi := pi_gt_three
  have hbound : ∀ u : ℝ, 9 ≤ |u| → voigtH 1e-3 u ≤ 5e-5 := by
    intro u hu
    have h9 : voigtH 1e-3 9 ≤ 5e-5 := by
      refine le_trans (voigtH_le (by norm_num) (by norm_num)) ?_
      have he : exp (-(9 / 2) ^ 2) ≤ 1e-8 := by
        have h20 : exp (-(9 / 2) ^ 2) ≤ exp (-20) := exp_le_exp.2 (by norm_num)
        refine le_trans h20 ?_
        rw [exp_neg, show (20 : ℝ) = (20 : ℕ) * 1 by norm_num, exp_nat_mul]
        have h27 : (2.7 : ℝ) ≤ exp 1 := by linarith [Real.exp_one_gt_d9]
        have hpow : (2.7 : ℝ) ^ 20 ≤ exp 1 ^ 20 := pow_le_pow_left₀ (by norm_num) h27 20
        rw [inv_le_comm₀ (by positivity) (by norm_num)]
        refine le_trans ?_ hpow
        norm_num
      have hs : (1 : ℝ) ≤ √π := by rw [one_le_sqrt]; linarith
      have hw : 4 * 1e-3 / (√π * 9 ^ 2) ≤ (4.94e-5 : ℝ) := by
        rw [div_le_iff₀ (by positivity)]
        nlinarith
      linarith
    rcases eq_or_lt_of_le hu with h | h
    · rcases abs_choice u with h' | h'
      · have : u = 9 := by linarith [h'.symm.trans h.symm]
        rw [this]; exact h9
      · have : u = -9 := by linarith [h'.symm.trans h.symm]
        rw [this, voigtH_even]; exact h9
    · exact le_trans (voigtH_lt (u := 9) (by norm_num) (by rw [abs_of_pos (by norm_num : (0 : ℝ) < 9)]; exact h)).le h9
  rw [wide_inner]
  have hsum : ∑ i ∈ Finset.range 7, 3 / 4 / π * voigtH 1e-3 (((i : ℝ) + 1) * 20 - 80 - v) ≤ ∑ _i ∈ Finset.range 7, (1 / 4 * 5e-5 : ℝ) := by
    refine Finset.sum_le_sum fun i hi => ?_
    have h3 : 3 / 4 / π ≤ 1 / 4 := by rw [div_le_iff₀ (by linarith)]; linarith
    have hu : 9 ≤ |((i : ℝ) + 1) * 20 - 80 - v| := by
      by_cases hi4 : i ≤ 3
      · have : (i : ℝ) ≤ 3 := by exact_mod_cast hi4
        rw [abs_of_nonpos (by linarith)]; linarith
      · have : (4 : ℝ) ≤ i := by exact_mod_cast (show 4 ≤ i by omega)
        rw [abs_of_nonneg (by linarith)]; linarith
    have hb := hbound _ hu
    have h0 := (voigtH_pos (show (0 : ℝ) < 1e-3 by norm_num) (((i : ℝ) + 1) * 20 - 80 - v)).le
    have : 0 < 3 / 4 / π := by positivity
    nlinarith
  rw [Finset.sum_const, Finset.card_range] at hsum
  norm_num at hsum ⊢
  linarith

theorem wide_high : 1 ≤ (absorber wideAbs 0 1 80).tau_kern_inner 20 := by
  have hpi := pi_lt_four
  have hpi0 := pi_pos
  rw [wide_inner]
  have h1 : 3 / 4 / π * voigtH 1e-3 (((4 : ℕ) + 1) * 20 - 80 - 20) ≤
      ∑ i ∈ Finset.range 7, 3 / 4 / π * voigtH 1e-3 (((i : ℝ) + 1) * 20 - 80 - 20) := by
    refine Finset.single_le_sum (f := fun i : ℕ => 3 / 4 / π * voigtH 1e-3 (((i : ℝ) + 1) * 20 - 80 - 20)) (fun i _ => ?_) (by simp)
    have := (voigtH_pos (show (0 : ℝ) < 1e-3 by norm_num) (((i : ℝ) + 1) * 20 - 80 - 20)).le
    positivity
  have e : ((((4 : ℕ) : ℝ) + 1) * 20 - 80 - 20) = 0 := by norm_num
  rw [e] at h1
  have h2 := voigtH_ge (a := 1e-3) (r := 1 / 2) (by norm_num) (by norm_num)
  have h3 : (3 / 4 : ℝ) ≤ exp (-(1 / 2) ^ 2) := by
    have := add_one_le_exp (-(1 / 2 : ℝ) ^ 2)
    norm_num at this ⊢
    linarith
  have h4 : 3 / 16 ≤ 3 / 4 / π := by rw [le_div_iff₀ hpi0]; linarith
  nlinarith

/-- C94 fails: the density of a particle is taken at seven velocities, and for a particle much wider than the line the absorption falls
off between them. The loop stops there, and a pixel inside the particle gets nothing, although its optical depth is more than a
hundred times `tautail`. -/
theorem tail_cut_loses : ∃ (L : LineAbsorption) (dens ppos temp h : ℝ) (out : List ℝ) (z : ℤ), GoodAbs L ∧ IsVoigt L.profile ∧
    0 < L.voigt_fac ∧ 0 < dens ∧ 0 < temp ∧ 0 < h ∧ ¬Beyond L 256 0 ppos 0 h z ∧
    add_tau_particle L (List.replicate 256 0) 0 256 0 dens ppos 0 temp h = .ok out ∧
    centrePixel L 256 ppos 0 - (256 / 2 : ℕ) ≤ z ∧ z < centrePixel L 256 ppos 0 + (256 / 2 : ℕ) ∧
    out[(z % 256).toNat]? = some 0 ∧ 100 * L.tautail < tauPixel L 256 0 dens ppos 0 temp h z := by
  have hc : centrePixel wideAbs 256 128 0 = 128 := by
    unfold centrePixel wideAbs
    norm_num
  obtain ⟨out, h1, h2⟩ := tau_deposit wideAbs wideAbs_good (by decide) (nbins := 256) (off := 0) (by norm_num) (a := List.replicate 256 0)
    (by rw [List.length_replicate]) 5e-5 128 0 1 (dr2 := 0) (h := 80) (by norm_num)
  refine ⟨wideAbs, 5e-5, 128, 1, 80, out, 148, wideAbs_good, fun u a _ => rfl, by norm_num [wideAbs], by norm_num, by norm_num, by norm_num,
    ?_, h1, by rw [hc]; norm_num, by rw [hc]; norm_num, ?_, ?_⟩
  · unfold Beyond
    have : √((80 : ℝ) ^ 2 - 0) = 80 := by rw [sub_zero]; exact sqrt_sq (by norm_num)
    rw [this]
    norm_num [wideAbs]
  · have h := h2.2.1 148 (by rw [hc]; norm_num) (by rw [hc]; norm_num)
    rw [if_neg] at h
    · have e : (0 + ((148 : ℤ) % (256 : ℕ)).toNat) = 148 := rfl
      rw [e] at h
      have e2 : ((148 : ℤ) % 256).toNat = 148 := rfl
      rw [e2, h, List.getElem?_replicate, if_pos (by norm_num)]
      exact congrArg some (add_zero 0)
    · intro hR
      have := hR.1 (by rw [hc]; norm_num) 138 (by rw [hc]; norm_num) (by norm_num)
      refine absurd this (not_le.2 ?_)
      change tauPixel wideAbs 256 0 5e-5 128 0 1 80 138 < 1e-7
      rw [wide_pixel, wide_outer]
      have a1 := wide_low (v := ((138 : ℤ) : ℝ) - 128) (by norm_num) (by norm_num)
      have a2 := wide_low (v := 1 / 2 + (((138 : ℤ) : ℝ) - 128)) (by norm_num) (by norm_num)
      have a3 := wide_low (v := ((138 : ℤ) : ℝ) - 128 + 1) (by norm_num) (by norm_num)
      norm_num at a1 a2 a3 ⊢
      linarith
  · change 100 * 1e-7 < tauPixel wideAbs 256 0 5e-5 128 0 1 80 148
    rw [wide_pixel, wide_outer]
    have e : ((148 : ℤ) : ℝ) - 128 = 20 := by norm_num
    rw [e]
    have hnn : ∀ v, 0 ≤ (absorber wideAbs 0 1 80).tau_kern_inner v := by
      intro v
      rw [wide_inner]
      refine mul_nonneg (by norm_num) (Finset.sum_nonneg fun i _ => ?_)
      have := (voigtH_pos (show (0 : ℝ) < 1e-3 by norm_num) (((i : ℝ) + 1) * 20 - 80 - v)).le
      have := pi_pos
      positivity
    have a1 := wide_high
    have a2 := hnn (1 / 2 + 20)
    have a3 := hnn (20 + 1)
    norm_num at a2 a3 ⊢
    linarith

example := tau_deposit_voigt (onePixAbs 1e-7) (onePixAbs_good _) (fun u a _ => rfl) (by norm_num [onePixAbs]) (nbins := 4) (off := 0) (by norm_num)
  (a := [0, 0, 0, 0]) (by simp) (dens := 1) (temp := 1) (h := 1) (dr2 := 0.5) (by norm_num) (by norm_num) (by norm_num) (fun _ => by norm_num) 3 0

end Verif.Props.TailCut
