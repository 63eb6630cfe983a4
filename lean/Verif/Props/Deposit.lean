import Verif.Lemmas.Absorption
import Mathlib.MeasureTheory.Measure.Lebesgue.Basic

/-!
C04 and C05: deposition of one particle on one sightline.
-/

namespace Verif.Props

open Verif Absorption Real

/-- Physical parameters of the interpolator: positive box, velocity and thermal factors, and a
non-negative cross-section. -/
structure GoodAbs (L : LineAbsorption) : Prop where
  vbox : 0 < L.vbox
  velfac : 0 < L.velfac
  bfac : 0 < L.bfac
  sigma : 0 ≤ L.sigma_a

/-- Every interpolator built by the constructor from positive inputs is one of these. -/
theorem goodAbs_mk' (profile : ℝ → ℝ → ℝ) {lambda gamma fosc amumass velfac boxsize : ℝ}
    (kernel : ℤ) (tautail : ℝ) (hl : 0 ≤ lambda) (hf : 0 ≤ fosc) (hm : 0 < amumass)
    (hv : 0 < velfac) (hb : 0 < boxsize) :
    GoodAbs (LineAbsorption.mk' profile lambda gamma fosc amumass velfac boxsize kernel tautail) := by
  refine ⟨?_, ?_, ?_, ?_⟩ <;> simp only [LineAbsorption.mk']
  · positivity
  · exact hv
  · have : 0 < BOLTZMANN := by norm_num [BOLTZMANN]
    have : 0 < PROTONMASS := by norm_num [PROTONMASS]
    positivity
  · have := Real.sqrt_nonneg (3 * π * SIGMA_T / 8)
    positivity

/-- Length of the part of a straight line at squared distance `b2` from the centre of a sphere of
radius `h` that lies inside the sphere. -/
noncomputable def chordLength (h b2 : ℝ) : ℝ := (MeasureTheory.volume {z : ℝ | z ^ 2 + b2 ≤ h ^ 2}).toReal

theorem chordLength_eq {h b2 : ℝ} (hb : b2 ≤ h ^ 2) : chordLength h b2 = 2 * √(h ^ 2 - b2) := by
  have : {z : ℝ | z ^ 2 + b2 ≤ h ^ 2} = Set.Icc (-√(h ^ 2 - b2)) (√(h ^ 2 - b2)) := by
    ext z
    simp only [Set.mem_setOf_eq, Set.mem_Icc, ← abs_le]
    rw [← Real.sqrt_sq_eq_abs, Real.sqrt_le_sqrt_iff (by linarith)]
    constructor <;> intro h <;> linarith
  rw [chordLength, this, Real.volume_Icc, ENNReal.toReal_ofReal]
  · ring
  · have := Real.sqrt_nonneg (h ^ 2 - b2); linarith

/-- The result differs from the input only inside the slice of one sightline. -/
def OnlySlice (a out : List ℝ) (off nbins : ℕ) : Prop :=
  out.length = a.length ∧ ∀ m, m < off ∨ off + nbins ≤ m → out[m]? = a[m]?

/-- C04, top hat: whatever the pixel count and the position, the column added to a sightline is the
density times the chord through the particle, with the normalisation of a uniform sphere of unit
mass and unit radius. -/
theorem colden_conserved_tophat (L : LineAbsorption) (hL : GoodAbs L) (hk : L.kernel = TOP_HAT_KERNEL)
    {nbins off : ℕ} (hn : 0 < nbins) {a : List ℝ} (ha : off + nbins ≤ a.length)
    (dens pos : ℝ) {h dr2 : ℝ} (hdr : dr2 ≤ h ^ 2) :
    ∃ out, add_colden_particle L a off nbins dr2 dens pos h = .ok out ∧
      out.sum = a.sum + dens * (chordLength h dr2 / (4 / 3 * π)) ∧ OnlySlice a out off nbins := by
  refine ⟨_, add_colden_eq L hn ha dr2 dens pos h, ?_, by simp, ?_⟩
  · rw [arrAdd_sum, chordLength_eq hdr]
    congr 1
    have hv : L.kernel ≠ VORONOI_MESH := by rw [hk]; decide
    unfold coldenF
    simp only [hv, false_and, if_false, ne_eq, not_false_eq_true, true_and]
    by_cases hz : h * h - dr2 ≤ 0
    · simp only [hz, if_true, Finset.sum_const_zero]
      have : h ^ 2 - dr2 = 0 := by nlinarith
      rw [this]; simp
    · simp only [hz, if_false]
      rw [pixelSum_total hn ha]
      have hnb : (0 : ℝ) < nbins := by exact_mod_cast hn
      have hd : 0 < L.vbox / nbins / L.velfac := by have := hL.vbox; have := hL.velfac; positivity
      have hs := sum_overlap (p := pos) hd (Real.sqrt_nonneg (h * h - dr2))
      simp only [get_kern_frac, hk, if_true, tophat_kern_frac]
      have e : ∀ f : ℤ → ℝ, (fun z : ℤ => dens * (3 / 4 / π * f z)) =
          fun z => (dens * (3 / 4 / π)) * f z := by intro f; funext z; ring
      rw [e, List.sum_map_mul_left, hs, show h ^ 2 - dr2 = h * h - dr2 by ring]
      have := pi_pos
      field_simp
  · intro m hm
    rw [arrAdd_getElem?, coldenF_outside L hn hm]; simp

/-- Outside the particle nothing is added, for every kernel but the mesh one. -/
theorem colden_outside_particle (L : LineAbsorption) (hk : L.kernel ≠ VORONOI_MESH) (a : List ℝ)
    (off nbins : ℕ) (dens pos : ℝ) {h dr2 : ℝ} (hdr : h ^ 2 ≤ dr2) :
    add_colden_particle L a off nbins dr2 dens pos h = .ok a := by
  unfold add_colden_particle
  rw [if_neg (by tauto), if_pos ⟨hk, by nlinarith⟩]

/-- C04, moving mesh: the column added is the density times the length of the segment `[lo, hi]` of
the sightline given to the cell. -/
theorem colden_conserved_voronoi (L : LineAbsorption) (hL : GoodAbs L) (hk : L.kernel = VORONOI_MESH)
    {nbins off : ℕ} (hn : 0 < nbins) {a : List ℝ} (ha : off + nbins ≤ a.length)
    (dens pos : ℝ) {lo hi : ℝ} (hle : lo ≤ hi) (hbox : hi ≤ 2 * (L.vbox / L.velfac)) :
    ∃ out, add_colden_particle L a off nbins lo dens pos hi = .ok out ∧
      out.sum = a.sum + dens * (hi - lo) ∧ OnlySlice a out off nbins := by
  refine ⟨_, add_colden_eq L hn ha lo dens pos hi, ?_, by simp, ?_⟩
  · rw [arrAdd_sum]
    congr 1
    unfold coldenF
    have hb2 : 2 * L.vbox / L.velfac = 2 * (L.vbox / L.velfac) := by ring
    rw [hb2]
    have h1 : ¬ (lo > 2 * (L.vbox / L.velfac) ∨ hi > 2 * (L.vbox / L.velfac)) := by
      push Not; constructor <;> linarith
    have hT : ¬ (VORONOI_MESH = TOP_HAT_KERNEL) := by decide
    have hC : ¬ (VORONOI_MESH = SPH_CUBIC_SPLINE) := by decide
    simp only [hk, h1, and_false, if_false, ne_eq, not_true, false_and, if_true]
    rw [pixelSum_total hn ha]
    have hnb : (0 : ℝ) < nbins := by exact_mod_cast hn
    have hd : 0 < L.vbox / nbins / L.velfac := by have := hL.vbox; have := hL.velfac; positivity
    have hs := sum_overlap (p := (lo + hi) / 2) (r := (hi - lo) / 2) hd (by linarith)
    simp only [get_kern_frac, hT, hC, if_true, if_false, arepo_kern_frac]
    rw [List.sum_map_mul_left, hs]
    ring
  · intro m hm
    rw [arrAdd_getElem?, coldenF_outside L hn hm]; simp

/-- C05, column density: a deposit always succeeds, touches only its own sightline, and lowers
nothing if the density is not negative. For every kernel. -/
theorem colden_deposit_safe (L : LineAbsorption) (_hL : GoodAbs L) {nbins off : ℕ} (hn : 0 < nbins)
    {a : List ℝ} (ha : off + nbins ≤ a.length) {dens h : ℝ} (hd : 0 ≤ dens) (hh : 0 < h) (dr2 pos : ℝ) :
    ∃ out, add_colden_particle L a off nbins dr2 dens pos h = .ok out ∧ OnlySlice a out off nbins ∧
      ∀ (m : ℕ) (x : ℝ), a[m]? = some x → ∃ y, out[m]? = some y ∧ x ≤ y := by
  refine ⟨_, add_colden_eq L hn ha dr2 dens pos h, ⟨by simp, ?_⟩, ?_⟩
  · intro m hm
    rw [arrAdd_getElem?, coldenF_outside L hn hm]; simp
  · intro m x hx
    rw [arrAdd_getElem?, hx]
    refine ⟨_, rfl, ?_⟩
    have : 0 ≤ coldenF L off nbins dr2 dens pos h m := by
      unfold coldenF
      split_ifs
      · exact le_rfl
      · exact le_rfl
      · exact pixelSum_nonneg (fun z _ => mul_nonneg hd (kern_frac_nonneg _ hh.le _ _ _ _)) m
      · exact pixelSum_nonneg (fun z _ => mul_nonneg hd (kern_frac_nonneg _ hh.le _ _ _ _)) m
    linarith

/-- Where the optical depth loop starts: the pixel of the particle in velocity space. -/
noncomputable def centrePixel (L : LineAbsorption) (nbins : ℕ) (ppos pvel : ℝ) : ℤ :=
  ⌊(L.velfac * ppos + pvel) / (L.vbox / nbins)⌋

/-- Pixel `z` is reached from the centre `c` when no pixel between, on the same side, fell below the
tail threshold. -/
def Reached (τ : ℤ → ℝ) (tautail : ℝ) (c z : ℤ) : Prop :=
  (c ≤ z → ∀ y, c ≤ y → y < z → tautail ≤ τ y) ∧ (z < c → ∀ y, z < y → y < c → tautail ≤ τ y)

open Classical in
theorem visited_sum {τ : ℤ → ℝ} {tautail : ℝ} {nbins off : ℕ} (hn : 0 < nbins) (c z : ℤ)
    (h1 : c - (nbins / 2 : ℕ) ≤ z) (h2 : z < c + (nbins / 2 : ℕ)) {m : ℕ}
    (hm : (m : ℤ) = off + z % nbins) :
    pixelSum off nbins τ (visited τ tautail 1 (nbins / 2) c ++
      visited τ tautail (-1) (nbins / 2) (c - 1)) m = if Reached τ tautail c z then τ z else 0 := by
  have hnd : (visited τ tautail 1 (nbins / 2) c ++
      visited τ tautail (-1) (nbins / 2) (c - 1)).Nodup := by
    rw [List.nodup_append]
    refine ⟨visited_nodup (Or.inl rfl) _ _, visited_nodup (Or.inr rfl) _ _, ?_⟩
    intro x hx y hy hxy
    obtain ⟨k, -, hk, -⟩ := mem_visited.1 hx
    obtain ⟨k', -, hk', -⟩ := mem_visited.1 hy
    omega
  have hmem : ∀ y, y ∈ (visited τ tautail 1 (nbins / 2) c ++
      visited τ tautail (-1) (nbins / 2) (c - 1)) ↔
      (c - (nbins / 2 : ℕ) ≤ y ∧ y < c + (nbins / 2 : ℕ)) ∧ Reached τ tautail c y := by
    intro y
    rw [List.mem_append, mem_visited, mem_visited]
    constructor
    · rintro (⟨k, hk, rfl, h⟩ | ⟨k, hk, rfl, h⟩)
      · refine ⟨by omega, fun _ x hx1 hx2 => ?_, fun hc => by omega⟩
        have := h (x - c).toNat (by omega)
        rwa [show c + 1 * ((x - c).toNat : ℤ) = x by omega] at this
      · refine ⟨by omega, fun hc => by omega, fun _ x hx1 hx2 => ?_⟩
        have := h (c - 1 - x).toNat (by omega)
        rwa [show c - 1 + -1 * ((c - 1 - x).toNat : ℤ) = x by omega] at this
    · rintro ⟨hr, hR1, hR2⟩
      by_cases hc : c ≤ y
      · left
        refine ⟨(y - c).toNat, by omega, by omega, fun k' hk' => ?_⟩
        exact hR1 hc _ (by omega) (by omega)
      · right
        refine ⟨(c - 1 - y).toNat, by omega, by omega, fun k' hk' => ?_⟩
        exact hR2 (by omega) _ (by omega) (by omega)
  generalize hvs : (visited τ tautail 1 (nbins / 2) c ++
      visited τ tautail (-1) (nbins / 2) (c - 1)) = vs at hnd hmem ⊢
  unfold pixelSum
  have huniq : ∀ y ∈ vs, (m : ℤ) = off + y % nbins → y = z := by
    intro y hy hy2
    obtain ⟨⟨a, b⟩, -⟩ := (hmem y).1 hy
    have hmod : y % nbins = z % nbins := by omega
    obtain ⟨k, hk⟩ : (nbins : ℤ) ∣ y - z :=
      Int.dvd_of_emod_eq_zero (Int.emod_eq_emod_iff_emod_sub_eq_zero.1 hmod)
    have hh : 2 * ((nbins / 2 : ℕ) : ℤ) ≤ nbins := by omega
    have hlt : y - z < nbins := by omega
    have hgt : -(nbins : ℤ) < y - z := by omega
    have hk0 : k = 0 := by
      rcases lt_trichotomy k 0 with h | h | h
      · exfalso; nlinarith
      · exact h
      · exfalso; nlinarith
    subst hk0; omega
  by_cases hR : Reached τ tautail c z
  · rw [if_pos hR]
    have hz : z ∈ vs := (hmem z).2 ⟨⟨h1, h2⟩, hR⟩
    clear hvs hmem
    induction vs with
    | nil => simp at hz
    | cons x vs ih =>
      rw [List.nodup_cons] at hnd
      rw [List.map_cons, List.sum_cons]
      rcases List.mem_cons.1 hz with rfl | hz'
      · rw [if_pos hm, List.sum_eq_zero, add_zero]
        intro w hw
        obtain ⟨y, hy, rfl⟩ := List.mem_map.1 hw
        rw [if_neg]
        intro hc
        exact hnd.1 (huniq y (by simp [hy]) hc ▸ hy)
      · rw [ih hnd.2 (fun y hy => huniq y (by simp [hy])) hz', if_neg, zero_add]
        intro hc
        exact hnd.1 (huniq x (by simp) hc ▸ hz')
  · rw [if_neg hR]
    apply List.sum_eq_zero
    intro w hw
    obtain ⟨y, hy, rfl⟩ := List.mem_map.1 hw
    rw [if_neg]
    intro hc
    have := huniq y hy hc
    subst this
    exact hR ((hmem y).1 hy).2

/-- Optical depth of pixel `z` as evaluated by the interpolator. -/
noncomputable abbrev pixelTau := tauPixel

open Classical in
/-- Where the absorption of one particle centred at `pos1` goes: nothing outside the slice of the
sightline; pixel `z` of the window of `nbins/2` pixels to either side of the particle receives its
optical depth exactly once if it is reached, and nothing otherwise; a pixel that is the image of no
pixel in the window (there is one when `nbins` is odd) receives nothing. -/
def DepositedOnce (L : LineAbsorption) (a out : List ℝ) (off nbins : ℕ)
    (dr2 dens pos1 pvel temp h : ℝ) : Prop :=
  OnlySlice a out off nbins ∧
    (∀ z : ℤ, centrePixel L nbins pos1 pvel - (nbins / 2 : ℕ) ≤ z →
      z < centrePixel L nbins pos1 pvel + (nbins / 2 : ℕ) →
      out[off + (z % nbins).toNat]? = a[off + (z % nbins).toNat]?.map (· +
        if Reached (pixelTau L nbins dr2 dens pos1 pvel temp h) L.tautail
          (centrePixel L nbins pos1 pvel) z
        then pixelTau L nbins dr2 dens pos1 pvel temp h z else 0)) ∧
    (∀ j < nbins, (∀ z : ℤ, centrePixel L nbins pos1 pvel - (nbins / 2 : ℕ) ≤ z →
      z < centrePixel L nbins pos1 pvel + (nbins / 2 : ℕ) → z % nbins ≠ j) →
      out[off + j]? = a[off + j]?)

theorem depositedOnce_of (L : LineAbsorption) {nbins off : ℕ} (hn : 0 < nbins) (a : List ℝ)
    (dens pos1 pvel temp dr2 h : ℝ) (F : ℕ → ℝ)
    (hout : ∀ m, m < off ∨ off + nbins ≤ m → F m = 0)
    (hF : F = pixelSum off nbins (pixelTau L nbins dr2 dens pos1 pvel temp h)
      (visited (pixelTau L nbins dr2 dens pos1 pvel temp h) L.tautail 1 (nbins / 2)
        (centrePixel L nbins pos1 pvel) ++
       visited (pixelTau L nbins dr2 dens pos1 pvel temp h) L.tautail (-1) (nbins / 2)
        (centrePixel L nbins pos1 pvel - 1))) :
    DepositedOnce L a (arrAdd a F) off nbins dr2 dens pos1 pvel temp h := by
  refine ⟨⟨by simp, ?_⟩, ?_, ?_⟩
  · intro m hm
    rw [arrAdd_getElem?, hout m hm]; simp
  · intro z h1 h2
    have hz0 : 0 ≤ z % nbins := Int.emod_nonneg _ (by omega)
    have hm : ((off + (z % nbins).toNat : ℕ) : ℤ) = off + z % nbins := by push_cast; omega
    rw [arrAdd_getElem?, hF, visited_sum hn (centrePixel L nbins pos1 pvel) z h1 h2 hm]
  · intro j hj hno
    rw [arrAdd_getElem?]
    have : F (off + j) = 0 := by
      rw [hF]
      unfold pixelSum
      apply List.sum_eq_zero
      intro w hw
      obtain ⟨y, hy, rfl⟩ := List.mem_map.1 hw
      rw [if_neg]
      intro hc
      have hy2 : centrePixel L nbins pos1 pvel - (nbins / 2 : ℕ) ≤ y ∧
          y < centrePixel L nbins pos1 pvel + (nbins / 2 : ℕ) := by
        rcases List.mem_append.1 hy with hy | hy
        · obtain ⟨k, hk, rfl, -⟩ := mem_visited.1 hy; omega
        · obtain ⟨k, hk, rfl, -⟩ := mem_visited.1 hy; omega
      exact hno y hy2.1 hy2.2 (by push_cast at hc; omega)
    rw [this]; simp

/-- C05, optical depth, all smoothing kernels: a deposit always succeeds and visits each pixel at most
once. -/
theorem tau_deposit (L : LineAbsorption) (_hL : GoodAbs L) (hk : L.kernel ≠ VORONOI_MESH)
    {nbins off : ℕ} (hn : 0 < nbins) {a : List ℝ} (ha : off + nbins ≤ a.length)
    (dens ppos pvel temp : ℝ) {dr2 h : ℝ} (hdr : dr2 < h ^ 2) :
    ∃ out, add_tau_particle L a off nbins dr2 dens ppos pvel temp h = .ok out ∧
      DepositedOnce L a out off nbins dr2 dens ppos pvel temp h := by
  have hz : ¬ (h * h - dr2 ≤ 0) := by nlinarith
  refine ⟨_, add_tau_eq L hn ha dr2 dens ppos pvel temp h, ?_⟩
  refine depositedOnce_of L hn a dens ppos pvel temp dr2 h _ (fun m hm => tauF_outside L hn hm ..) ?_
  funext m
  unfold tauF
  simp only [hk, false_and, if_false, ne_eq, not_false_eq_true, true_and, hz]
  rfl

/-- C05, optical depth, moving mesh: the same for the segment `[lo, hi]` of a cell, which absorbs
around its middle. -/
theorem tau_deposit_voronoi (L : LineAbsorption) (_hL : GoodAbs L) (hk : L.kernel = VORONOI_MESH)
    {nbins off : ℕ} (hn : 0 < nbins) {a : List ℝ} (ha : off + nbins ≤ a.length)
    (dens ppos pvel temp : ℝ) {lo hi : ℝ} (hle : lo ≤ hi) (hbox : hi ≤ 2 * (L.vbox / L.velfac)) :
    ∃ out, add_tau_particle L a off nbins lo dens ppos pvel temp hi = .ok out ∧
      DepositedOnce L a out off nbins lo dens ((lo + hi) / 2) pvel temp hi := by
  refine ⟨_, add_tau_eq L hn ha lo dens ppos pvel temp hi, ?_⟩
  refine depositedOnce_of L hn a dens _ pvel temp lo hi _ (fun m hm => tauF_outside L hn hm ..) ?_
  have hb2 : 2 * L.vbox / L.velfac = 2 * (L.vbox / L.velfac) := by ring
  have h1 : ¬ (lo > 2 * (L.vbox / L.velfac) ∨ hi > 2 * (L.vbox / L.velfac)) := by
    push Not; constructor <;> linarith
  funext m
  unfold tauF
  simp only [hk, hb2, h1, and_false, if_false, ne_eq, not_true, false_and, if_true]
  rfl

/-- Every deposited optical depth is non-negative, for a non-negative line profile. -/
theorem tauPixel_nonneg (L : LineAbsorption) (hL : GoodAbs L)
    {nbins : ℕ} (hn : 0 < nbins) {dens temp h dr2 : ℝ} (hprof : ∀ x, 0 ≤ L.profile x (L.voigt_fac / (L.bfac * √temp))) (hd : 0 ≤ dens) (ht : 0 < temp) (hh : 0 ≤ h)
    (hcell : L.kernel = VORONOI_MESH → dr2 ≤ h) (ppos pvel : ℝ) (z : ℤ) :
    0 ≤ tauPixel L nbins dr2 dens ppos pvel temp h z := by
  have hv := hL.velfac
  have hb := hL.bfac
  have hs := hL.sigma
  have hnb : (0 : ℝ) < nbins := by exact_mod_cast hn
  have hbin : 0 < L.vbox / nbins := div_pos hL.vbox hnb
  have hbt : 0 < L.bfac * √temp := mul_pos hb (Real.sqrt_pos.2 ht)
  have hlight : 0 < LIGHT := by norm_num [LIGHT]
  unfold tauPixel
  dsimp only
  apply div_nonneg _ hv.le
  apply mul_nonneg
  · apply mul_nonneg _ hd
    positivity
  · apply tau_kern_outer_nonneg
    · exact hprof
    · positivity
    · unfold SingleAbsorber.m_vhigh
      dsimp only
      by_cases hk : L.kernel = VORONOI_MESH
      · simp only [hk, if_true, ne_eq, not_true, if_false]
        split
        · have := hcell hk
          have : L.velfac * dr2 ≤ L.velfac * h := by gcongr
          linarith
        · exact le_rfl
      · simp only [hk, if_false, ne_eq, not_false_eq_true, if_true]
        split
        · exact Real.sqrt_nonneg _
        · exact le_rfl
    · exact hbt
    · linarith

/-- C05: optical depth never decreases, for a line profile that is not negative at the width of the particle (the Voigt function is
not, see `tau_deposit_voigt`). -/
theorem tau_deposit_mono (L : LineAbsorption) (hL : GoodAbs L)
    {nbins off : ℕ} (hn : 0 < nbins) {a : List ℝ} (ha : off + nbins ≤ a.length)
    {dens temp h dr2 : ℝ} (hprof : ∀ x, 0 ≤ L.profile x (L.voigt_fac / (L.bfac * √temp))) (hd : 0 ≤ dens) (ht : 0 < temp) (hh : 0 ≤ h)
    (hcell : L.kernel = VORONOI_MESH → dr2 ≤ h) (ppos pvel : ℝ) :
    ∃ out, add_tau_particle L a off nbins dr2 dens ppos pvel temp h = .ok out ∧
      OnlySlice a out off nbins ∧ ∀ (m : ℕ) (x : ℝ), a[m]? = some x → ∃ y, out[m]? = some y ∧ x ≤ y := by
  refine ⟨_, add_tau_eq L hn ha dr2 dens ppos pvel temp h, ⟨by simp, ?_⟩, ?_⟩
  · intro m hm
    rw [arrAdd_getElem?, tauF_outside L hn hm]; simp
  · intro m x hx
    rw [arrAdd_getElem?, hx]
    refine ⟨_, rfl, ?_⟩
    have : 0 ≤ tauF L off nbins dr2 dens ppos pvel temp h m := by
      unfold tauF
      split_ifs
      · exact le_rfl
      · exact le_rfl
      · exact pixelSum_nonneg (fun z _ => tauPixel_nonneg L hL hn hprof hd ht hh hcell _ _ _) m
      · exact pixelSum_nonneg (fun z _ => tauPixel_nonneg L hL hn hprof hd ht hh hcell _ _ _) m
    linarith

/-- The tail cut loses less than `tautail` in any pixel of the window, provided the absorption of a
particle does not increase away from its centre (as the comment in the code assumes). -/
theorem tail_cut_error {τ : ℤ → ℝ} {tautail : ℝ} {c : ℤ}
    (hright : ∀ y z, c ≤ y → y ≤ z → τ z ≤ τ y) (hleft : ∀ y z, z ≤ y → y < c → τ z ≤ τ y) (z : ℤ)
    (h : ¬ Reached τ tautail c z) : τ z < tautail := by
  unfold Reached at h
  rw [not_and_or] at h
  rcases h with h | h <;> push Not at h
  · obtain ⟨-, y, h1, h2, h3⟩ := h
    exact lt_of_le_of_lt (hright y z h1 h2.le) h3
  · obtain ⟨-, y, h1, h2, h3⟩ := h
    exact lt_of_le_of_lt (hleft y z h1.le h2) h3

/-! ### Concrete cases -/

/-- An interpolator for a box of 10 with 4 pixels, unit constants and a constant profile. -/
noncomputable def exAbs (kernel : ℤ) : LineAbsorption := ⟨fun _ _ => 1, 0, 1, 1, 1, 1, 10, kernel⟩

theorem exAbs_good (k : ℤ) : GoodAbs (exAbs k) := ⟨by norm_num [exAbs], by norm_num [exAbs],
  by norm_num [exAbs], by norm_num [exAbs]⟩

/-- Witness for C04: a particle at 9.5 of radius 2 whose chord wraps around the end of the box. -/
example : ∃ out, add_colden_particle (exAbs 0) [0, 0, 0, 0] 0 4 0 5 9.5 2 = .ok out ∧
    out.sum = 5 * (4 / (4 / 3 * π)) := by
  obtain ⟨out, h1, h2, -⟩ := colden_conserved_tophat (exAbs 0) (exAbs_good 0) rfl (nbins := 4) (off := 0)
    (by norm_num) (a := [0, 0, 0, 0]) (by simp) 5 9.5 (h := 2) (dr2 := 0) (by norm_num)
  refine ⟨out, h1, ?_⟩
  rw [h2, chordLength_eq (by norm_num)]
  have : √((2 : ℝ) ^ 2 - 0) = 2 := by rw [sub_zero]; exact Real.sqrt_sq (by norm_num)
  rw [this]; norm_num

/-- Witness for C04, mesh: a segment from 9 to 11. -/
example : ∃ out, add_colden_particle (exAbs 2) [0, 0, 0, 0] 0 4 9 5 9.5 11 = .ok out ∧
    out.sum = 10 := by
  obtain ⟨out, h1, h2, -⟩ := colden_conserved_voronoi (exAbs 2) (exAbs_good 2) rfl (nbins := 4) (off := 0)
    (by norm_num) (a := [0, 0, 0, 0]) (by simp) 5 9.5 (lo := 9) (hi := 11) (by norm_num)
    (by norm_num [exAbs])
  exact ⟨out, h1, by rw [h2]; norm_num⟩

/-- Witness for C05: second sightline of two. -/
example : ∃ out, add_tau_particle (exAbs 1) [1, 1, 1, 1, 0, 0, 0, 0] 4 4 0 5 9.5 3 1e4 2 = .ok out ∧
    OnlySlice [1, 1, 1, 1, 0, 0, 0, 0] out 4 4 := by
  obtain ⟨out, h1, h2, -⟩ := tau_deposit_mono (exAbs 1) (exAbs_good 1)
    (nbins := 4) (off := 4) (by norm_num) (a := [1, 1, 1, 1, 0, 0, 0, 0]) (by simp) (dens := 5)
    (temp := 1e4) (h := 2) (dr2 := 0) (by intro x; norm_num [exAbs]) (by norm_num) (by norm_num) (by norm_num)
    (by intro h; exact absurd h (by decide)) 9.5 3
  exact ⟨out, h1, h2⟩

/-- With an odd number of pixels one pixel of the sightline never receives absorption from a given
particle, however strong: with 3 pixels the window is 2 pixels wide. -/
theorem odd_pixel_skipped (L : LineAbsorption) (hL : GoodAbs L) (hk : L.kernel ≠ VORONOI_MESH)
    (dens ppos pvel temp : ℝ) {dr2 h : ℝ} (hdr : dr2 < h ^ 2) :
    ∃ j < 3, ∃ out, add_tau_particle L [0, 0, 0] 0 3 dr2 dens ppos pvel temp h = .ok out ∧
      out[j]? = some 0 := by
  obtain ⟨out, h1, h4⟩ := tau_deposit L hL hk (nbins := 3) (off := 0) (by norm_num)
    (a := [0, 0, 0]) (by simp) dens ppos pvel temp hdr
  have hc : 0 ≤ (centrePixel L 3 ppos pvel + 1) % 3 := by omega
  refine ⟨((centrePixel L 3 ppos pvel + 1) % 3).toNat, by omega, out, h1, ?_⟩
  have := h4.2.2 ((centrePixel L 3 ppos pvel + 1) % 3).toNat (by omega) (by
    intro z h1 h2
    norm_num at h1 h2
    push_cast
    omega)
  rw [zero_add] at this
  rw [this]
  have hj : ((centrePixel L 3 ppos pvel + 1) % 3).toNat < 3 := by omega
  generalize ((centrePixel L 3 ppos pvel + 1) % 3).toNat = j at hj
  interval_cases j <;> rfl

/-! Witnesses for the hypotheses of the theorems above. -/

example := goodAbs_mk' (fun _ _ => 1) (lambda := 1215.67e-10) (gamma := 6.265e8) (fosc := 0.4164) (amumass := 1.00794)
  (velfac := 0.1) (boxsize := 10000) 1 1e-7 (by norm_num) (by norm_num) (by norm_num) (by norm_num) (by norm_num)

example := colden_outside_particle (exAbs 1) (by change (1 : ℤ) ≠ 2; decide) [0, 0, 0, 0] 0 4 5 9.5 (h := 2) (dr2 := 5) (by norm_num)

example := colden_deposit_safe (exAbs 1) (exAbs_good 1) (nbins := 4) (off := 4) (by norm_num) (a := [1, 1, 1, 1, 0, 0, 0, 0])
  (by simp) (dens := 5) (h := 2) (by norm_num) (by norm_num) 1 9.5

example := tau_deposit (exAbs 1) (exAbs_good 1) (by change (1 : ℤ) ≠ 2; decide) (nbins := 4) (off := 4) (by norm_num)
  (a := [1, 1, 1, 1, 0, 0, 0, 0]) (by simp) 5 9.5 3 1e4 (dr2 := 1) (h := 2) (by norm_num)

example := tau_deposit_voronoi (exAbs 2) (exAbs_good 2) rfl (nbins := 4) (off := 4) (by norm_num)
  (a := [1, 1, 1, 1, 0, 0, 0, 0]) (by simp) 5 9.5 3 1e4 (lo := 9) (hi := 11) (by norm_num) (by norm_num [exAbs])

/-- A profile with a peak in pixel 5, cut below 0.3. -/
example : ¬ Reached (fun z : ℤ => 1 / (1 + |(z - 5 : ℝ)|)) 0.3 5 9 ∧ (1 / (1 + |((9 : ℤ) - 5 : ℝ)|)) < 0.3 := by
  have hn : ¬ Reached (fun z : ℤ => 1 / (1 + |(z - 5 : ℝ)|)) 0.3 5 9 := by
    rintro ⟨h, -⟩
    have := h (by norm_num) 8 (by norm_num) (by norm_num)
    norm_num at this
  refine ⟨hn, tail_cut_error ?_ ?_ 9 hn⟩
  · intro y z h1 h2
    have h1 : (5 : ℝ) ≤ y := by exact_mod_cast h1
    have h2 : (y : ℝ) ≤ z := by exact_mod_cast h2
    rw [abs_of_nonneg (by linarith), abs_of_nonneg (by linarith)]
    exact one_div_le_one_div_of_le (by linarith) (by linarith)
  · intro y z h1 h2
    have h2 : (y : ℝ) ≤ 5 := by exact_mod_cast h2.le
    have h1 : (z : ℝ) ≤ y := by exact_mod_cast h1
    rw [abs_of_nonpos (by linarith), abs_of_nonpos (by linarith)]
    exact one_div_le_one_div_of_le (by linarith) (by linarith)

example := odd_pixel_skipped (exAbs 1) (exAbs_good 1) (by change (1 : ℤ) ≠ 2; decide) 5 9.5 3 1e4 (dr2 := 1) (h := 2) (by norm_num)

end Verif.Props
