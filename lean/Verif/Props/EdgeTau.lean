import Verif.Props.EdgeRounding
import Verif.Props.CodeProfile

/-!
C125: how much optical depth is lost by single precision.
-/

namespace Verif.Props.EdgeRounding
open Verif Verif.Spec Verif.Props Verif.PartInt Verif.IndexTable Verif.Absorption Verif.Rounding Verif.Props.NearRounding
open Verif.Props.CellRounding (Single roundTo_single)
open Verif.Props.TailCut

/-! ### Specification -/

/-- The profile of a line broadened by gas of temperature `temp` is between zero and `c`. The Voigt function has `c = 1`. -/
def BoundedProfile (L : LineAbsorption) (c temp : ℝ) : Prop :=
  ∀ u : ℝ, 0 ≤ L.profile u (L.voigt_fac / (L.bfac * √ temp)) ∧ L.profile u (L.voigt_fac / (L.bfac * √ temp)) ≤ c

/-- Optical depth at the centre of a line broadened by gas of temperature `temp`, per unit column density (fake_spectra/absorption.cpp:244, in the units of
the program). -/
noncomputable def centreDepth (L : LineAbsorption) (temp : ℝ) : ℝ := L.sigma_a / √ Real.pi * (LIGHT / 1e5 / (L.bfac * √ temp))

/-! ### Proofs -/

theorem inner_bound {s : SingleAbsorber} {c w : ℝ} (ha : ∀ u, 0 ≤ s.profile u s.aa ∧ s.profile u s.aa ≤ c) (hs : 0 ≤ s.vsmooth) (hm : 0 ≤ s.m_vhigh)
    (hw : ∀ v, weight s v ≤ w) (v : ℝ) : s.tau_kern_inner v ≤ 2 * s.m_vhigh * (w * c) := by
  have hc : 0 ≤ c := (ha 0).1.trans (ha 0).2
  have hw0 : 0 ≤ w := (weight_nonneg hs 0).trans (hw 0)
  rw [inner_eq]
  have : ∑ i ∈ Finset.range 7, weight s (node s i) * s.profile ((node s i - v) / s.btherm) s.aa ≤ ∑ i ∈ Finset.range 7, w * c :=
    Finset.sum_le_sum fun i _ => mul_le_mul (hw _) (ha _).2 (ha _).1 hw0
  rw [Finset.sum_const, Finset.card_range, nsmul_eq_mul] at this
  have hwc : 0 ≤ w * c := mul_nonneg hw0 hc
  calc _ ≤ 2 * s.m_vhigh / 8 * (((7 : ℕ) : ℝ) * (w * c)) := mul_le_mul_of_nonneg_left this (by positivity)
    _ ≤ _ := by
      push_cast
      nlinarith [mul_nonneg hm hwc]

theorem foldl_const (B a : ℝ) (xs : List ℕ) : xs.foldl (fun (t : ℝ) (_ : ℕ) => t + B) a = a + xs.length * B := by
  induction xs generalizing a with
  | nil => simp
  | cons x xs ih =>
    rw [List.foldl_cons, ih, List.length_cons]
    push_cast
    ring

theorem outer_bound {s : SingleAbsorber} (hb : 0 < s.btherm) {B x w : ℝ} (h : ∀ v, s.tau_kern_inner v ≤ B) :
    s.tau_kern_outer x (x + w) ≤ B := by
  unfold SingleAbsorber.tau_kern_outer
  simp only [add_sub_cancel_left]
  split_ifs with hc
  · exact h _
  · push Not at hc
    have hpos : 1 ≤ ⌈w / (s.btherm / 2) / 2⌉ := by
      rw [Int.one_le_ceil_iff]
      have : 0 < w := by linarith
      positivity
    set N := ⌈w / (s.btherm / 2) / 2⌉ with hN
    have hr : (1 : ℝ) ≤ (N : ℝ) := by exact_mod_cast hpos
    have hden : (0 : ℝ) < ((2 * N + 1 : ℤ) : ℝ) - 1 := by push_cast; linarith
    rw [div_le_iff₀ hden]
    have h1 := foldl_le (l := List.range' 1 (2 * N + 1 - 2).toNat) (a := s.tau_kern_inner x / 2) (b := B / 2)
      (f := fun i => s.tau_kern_inner ((i : ℝ) * (w / (((2 * N + 1 : ℤ) : ℝ) - 1)) + x)) (g := fun _ => B) (by linarith [h x]) (fun i _ => h _)
    rw [foldl_const, List.length_range'] at h1
    have e : (((2 * N + 1 - 2).toNat : ℕ) : ℝ) = 2 * N - 1 := by
      have : (((2 * N + 1 - 2).toNat : ℕ) : ℤ) = 2 * N - 1 := by omega
      exact_mod_cast this
    rw [e] at h1
    have h2 := h (x + w)
    push_cast at h1 ⊢
    linarith

theorem pixelSum_bound {τ : ℤ → ℝ} {tautail B : ℝ} {nbins off : ℕ} (hn : 0 < nbins) (c : ℤ) (hB : 0 ≤ B) (h : ∀ z, τ z ≤ B) (m : ℕ) :
    pixelSum off nbins τ (visited τ tautail 1 (nbins / 2) c ++ visited τ tautail (-1) (nbins / 2) (c - 1)) m ≤ B := by
  classical
  by_cases hex : ∃ z ∈ (visited τ tautail 1 (nbins / 2) c ++ visited τ tautail (-1) (nbins / 2) (c - 1)), (m : ℤ) = off + z % nbins
  · obtain ⟨z, hz, hm⟩ := hex
    have hr : c - (nbins / 2 : ℕ) ≤ z ∧ z < c + (nbins / 2 : ℕ) := by
      rw [List.mem_append, mem_visited, mem_visited] at hz
      rcases hz with ⟨k, hk, rfl, -⟩ | ⟨k, hk, rfl, -⟩ <;> constructor <;> omega
    rw [visited_sum hn c z hr.1 hr.2 hm]
    split
    · exact h z
    · exact hB
  · have : pixelSum off nbins τ (visited τ tautail 1 (nbins / 2) c ++ visited τ tautail (-1) (nbins / 2) (c - 1)) m = 0 := by
      unfold pixelSum
      apply List.sum_eq_zero
      intro x hx
      obtain ⟨z, hz, rfl⟩ := List.mem_map.1 hx
      exact if_neg fun hm => hex ⟨z, hz, hm⟩
    rw [this]
    exact hB

theorem centreDepth_nonneg {L : LineAbsorption} (hL : GoodAbs L) (temp : ℝ) : 0 ≤ centreDepth L temp := by
  have hb := hL.bfac
  have hs := hL.sigma
  have hlight : 0 < LIGHT := by norm_num [LIGHT]
  unfold centreDepth
  positivity

/-- The kernel of an absorber whose sightline is within `e` of its radius. -/
theorem weight_edge {L : LineAbsorption} (hL : GoodAbs L) (hk : L.kernel = 0 ∨ L.kernel = 1 ∨ L.kernel = 3) {h e dr2 : ℝ} (he : 0 < e) (h3 : 3 * e ≤ h)
    (hd : h - e ≤ √ dr2) (hd1 : dr2 < h ^ 2) (temp v : ℝ) : weight (absorber L dr2 temp h) v ≤ edgeRatio L.kernel (e / h) := by
  have hpi := Real.pi_pos
  have hv := hL.velfac
  have hh : 0 < h := by linarith
  have hs1 : √ dr2 ≤ h := Real.sqrt_le_iff.2 ⟨hh.le, hd1.le⟩
  have hq : 1 - e / h ≤ √ dr2 / h := by
    rw [le_div_iff₀ hh, sub_mul, div_mul_cancel₀ _ hh.ne']
    linarith
  have hq1 : √ dr2 / h ≤ 1 := by rw [div_le_one hh]; exact hs1
  have hx : e / h ≤ 1 / 3 := by rw [div_le_iff₀ hh]; linarith
  have hqq : √ dr2 / h ≤ √ (L.velfac * dr2 * L.velfac + v * v) / (L.velfac * h) := by
    have e1 : √ dr2 / h = √ (L.velfac * dr2 * L.velfac) / (L.velfac * h) := by
      rw [show L.velfac * dr2 * L.velfac = L.velfac ^ 2 * dr2 by ring, Real.sqrt_mul (by positivity), Real.sqrt_sq hv.le]
      field_simp
    rw [e1]
    gcongr
    nlinarith [mul_self_nonneg v]
  have hq0 : 0 ≤ √ dr2 / h := by positivity
  unfold weight absorber edgeRatio
  rcases hk with k | k | k
  · simp only [k]
    norm_num [SPH_CUBIC_SPLINE, SPH_QUINTIC_SPLINE, TOP_HAT_KERNEL]
    exact le_of_eq (by field_simp)
  · simp only [k]
    norm_num [SPH_CUBIC_SPLINE, VORONOI_MESH]
    refine (cubic_antitone (Set.mem_Ici.2 hq0) (Set.mem_Ici.2 (hq0.trans hqq)) hqq).trans ?_
    rw [cubic_outer (by linarith) hq1]
    have : (1 - √ dr2 / h) ^ 3 ≤ (e / h) ^ 3 := by
      gcongr
      linarith
    calc 8 / Real.pi * (2 * (1 - √ dr2 / h) ^ 3) = 16 / Real.pi * (1 - √ dr2 / h) ^ 3 := by ring
      _ ≤ _ := by gcongr
  · simp only [k]
    norm_num [SPH_CUBIC_SPLINE, SPH_QUINTIC_SPLINE, VORONOI_MESH]
    refine (quintic_antitone (Set.mem_Ici.2 hq0) (Set.mem_Ici.2 (hq0.trans hqq)) hqq).trans ?_
    rw [quintic_outer (by linarith) hq1]
    have : (1 - √ dr2 / h) ^ 5 ≤ (e / h) ^ 5 := by
      gcongr
      linarith
    calc 9 / 40 / Real.pi * (243 * (1 - √ dr2 / h) ^ 5) = 2187 / (40 * Real.pi) * (1 - √ dr2 / h) ^ 5 := by field_simp; ring
      _ ≤ _ := by gcongr

/-- The most that a grazed particle adds to the optical depth of a pixel. -/
theorem tau_edge {L : LineAbsorption} (hL : GoodAbs L) (hk : L.kernel = 0 ∨ L.kernel = 1 ∨ L.kernel = 3)
    {nbins : ℕ} (hn : 0 < nbins) {c h e dr2 dens temp : ℝ} (hp : BoundedProfile L c temp) (pos vel : ℝ)
    (he : 0 < e) (h3 : 3 * e ≤ h) (hd0 : 0 ≤ dr2) (hd : h - e ≤ √ dr2) (hd1 : dr2 < h ^ 2) (hdens : 0 ≤ dens) (ht : 0 < temp) (m : ℕ) :
    tauF L 0 nbins dr2 dens pos vel temp h m ≤ c * centreDepth L temp * (dens * edgeColumn L.kernel h e) := by
  have hv := hL.velfac
  have hbf := hL.bfac
  have hh : 0 < h := by linarith
  have hkv : L.kernel ≠ VORONOI_MESH := by
    unfold VORONOI_MESH
    omega
  have hbt : 0 < L.bfac * √ temp := mul_pos hbf (Real.sqrt_pos.2 ht)
  have hc : 0 ≤ c := (hp 0).1.trans (hp 0).2
  have hcd := centreDepth_nonneg hL temp
  have hB0 : 0 ≤ c * centreDepth L temp * (dens * edgeColumn L.kernel h e) :=
    mul_nonneg (mul_nonneg hc hcd) (mul_nonneg hdens (edgeColumn_nonneg _ hh.le he.le))
  unfold tauF
  simp only [hkv, false_and, if_false, ne_eq, not_false_eq_true, true_and]
  split
  · exact hB0
  · refine pixelSum_bound hn _ hB0 (fun z => ?_) m
    rw [tauPixel_outer]
    have hvh := vhigh_sph hkv hv hd1 temp
    have hin := inner_bound (s := absorber L dr2 temp h) (c := c) (fun u => hp u) (by unfold absorber; positivity)
      (by rw [hvh]; positivity) (weight_edge hL hk he h3 hd hd1 temp)
    have hout := outer_bound (s := absorber L dr2 temp h) hbt (x := z * (L.vbox / nbins) - (L.velfac * pos + vel)) (w := L.vbox / nbins) hin
    have hst : 0 ≤ strength L dens temp := by
      have : strength L dens temp = centreDepth L temp * dens / L.velfac := rfl
      rw [this]
      positivity
    have hr := edgeRatio_nonneg L.kernel (x := e / h) (by positivity)
    have hch : √ (h ^ 2 - dr2) ≤ √ (2 * h * e) := by
      apply Real.sqrt_le_sqrt
      have := Real.sq_sqrt hd0
      nlinarith
    calc _ ≤ strength L dens temp * (2 * (absorber L dr2 temp h).m_vhigh * (edgeRatio L.kernel (e / h) * c)) := mul_le_mul_of_nonneg_left hout hst
      _ = c * centreDepth L temp * (dens * (2 * √ (h ^ 2 - dr2) * edgeRatio L.kernel (e / h))) := by
        rw [hvh]
        unfold strength centreDepth
        field_simp
      _ ≤ c * centreDepth L temp * (dens * (2 * √ (2 * h * e) * edgeRatio L.kernel (e / h))) := by gcongr
      _ = _ := rfl

open Classical in
/-- C125: with the search and the squared radii in single precision, the optical depth of a pixel is never larger than in exact arithmetic. What is lost is
at most the optical depth, at the centre of the line, of the column that the particles the sightline grazes have so near to their edge. -/
theorem tau_lost {fl : ℝ → ℝ} (hf : Single fl) (L : LineAbsorption) (hL : GoodAbs L) (hk : L.kernel = 0 ∨ L.kernel = 1 ∨ L.kernel = 3)
    {c : ℝ} {nbins : ℕ} (hn : 0 < nbins)
    {box : ℝ} (hbox : 0 < box) {lines : List Line} (hl : ∀ l ∈ lines, GoodLine box l)
    {parts : List Part} (hp : ∀ p ∈ parts, SmallPart box (p.pos, p.h) ∧ box / 2 ^ 20 ≤ p.h ∧ 0 ≤ p.dens ∧ 0 < p.temp ∧ BoundedProfile L c p.temp) {sched : List ℕ}
    (hs : sched.Perm (List.range parts.length)) :
    ∃ r r', PartInt.compute_tau L nbins box lines parts (List.replicate (lines.length * nbins) 0) = .ok r ∧
      EdgeRounding.compute_tau fl L nbins box lines parts sched (List.replicate (lines.length * nbins) 0) = .ok r' ∧
      ∀ i l, lines[i]? = some l →
        List.Forall₂ (fun lossy exact => lossy ≤ exact ∧ exact - lossy ≤
          ((parts.filter (fun p => transDist2 box l.axis p.pos l.cofm < p.h ^ 2 ∧ ¬ ClearlyNear box (p.pos, p.h) l)).map
            (fun p => c * centreDepth L p.temp * (p.dens * edgeColumn L.kernel p.h (box / 2 ^ 22)))).sum)
          (lineSpectrum r' nbins i) (lineSpectrum r nbins i) := by
  have hkv : L.kernel ≠ VORONOI_MESH := by
    unfold VORONOI_MESH
    omega
  refine ⟨_, _, PartInt.compute_tau_eq L hkv hn box lines (fun l hm => (hl l hm).1) parts _ (by simp),
    compute_tau_single fl L hkv hn box lines (fun l hm => (hl l hm).1) parts hs _ (by simp), ?_⟩
  intro i l hi
  have hil : i < lines.length := by
    by_contra hc; rw [List.getElem?_eq_none (by omega)] at hi; cases hi
  have hδ : 0 < box / 2 ^ 22 := by positivity
  have hb22 : box / 2 ^ 20 = 4 * (box / 2 ^ 22) := by ring
  rw [lineSpectrum_arrAdd hil, lineSpectrum_arrAdd hil, arrAdd_zeros, arrAdd_zeros]
  have e1 : ∀ j < nbins, (parts.map (fun p => PartInt.single (build lines box) lines (tauOn L nbins) p (i * nbins + j))).sum =
      (parts.map (fun p => if transDist2 box l.axis p.pos l.cofm < p.h ^ 2 then
        tauF L 0 nbins (transDist2 box l.axis p.pos l.cofm) p.dens (axisCoord p.pos l.axis) (axisCoord p.vel l.axis) p.temp p.h j else 0)).sum := by
    intro j hj
    congr 1
    refine List.map_congr_left fun p hpm => ?_
    obtain ⟨⟨a, b, c⟩, -⟩ := hp p hpm
    rw [single_on_line hbox hl (p := p) ⟨a, b, by simp only at c ⊢; linarith⟩ (tauOn L nbins) hi hj (fun i l p d m hm => tauF_outside L hn hm ..)
      (tauOn_edge L hkv nbins)]
    split
    · exact tauF_offset ..
    · rfl
  have e2 : ∀ j < nbins, (parts.map (fun p => NearRounding.single fl (build lines box) lines (tauOnG fl L nbins) p (i * nbins + j))).sum =
      (parts.map (fun p => if Kept fl box lines i l p then
        tauF L 0 nbins (transDist2 box l.axis p.pos l.cofm) p.dens (axisCoord p.pos l.axis) (axisCoord p.vel l.axis) p.temp p.h j else 0)).sum := by
    intro j hj
    congr 1
    refine List.map_congr_left fun p hpm => ?_
    rw [single_kept hf hkv hn hbox hl (hp p hpm).1 hi hj]
    split
    · exact tauF_offset ..
    · rfl
  rw [List.map_congr_left (fun j hj => e1 j (List.mem_range.1 hj)), List.map_congr_left (fun j hj => e2 j (List.mem_range.1 hj))]
  have good := kept_good hf hbox hl (fun p hpm => (hp p hpm).1) hi
  have hd0 : ∀ p : Part, 0 ≤ transDist2 box l.axis p.pos l.cofm := by
    intro p
    rw [transDist2_eq (hl l (List.mem_of_getElem? hi)).1]
    positivity
  rw [List.forall₂_map_left_iff, List.forall₂_map_right_iff, List.forall₂_same]
  intro j _
  constructor
  · refine List.sum_le_sum fun p hpm => ?_
    obtain ⟨hsm, hmin, hdens, ht, hprof⟩ := hp p hpm
    by_cases hc : Kept fl box lines i l p
    · rw [if_pos hc, if_pos hc.1.1]
    · rw [if_neg hc]
      split
      · unfold tauF
        simp only [hkv, false_and, if_false, ne_eq, not_false_eq_true, true_and]
        split
        · exact le_rfl
        · refine pixelSum_nonneg (fun z _ => ?_) j
          exact tauPixel_nonneg L hL hn (fun x => (hprof x).1) hdens ht hsm.2.1.le
            (fun h => absurd h hkv) _ _ z
      · exact le_rfl
  · have := NearRounding.left_out (n := 1) (fun p _ => tauF L 0 nbins (transDist2 box l.axis p.pos l.cofm) p.dens (axisCoord p.pos l.axis) (axisCoord p.vel l.axis) p.temp p.h j)
      (fun p => c * centreDepth L p.temp * (p.dens * edgeColumn L.kernel p.h (box / 2 ^ 22))) (fun p => transDist2 box l.axis p.pos l.cofm < p.h ^ 2)
      (fun p => ClearlyNear box (p.pos, p.h) l) (Kept fl box lines i l) parts (fun p hpm => (good p hpm).1) (fun p hpm => (good p hpm).2) ?_ ?_
    · simpa using this
    · intro p hpm q1 q2
      obtain ⟨⟨a, b, _⟩, d, e, ht, hprof⟩ := hp p hpm
      rw [Finset.sum_range_one]
      refine tau_edge hL hk hn hprof _ _ hδ (by linarith) (hd0 p) ?_ q1 e ht j
      unfold ClearlyNear at q2
      simp only [not_lt] at q2
      linarith
    · intro p hpm
      obtain ⟨⟨a, b, _⟩, d, e, ht, hprof⟩ := hp p hpm
      have hc : 0 ≤ c := (hprof 0).1.trans (hprof 0).2
      exact mul_nonneg (mul_nonneg hc (centreDepth_nonneg hL _)) (mul_nonneg e (edgeColumn_nonneg _ b.le hδ.le))

/-! ### The profiles -/

theorem voigtH_le_one {a : ℝ} (ha : 0 < a) (u : ℝ) : voigtH a u ≤ 1 := by
  rcases eq_or_ne u 0 with rfl | hu
  · exact voigtH_zero_le ha
  · exact (voigtH_lt ha (by simpa using hu)).le.trans (voigtH_zero_le ha)

/-- The Voigt function is between zero and one. -/
theorem voigt_bounded {L : LineAbsorption} (hL : GoodAbs L) (h : IsVoigt L.profile) (hvf : 0 < L.voigt_fac) {temp : ℝ} (ht : 0 < temp) :
    BoundedProfile L 1 temp := by
  intro u
  have ha : 0 < L.voigt_fac / (L.bfac * √ temp) := div_pos hvf (mul_pos hL.bfac (Real.sqrt_pos.2 ht))
  rw [h u _ ha]
  exact ⟨(voigtH_pos ha u).le, voigtH_le_one ha u⟩

/-- The profile that the program computes is larger by no more than its own error. -/
theorem code_bounded {L : LineAbsorption} (F : Model.Faddeeva.RealFns) (fuel : ℕ) (h : L.profile = Model.Faddeeva.codeProfile F fuel) {temp : ℝ}
    (ha : 1e-100 ≤ L.voigt_fac / (L.bfac * √ temp)) : BoundedProfile L (1 + 6e-10) temp := by
  intro u
  have ha0 : 0 < L.voigt_fac / (L.bfac * √ temp) := lt_of_lt_of_le (by norm_num) ha
  have h1 := abs_le.1 (CodeProfile.codeProfile_near F fuel u ha)
  have h2 := voigtH_pos ha0 u
  have h3 := voigtH_le_one ha0 u
  rw [h]
  constructor
  · nlinarith
  · nlinarith

/-! ### The hypotheses are met -/

/-- The particle and the sightline of the example of C123, for a line with the Voigt profile and the cubic spline. -/
example (L : LineAbsorption) (hL : GoodAbs L) (hk : L.kernel = SPH_CUBIC_SPLINE) (hp : IsVoigt L.profile) (hvf : 0 < L.voigt_fac) :
    ∃ r r', PartInt.compute_tau L 16 100000 [edgeLine] [⟨edgePart.1, edgePart.1, 1, 10000, edgePart.2⟩] (List.replicate 16 0) = .ok r ∧
      EdgeRounding.compute_tau (roundTo 24) L 16 100000 [edgeLine] [⟨edgePart.1, edgePart.1, 1, 10000, edgePart.2⟩] [0] (List.replicate 16 0) = .ok r' ∧
      List.Forall₂ (fun lossy exact : ℝ => lossy ≤ exact) (lineSpectrum r' 16 0) (lineSpectrum r 16 0) := by
  have hl : ∀ l ∈ [edgeLine], GoodLine 100000 l := fun l h => (List.mem_singleton.1 h) ▸ edge_line_good
  obtain ⟨r, r', h1, h2, h3⟩ := tau_lost roundTo_single L hL (Or.inr (Or.inl hk)) (c := 1) (nbins := 16) (by norm_num) (box := 100000) (by norm_num) hl
    (parts := [⟨edgePart.1, edgePart.1, 1, 10000, edgePart.2⟩]) (by
      intro p h
      rw [List.mem_singleton.1 h]
      refine ⟨edge_part_small, ?_, by norm_num, by norm_num, voigt_bounded hL hp hvf (by norm_num)⟩
      simp only [edgePart]
      norm_num) (sched := [0]) (by simp)
  exact ⟨r, r', by simpa using h1, by simpa using h2, (h3 0 edgeLine rfl).imp fun _ _ h => h.1⟩

end Verif.Props.EdgeRounding
