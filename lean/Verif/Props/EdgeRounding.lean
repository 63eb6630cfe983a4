import Verif.Model.EdgeRounding
import Verif.Props.NearSpectra

/-!
C124: the squared radius of a particle in single precision.
-/

namespace Verif.Props.EdgeRounding
open Verif Verif.Spec Verif.Props Verif.PartInt Verif.IndexTable Verif.Absorption Verif.Rounding Verif.Props.NearRounding
open Verif.Props.CellRounding (Single roundTo_single)

/-! ### Optical depth -/

/-- An absorber with the sightline outside its radius has no optical depth. -/
theorem tauPixel_outside (L : LineAbsorption) (hk : L.kernel ≠ VORONOI_MESH) (nbins : ℕ) {dr2 smooth : ℝ} (h : smooth * smooth ≤ dr2)
    (dens pos1 pvel temp : ℝ) (z : ℤ) : tauPixel L nbins dr2 dens pos1 pvel temp smooth z = 0 := by
  unfold tauPixel
  simp only [hk, ne_eq, not_false_eq_true, if_true]
  set s : SingleAbsorber := ⟨L.profile, L.bfac * √ temp, L.velfac * dr2 * L.velfac, L.velfac * smooth, L.voigt_fac / (L.bfac * √ temp), L.kernel⟩ with hs
  have hv : s.m_vhigh = 0 := by
    unfold SingleAbsorber.m_vhigh
    simp only [hs, hk, if_false]
    rw [if_neg]
    simp only [gt_iff_lt, not_lt]
    nlinarith [mul_self_nonneg L.velfac]
  have hi : ∀ v, s.tau_kern_inner v = 0 := by
    intro v
    unfold SingleAbsorber.tau_kern_inner
    simp only [hv, mul_zero, zero_div, zero_mul]
  have ho : ∀ a b, s.tau_kern_outer a b = 0 := by
    intro a b
    unfold SingleAbsorber.tau_kern_outer
    simp only [hi, add_zero, zero_div]
    have : ∀ (xs : List ℕ), xs.foldl (fun (total : ℝ) (_ : ℕ) => total) 0 = 0 := by
      intro xs
      induction xs with
      | nil => rfl
      | cons x xs ih => exact ih
    simp [this]
  rw [ho]
  simp

/-- Contribution of a particle to element `m` of the optical depth array, when the radius is checked in single precision. -/
noncomputable def tauG (fl : ℝ → ℝ) (L : LineAbsorption) (off nbins : ℕ) (dr2 dens ppos pvel temp smooth : ℝ) (m : ℕ) : ℝ :=
  if fl (smooth * smooth) - dr2 ≤ 0 then 0 else tauF L off nbins dr2 dens ppos pvel temp smooth m

theorem add_tau_single (fl : ℝ → ℝ) (L : LineAbsorption) (hk : L.kernel ≠ VORONOI_MESH) {off nbins : ℕ} (hn : 0 < nbins) {a : List ℝ}
    (ha : off + nbins ≤ a.length) (dr2 dens ppos pvel temp smooth : ℝ) :
    EdgeRounding.add_tau_particle fl L a off nbins dr2 dens ppos pvel temp smooth =
      .ok (arrAdd a (tauG fl L off nbins dr2 dens ppos pvel temp smooth)) := by
  unfold EdgeRounding.add_tau_particle
  simp only [hk, false_and, if_false, ne_eq, not_false_eq_true, true_and]
  by_cases h1 : fl (smooth * smooth) - dr2 ≤ 0
  · have : tauG fl L off nbins dr2 dens ppos pvel temp smooth = fun _ => 0 := by
      funext m
      unfold tauG
      rw [if_pos h1]
    rw [if_pos h1, this, arrAdd_zero]
  · rw [if_neg h1, tauLoop_eq _ _ hn _ _ _ ha, ok_bind, tauLoop_eq _ _ hn _ _ _ (by simpa using ha), arrAdd_arrAdd]
    congr 2
    funext m
    unfold tauG tauF
    rw [if_neg h1]
    simp only [hk, false_and, if_false, ne_eq, not_false_eq_true, true_and]
    by_cases h2 : smooth * smooth - dr2 ≤ 0
    · rw [if_pos h2]
      have hz := tauPixel_outside L hk nbins (by linarith : smooth * smooth ≤ dr2) dens ppos pvel temp
      simp [pixelSum, hz]
    · rw [if_neg h2]
      simp only [pixelSum, List.map_append, List.sum_append]

/-- C124, optical depth: a particle adds what it would in exact arithmetic, or nothing. Nothing only if the sightline is inside its radius by less than
one rounding. -/
theorem tau_deposit {fl : ℝ → ℝ} (hf : Single fl) (L : LineAbsorption) (hk : L.kernel ≠ VORONOI_MESH) {off nbins : ℕ} (hn : 0 < nbins) {a : List ℝ}
    (ha : off + nbins ≤ a.length) (dr2 dens ppos pvel temp h : ℝ) :
    EdgeRounding.add_tau_particle fl L a off nbins dr2 dens ppos pvel temp h = Absorption.add_tau_particle L a off nbins dr2 dens ppos pvel temp h ∨
    (h ^ 2 * (1 - (2 : ℝ)⁻¹ ^ 24) ≤ dr2 ∧ dr2 < h ^ 2 ∧ EdgeRounding.add_tau_particle fl L a off nbins dr2 dens ppos pvel temp h = .ok a) := by
  rw [add_tau_single fl L hk hn ha, add_tau_eq L hn ha]
  by_cases h1 : fl (h * h) - dr2 ≤ 0
  · have e : tauG fl L off nbins dr2 dens ppos pvel temp h = fun _ => 0 := by
      funext m
      unfold tauG
      rw [if_pos h1]
    by_cases h2 : h * h - dr2 ≤ 0
    · left
      have : tauF L off nbins dr2 dens ppos pvel temp h = fun _ => 0 := by
        funext m
        unfold tauF
        rw [if_neg (by tauto), if_pos ⟨hk, h2⟩]
      rw [e, this]
    · right
      have lo := (Single.near hf (x := h * h) (b := h * h) (by rw [abs_of_nonneg (mul_self_nonneg _)])).1
      refine ⟨by nlinarith, by nlinarith, ?_⟩
      rw [e, arrAdd_zero]
  · left
    have : tauG fl L off nbins dr2 dens ppos pvel temp h = tauF L off nbins dr2 dens ppos pvel temp h := by
      funext m
      unfold tauG
      rw [if_neg h1]
    rw [this]

/-! ### Column density -/

/-- A uniform particle is deposited as one of a slightly different radius. -/
theorem add_colden_single {fl : ℝ → ℝ} (hf : Single fl) (L : LineAbsorption) (hk : L.kernel = TOP_HAT_KERNEL) (a : List ℝ) (off nbins : ℕ)
    (dr2 dens pos h : ℝ) :
    EdgeRounding.add_colden_particle fl L a off nbins dr2 dens pos h = Absorption.add_colden_particle L a off nbins dr2 dens pos (√ (fl (h * h))) := by
  have hv : L.kernel ≠ VORONOI_MESH := by rw [hk]; decide
  have lo := (Single.near hf (x := h * h) (b := h * h) (by rw [abs_of_nonneg (mul_self_nonneg _)])).1
  have h0 : 0 ≤ fl (h * h) := by
    refine le_trans ?_ lo
    norm_num
    nlinarith [mul_self_nonneg h]
  unfold EdgeRounding.add_colden_particle Absorption.add_colden_particle
  simp only [hv, false_and, if_false, ne_eq, not_false_eq_true, true_and, Real.mul_self_sqrt h0]
  split
  · rfl
  · unfold coldenLoop
    have : ∀ zl zh s d r, get_kern_frac L.kernel zl zh s d r = tophat_kern_frac zl zh 0 0 r := by
      intro zl zh s d r
      unfold get_kern_frac
      rw [hk, if_pos rfl]
      rfl
    simp only [this]

/-- Half the chord of a sphere of squared radius `x` at squared distance `d` from its centre; none outside. -/
noncomputable def halfChord (x d : ℝ) : ℝ := √ (x - d)

theorem halfChord_near {x x' d e : ℝ} (he : 0 ≤ e) (h : |x' - x| ≤ e ^ 2) : |halfChord x' d - halfChord x d| ≤ e := by
  have key : ∀ u v : ℝ, u - v ≤ e ^ 2 → √ u - √ v ≤ e := by
    intro u v huv
    rw [sub_le_iff_le_add]
    apply Real.sqrt_le_iff.2
    have := Real.sqrt_nonneg v
    refine ⟨by positivity, ?_⟩
    have hv : v ≤ √ v ^ 2 := by
      rcases le_total 0 v with hv | hv
      · rw [Real.sq_sqrt hv]
      · exact hv.trans (sq_nonneg _)
    nlinarith
  have h' := abs_le.1 h
  unfold halfChord
  rw [abs_le]
  constructor
  · have := key (x - d) (x' - d) (by linarith [h'.1])
    linarith
  · exact key (x' - d) (x - d) (by linarith [h'.2])

/-- The column of a uniform particle in exact arithmetic, outside its radius too. -/
theorem tophat_sum (L : LineAbsorption) (hL : GoodAbs L) (hk : L.kernel = TOP_HAT_KERNEL) {off nbins : ℕ} (hn : 0 < nbins) {a : List ℝ}
    (ha : off + nbins ≤ a.length) (dr2 dens pos h : ℝ) :
    ∃ out, Absorption.add_colden_particle L a off nbins dr2 dens pos h = .ok out ∧ out.sum = a.sum + dens * (2 * halfChord (h ^ 2) dr2 / (4 / 3 * Real.pi)) := by
  rcases le_total dr2 (h ^ 2) with hd | hd
  · obtain ⟨out, h1, h2, -⟩ := colden_conserved_tophat L hL hk hn ha dens pos hd
    refine ⟨out, h1, ?_⟩
    rw [h2, chordLength_eq hd]
    rfl
  · refine ⟨a, colden_outside_particle L (by rw [hk]; decide) a off nbins dens pos hd, ?_⟩
    unfold halfChord
    rw [Real.sqrt_eq_zero_of_nonpos (by linarith)]
    simp

/-- C124, column density: a uniform particle adds what it would in exact arithmetic, up to a two thousandth of its radius in the length of the chord. Splines are in
`Verif.Props.EdgeSplines`. -/
theorem colden_deposit {fl : ℝ → ℝ} (hf : Single fl) (L : LineAbsorption) (hL : GoodAbs L) (hk : L.kernel = TOP_HAT_KERNEL) {off nbins : ℕ}
    (hn : 0 < nbins) {a : List ℝ} (ha : off + nbins ≤ a.length) (dr2 pos : ℝ) {dens h : ℝ} (hdens : 0 ≤ dens) (hh : 0 ≤ h) :
    ∃ out out', Absorption.add_colden_particle L a off nbins dr2 dens pos h = .ok out ∧
      EdgeRounding.add_colden_particle fl L a off nbins dr2 dens pos h = .ok out' ∧
      |out'.sum - out.sum| ≤ dens * (h / 2 ^ 11 / (4 / 3 * Real.pi)) := by
  have hpi := Real.pi_pos
  obtain ⟨out, h1, h2⟩ := tophat_sum L hL hk hn ha dr2 dens pos h
  obtain ⟨out', h1', h2'⟩ := tophat_sum L hL hk hn ha dr2 dens pos (√ (fl (h * h)))
  rw [← add_colden_single hf L hk] at h1'
  have nr := Single.near hf (x := h * h) (b := h * h) (by rw [abs_of_nonneg (mul_self_nonneg _)])
  have h0 : 0 ≤ fl (h * h) := by
    refine le_trans ?_ nr.1
    norm_num
    nlinarith [mul_self_nonneg h]
  rw [Real.sq_sqrt h0] at h2'
  refine ⟨out, out', h1, h1', ?_⟩
  have hc := halfChord_near (x := h ^ 2) (x' := fl (h * h)) (d := dr2) (e := h / 2 ^ 12) (by positivity) (by
    rw [abs_le]
    have e : (h / 2 ^ 12) ^ 2 = (2 : ℝ)⁻¹ ^ 24 * (h * h) := by ring
    rw [e]
    constructor <;> nlinarith [nr.1, nr.2])
  rw [h2, h2']
  have e : a.sum + dens * (2 * halfChord (fl (h * h)) dr2 / (4 / 3 * Real.pi)) - (a.sum + dens * (2 * halfChord (h ^ 2) dr2 / (4 / 3 * Real.pi))) =
      dens * (2 / (4 / 3 * Real.pi)) * (halfChord (fl (h * h)) dr2 - halfChord (h ^ 2) dr2) := by ring
  rw [e, abs_mul, abs_of_nonneg (by positivity)]
  calc _ ≤ dens * (2 / (4 / 3 * Real.pi)) * (h / 2 ^ 12) := by gcongr
    _ = _ := by ring

/-! ### Whole spectra -/

/-- What particle `p` at squared distance `d` from line `i` adds to element `m`. -/
noncomputable def tauOnG (fl : ℝ → ℝ) (L : LineAbsorption) (nbins i : ℕ) (l : Line) (p : Part) (d : ℝ) (m : ℕ) : ℝ :=
  tauG fl L (i * nbins) nbins d p.dens (axisCoord p.pos l.axis) (axisCoord p.vel l.axis) p.temp p.h m

/-- What particle `p` at squared distance `d` from line `i` adds to element `m`. -/
noncomputable def coldenOnG (fl : ℝ → ℝ) (L : LineAbsorption) (nbins i : ℕ) (l : Line) (p : Part) (d : ℝ) (m : ℕ) : ℝ :=
  coldenF L (i * nbins) nbins d p.dens (axisCoord p.pos l.axis) (√ (fl (p.h * p.h))) m

theorem compute_tau_single (fl : ℝ → ℝ) (L : LineAbsorption) (hk : L.kernel ≠ VORONOI_MESH) {nbins : ℕ} (hn : 0 < nbins)
    (box : ℝ) (lines : List Line) (hax : ∀ l ∈ lines, l.axis = 1 ∨ l.axis = 2 ∨ l.axis = 3)
    (parts : List Part) {sched : List ℕ} (hs : sched.Perm (List.range parts.length)) (out : List ℝ) (hout : out.length = lines.length * nbins) :
    EdgeRounding.compute_tau fl L nbins box lines parts sched out = .ok (arrAdd out (fun m =>
      (parts.map (fun p => NearRounding.single fl (build lines box) lines (tauOnG fl L nbins) p m)).sum)) := by
  unfold EdgeRounding.compute_tau
  refine NearRounding.overLines_eq (tauOnG fl L nbins) _ hk box lines parts _ (lines.length * nbins) ?_ hs out hout
  intro i l hl es hes a ha
  unfold EdgeRounding.tauLine
  have hi : i < lines.length := by
    by_contra hc; rw [List.getElem?_eq_none (by omega)] at hl; cases hl
  rw [foldlM_arrAdd _ (fun e m => (parts[e.1.1]?).elim 0 (fun p => tauOnG fl L nbins i l p e.1.2 m)) (lines.length * nbins)]
  · congr 2; funext m; rw [List.map_map]; rfl
  · intro e he b hb
    obtain ⟨e', he', rfl⟩ := List.mem_map.1 he
    obtain ⟨p, hp⟩ := hes e' he'
    simp only
    have hax' := hax l (List.mem_of_getElem? hl)
    rw [readAt_eq hp, ok_bind, coord_eq hax', ok_bind, coord_eq hax', ok_bind, if_neg hk, hp]
    exact add_tau_single fl L hk hn (by rw [hb]; exact slice_le hi) _ _ _ _ _ _
  · exact ha

theorem compute_colden_single {fl : ℝ → ℝ} (hf : Single fl) (L : LineAbsorption) (hk : L.kernel = TOP_HAT_KERNEL) {nbins : ℕ} (hn : 0 < nbins)
    (box : ℝ) (lines : List Line) (hax : ∀ l ∈ lines, l.axis = 1 ∨ l.axis = 2 ∨ l.axis = 3)
    (parts : List Part) {sched : List ℕ} (hs : sched.Perm (List.range parts.length)) (out : List ℝ) (hout : out.length = lines.length * nbins) :
    EdgeRounding.compute_colden fl L nbins box lines parts sched out = .ok (arrAdd out (fun m =>
      (parts.map (fun p => NearRounding.single fl (build lines box) lines (coldenOnG fl L nbins) p m)).sum)) := by
  have hv : L.kernel ≠ VORONOI_MESH := by rw [hk]; decide
  unfold EdgeRounding.compute_colden
  refine NearRounding.overLines_eq (coldenOnG fl L nbins) _ hv box lines parts _ (lines.length * nbins) ?_ hs out hout
  intro i l hl es hes a ha
  unfold EdgeRounding.coldenLine
  have hi : i < lines.length := by
    by_contra hc; rw [List.getElem?_eq_none (by omega)] at hl; cases hl
  rw [foldlM_arrAdd _ (fun e m => (parts[e.1.1]?).elim 0 (fun p => coldenOnG fl L nbins i l p e.1.2 m)) (lines.length * nbins)]
  · congr 2; funext m; rw [List.map_map]; rfl
  · intro e he b hb
    obtain ⟨e', he', rfl⟩ := List.mem_map.1 he
    obtain ⟨p, hp⟩ := hes e' he'
    simp only
    rw [readAt_eq hp, ok_bind, coord_eq (hax l (List.mem_of_getElem? hl)), ok_bind, if_neg hv, hp, add_colden_single hf L hk]
    exact add_colden_eq L hn (by rw [hb]; exact slice_le hi) _ _ _ _
  · exact ha

/-- The particles that are found near sightline `i` and pass the check of the radius. -/
def Kept (fl : ℝ → ℝ) (box : ℝ) (lines : List Line) (i : ℕ) (l : Line) (p : Part) : Prop :=
  Chosen fl box lines i l p ∧ transDist2 box l.axis p.pos l.cofm < fl (p.h * p.h)

theorem kept_good {fl : ℝ → ℝ} (hf : Single fl) {box : ℝ} (hbox : 0 < box) {lines : List Line} (hl : ∀ l ∈ lines, GoodLine box l)
    {parts : List Part} (hp : ∀ p ∈ parts, SmallPart box (p.pos, p.h)) {i : ℕ} {l : Line} (hi : lines[i]? = some l) :
    GoodChoice box l parts (Kept fl box lines i l) := by
  intro p hpm
  obtain ⟨c1, c2⟩ := chosen_good hf hbox hl hp hi p hpm
  refine ⟨fun h => ⟨c1 h, ?_⟩, fun h => c2 h.1⟩
  have lo := (Single.near hf (x := p.h * p.h) (b := p.h * p.h) (by rw [abs_of_nonneg (mul_self_nonneg _)])).1
  obtain ⟨-, h0, hb⟩ := hp p hpm
  simp only at h0 hb
  unfold ClearlyNear at h
  simp only at h
  have hs := Real.sqrt_nonneg (transDist2 box l.axis p.pos l.cofm)
  have hd : transDist2 box l.axis p.pos l.cofm ≤ √ (transDist2 box l.axis p.pos l.cofm) ^ 2 := by
    rcases le_total 0 (transDist2 box l.axis p.pos l.cofm) with hv | hv
    · rw [Real.sq_sqrt hv]
    · exact hv.trans (sq_nonneg _)
  have hlt : √ (transDist2 box l.axis p.pos l.cofm) < p.h * (1 - (2 : ℝ)⁻¹ ^ 24) := by
    norm_num at h hb ⊢
    linarith
  have h1 : √ (transDist2 box l.axis p.pos l.cofm) ^ 2 < (p.h * (1 - (2 : ℝ)⁻¹ ^ 24)) ^ 2 := by gcongr
  have h2 : (p.h * (1 - (2 : ℝ)⁻¹ ^ 24)) ^ 2 ≤ p.h * p.h - (2 : ℝ)⁻¹ ^ 24 * (p.h * p.h) := by
    norm_num
    nlinarith [mul_self_nonneg p.h]
  linarith

open Classical in
/-- What a particle adds to the optical depth of line `i`. -/
theorem single_kept {fl : ℝ → ℝ} (hf : Single fl) {L : LineAbsorption} (hk : L.kernel ≠ VORONOI_MESH) {nbins : ℕ} (hn : 0 < nbins)
    {box : ℝ} (hbox : 0 < box) {lines : List Line} (hl : ∀ l ∈ lines, GoodLine box l) {p : Part} (hp : SmallPart box (p.pos, p.h)) {i j : ℕ} {l : Line}
    (hi : lines[i]? = some l) (hj : j < nbins) :
    NearRounding.single fl (build lines box) lines (tauOnG fl L nbins) p (i * nbins + j) =
      if Kept fl box lines i l p then tauOn L nbins i l p (transDist2 box l.axis p.pos l.cofm) (i * nbins + j) else 0 := by
  rw [single_chosen hf hbox hl hp.1 (tauOnG fl L nbins) hi hj]
  · unfold Kept
    by_cases q1 : Chosen fl box lines i l p
    · by_cases q2 : transDist2 box l.axis p.pos l.cofm < fl (p.h * p.h)
      · rw [if_pos q1, if_pos ⟨q1, q2⟩]
        unfold tauOnG tauG
        rw [if_neg (by linarith)]
        rfl
      · rw [if_pos q1, if_neg (fun h => q2 h.2)]
        unfold tauOnG tauG
        rw [if_pos (by linarith)]
    · rw [if_neg q1, if_neg (fun h => q1 h.1)]
  · intro i l p d m hm
    unfold tauOnG tauG
    split
    · rfl
    · exact tauF_outside L hn hm ..
  · intro i l p d m hd
    unfold tauOnG tauG
    split
    · rfl
    · exact tauOn_edge L hk nbins i l p d m hd

open Classical in
/-- C124, optical depth of whole spectra: with the search and the squared radii in single precision, the pixels of a sightline hold what results from
depositing in exact arithmetic a good choice of particles, each with its exact distance. -/
theorem tau_spectrum {fl : ℝ → ℝ} (hf : Single fl) (L : LineAbsorption) (hk : L.kernel ≠ VORONOI_MESH) {nbins : ℕ} (hn : 0 < nbins)
    {box : ℝ} (hbox : 0 < box) {lines : List Line} (hl : ∀ l ∈ lines, GoodLine box l)
    {parts : List Part} (hp : ∀ p ∈ parts, SmallPart box (p.pos, p.h)) {sched : List ℕ} (hs : sched.Perm (List.range parts.length)) :
    ∃ r, EdgeRounding.compute_tau fl L nbins box lines parts sched (List.replicate (lines.length * nbins) 0) = .ok r ∧
      r.length = lines.length * nbins ∧
      ∀ i l, lines[i]? = some l → ∃ chosen, GoodChoice box l parts chosen ∧
        (parts.filter (fun p => chosen p)).foldlM
          (fun a p => Absorption.add_tau_particle L a 0 nbins (transDist2 box l.axis p.pos l.cofm) p.dens (axisCoord p.pos l.axis) (axisCoord p.vel l.axis) p.temp p.h) (List.replicate nbins 0) =
          .ok (lineSpectrum r nbins i) := by
  refine ⟨_, compute_tau_single fl L hk hn box lines (fun l hm => (hl l hm).1) parts hs _ (by simp), by simp, ?_⟩
  intro i l hi
  refine ⟨Kept fl box lines i l, kept_good hf hbox hl hp hi, ?_⟩
  have hil : i < lines.length := by
    by_contra hc; rw [List.getElem?_eq_none (by omega)] at hi; cases hi
  rw [lineSpectrum_arrAdd hil, foldlM_arrAdd _ (fun (p : Part) => tauF L 0 nbins
    (transDist2 box l.axis p.pos l.cofm) p.dens (axisCoord p.pos l.axis) (axisCoord p.vel l.axis) p.temp p.h) nbins _ ?_ _ (by simp)]
  swap
  · intro p _ a ha
    exact add_tau_eq L hn (by omega) ..
  congr 1
  apply arrAdd_congr
  intro j hj
  have hj : j < nbins := by simpa using hj
  have h1 : ∀ p ∈ parts, NearRounding.single fl (build lines box) lines (tauOnG fl L nbins) p (i * nbins + j) =
      if Kept fl box lines i l p then tauOn L nbins i l p (transDist2 box l.axis p.pos l.cofm) (i * nbins + j) else 0 :=
    fun p hpm => single_kept hf hk hn hbox hl (hp p hpm) hi hj
  rw [List.map_congr_left h1]
  clear h1 hs
  induction parts with
  | nil => rfl
  | cons p ps ih =>
    have ih := ih (fun q hq => hp q (by simp [hq]))
    by_cases hd : Kept fl box lines i l p
    · simp only [List.filter_cons, hd, decide_true, if_true, List.map_cons, List.sum_cons, ih]
      congr 1
      exact (tauF_offset ..).symm
    · simp only [List.filter_cons, hd, decide_false, if_false, List.map_cons, List.sum_cons, ih,
        zero_add, Bool.false_eq_true]

open Classical in
/-- The part of a sum of single-particle contributions that belongs to line `i`, with those at the edge. -/
theorem single_found {fl : ℝ → ℝ} (hf : Single fl) {box : ℝ} (hbox : 0 < box) {lines : List Line} (hl : ∀ l ∈ lines, GoodLine box l)
    {p : Part} (hp : InBox box p.pos) (F : ℕ → Line → Part → ℝ → ℕ → ℝ) {nbins i j : ℕ} {l : Line} (hi : lines[i]? = some l)
    (hj : j < nbins)
    (hout : ∀ i l p d m, m < i * nbins ∨ i * nbins + nbins ≤ m → F i l p d m = 0) :
    NearRounding.single fl (build lines box) lines F p (i * nbins + j) =
      if StdMap.find? (NearRounding.get_near_lines fl (build lines box) p.pos p.h) i ≠ none then
        F i l p (transDist2 box l.axis p.pos l.cofm) (i * nbins + j) else 0 := by
  have hil : i < lines.length := by
    by_contra hc; rw [List.getElem?_eq_none (by omega)] at hi; cases hi
  unfold NearRounding.single
  rw [list_sum_single hil]
  · rw [hi]
    simp only [Option.elim_some]
    cases hfd : StdMap.find? (NearRounding.get_near_lines fl (build lines box) p.pos p.h) i with
    | none => simp
    | some d =>
      obtain ⟨l', h1, h2, -⟩ := near_single_distance hf hbox hl (p := (p.pos, p.h)) hp i d hfd
      rw [hi] at h1
      simp only [Option.some.injEq] at h1
      subst h1
      simp only at h2
      subst h2
      simp
  · intro k hk hne
    cases lines[k]? with
    | none => rfl
    | some l' =>
      cases StdMap.find? (NearRounding.get_near_lines fl (build lines box) p.pos p.h) k with
      | none => rfl
      | some d =>
        apply hout
        rcases lt_or_gt_of_ne hne with h | h
        · right
          have : (k + 1) * nbins ≤ i * nbins := Nat.mul_le_mul_right _ h
          rw [add_mul, one_mul] at this
          omega
        · left
          have : (i + 1) * nbins ≤ k * nbins := Nat.mul_le_mul_right _ h
          rw [add_mul, one_mul] at this
          omega

theorem coldenF_sum (L : LineAbsorption) (hL : GoodAbs L) (hk : L.kernel = TOP_HAT_KERNEL) {nbins : ℕ} (hn : 0 < nbins) (dr2 dens pos h : ℝ) :
    ∑ j ∈ Finset.range nbins, coldenF L 0 nbins dr2 dens pos h j = dens * (2 * halfChord (h ^ 2) dr2 / (4 / 3 * Real.pi)) := by
  obtain ⟨out, h1, h2⟩ := tophat_sum L hL hk (off := 0) hn (a := List.replicate nbins 0) (by simp) dr2 dens pos h
  rw [add_colden_eq L hn (by simp)] at h1
  cases h1
  rw [arrAdd_sum, List.length_replicate] at h2
  simpa using h2

/-- The sum over the pixels of a line of what the particles in a list add. -/
theorem sum_pixels {n : ℕ} (c : Part → ℕ → ℝ) (parts : List Part) :
    ((List.range n).map (fun j => (parts.map (fun p => c p j)).sum)).sum = (parts.map (fun p => ∑ j ∈ Finset.range n, c p j)).sum := by
  rw [list_sum_comm]
  congr 1

open Classical in
/-- C124, column density of whole spectra: with the search and the squared radii in single precision, the column of a sightline differs from that in exact
arithmetic by at most a two thousandth of the radius, in the length of the chord, for each particle it passes, and what those it grazes have near to their
edge. Splines are in `Verif.Props.EdgeSplines`. -/
theorem column_spectrum {fl : ℝ → ℝ} (hf : Single fl) (L : LineAbsorption) (hL : GoodAbs L) (hk : L.kernel = TOP_HAT_KERNEL) {nbins : ℕ}
    (hn : 0 < nbins) {box : ℝ} (hbox : 0 < box) {lines : List Line} (hl : ∀ l ∈ lines, GoodLine box l)
    {parts : List Part} (hp : ∀ p ∈ parts, SmallPart box (p.pos, p.h) ∧ box / 2 ^ 20 ≤ p.h ∧ 0 ≤ p.dens) {sched : List ℕ}
    (hs : sched.Perm (List.range parts.length)) :
    ∃ r r', PartInt.compute_colden L nbins box lines parts (List.replicate (lines.length * nbins) 0) = .ok r ∧
      EdgeRounding.compute_colden fl L nbins box lines parts sched (List.replicate (lines.length * nbins) 0) = .ok r' ∧
      ∀ i l, lines[i]? = some l →
        |(lineSpectrum r' nbins i).sum - (lineSpectrum r nbins i).sum| ≤
          ((parts.filter (fun p => HardlyOutside box (p.pos, p.h) l)).map (fun p => p.dens * (p.h / 2 ^ 11 / (4 / 3 * Real.pi)))).sum +
          ((parts.filter (fun p => transDist2 box l.axis p.pos l.cofm < p.h ^ 2 ∧ ¬ ClearlyNear box (p.pos, p.h) l)).map
            (fun p => p.dens * edgeColumn 0 p.h (box / 2 ^ 22))).sum := by
  have hv : L.kernel ≠ VORONOI_MESH := by rw [hk]; decide
  have hpi := Real.pi_pos
  obtain ⟨r, r2, hr, hr2, hcmp⟩ := column_lost hf L hL hv hn hbox hl hp hs
  refine ⟨r, _, hr, compute_colden_single hf L hk hn box lines (fun l hm => (hl l hm).1) parts hs _ (by simp), ?_⟩
  intro i l hi
  have hil : i < lines.length := by
    by_contra hc; rw [List.getElem?_eq_none (by omega)] at hi; cases hi
  obtain ⟨hle0, hlost⟩ := hcmp i l hi
  rw [show L.kernel = 0 from hk] at hlost
  have hle := List.Forall₂.sum_le_sum hle0
  clear hle0
  rw [NearRounding.compute_colden_eq L hv hn box lines (fun l hm => (hl l hm).1) parts hs _ (by simp)] at hr2
  cases hr2
  rw [lineSpectrum_arrAdd hil, arrAdd_zeros] at hle hlost
  rw [lineSpectrum_arrAdd hil, arrAdd_zeros]
  have e1 : ∀ j < nbins, (parts.map (fun p => NearRounding.single fl (build lines box) lines (coldenOn L nbins) p (i * nbins + j))).sum =
      (parts.map (fun p => if StdMap.find? (NearRounding.get_near_lines fl (build lines box) p.pos p.h) i ≠ none then
        coldenF L 0 nbins (transDist2 box l.axis p.pos l.cofm) p.dens (axisCoord p.pos l.axis) p.h j else 0)).sum := by
    intro j hj
    congr 1
    refine List.map_congr_left fun p hpm => ?_
    rw [single_found hf hbox hl (hp p hpm).1.1 (coldenOn L nbins) hi hj (fun i l p d m hm => coldenF_outside L hn hm ..)]
    split
    · exact coldenF_offset ..
    · rfl
  have e2 : ∀ j < nbins, (parts.map (fun p => NearRounding.single fl (build lines box) lines (coldenOnG fl L nbins) p (i * nbins + j))).sum =
      (parts.map (fun p => if StdMap.find? (NearRounding.get_near_lines fl (build lines box) p.pos p.h) i ≠ none then
        coldenF L 0 nbins (transDist2 box l.axis p.pos l.cofm) p.dens (axisCoord p.pos l.axis) (√ (fl (p.h * p.h))) j else 0)).sum := by
    intro j hj
    congr 1
    refine List.map_congr_left fun p hpm => ?_
    rw [single_found hf hbox hl (hp p hpm).1.1 (coldenOnG fl L nbins) hi hj (fun i l p d m hm => coldenF_outside L hn hm ..)]
    split
    · exact coldenF_offset ..
    · rfl
  rw [List.map_congr_left (fun j hj => e1 j (List.mem_range.1 hj)), sum_pixels] at hle hlost
  rw [List.map_congr_left (fun j hj => e2 j (List.mem_range.1 hj)), sum_pixels]
  have key : |(parts.map (fun p => ∑ j ∈ Finset.range nbins, if StdMap.find? (NearRounding.get_near_lines fl (build lines box) p.pos p.h) i ≠ none then
        coldenF L 0 nbins (transDist2 box l.axis p.pos l.cofm) p.dens (axisCoord p.pos l.axis) (√ (fl (p.h * p.h))) j else 0)).sum -
      (parts.map (fun p => ∑ j ∈ Finset.range nbins, if StdMap.find? (NearRounding.get_near_lines fl (build lines box) p.pos p.h) i ≠ none then
        coldenF L 0 nbins (transDist2 box l.axis p.pos l.cofm) p.dens (axisCoord p.pos l.axis) p.h j else 0)).sum| ≤
      ((parts.filter (fun p => HardlyOutside box (p.pos, p.h) l)).map (fun p => p.dens * (p.h / 2 ^ 11 / (4 / 3 * Real.pi)))).sum := by
    clear hle hlost e1 e2 hr hcmp hs
    induction parts with
    | nil => simp
    | cons p ps ih =>
      have ih := ih (fun q hq => hp q (by simp [hq]))
      obtain ⟨⟨hin, hh, -⟩, -, hdens⟩ := hp p (by simp)
      simp only at hh
      simp only [List.map_cons, List.sum_cons, List.filter_cons]
      by_cases q : StdMap.find? (NearRounding.get_near_lines fl (build lines box) p.pos p.h) i ≠ none
      · have hho : HardlyOutside box (p.pos, p.h) l := by
          obtain ⟨d, hd⟩ := Option.ne_none_iff_exists'.1 q
          obtain ⟨l', h1, h2, h3⟩ := near_single_distance hf hbox hl (p := (p.pos, p.h)) hin i d hd
          rw [hi] at h1
          cases h1
          exact h3
        have nr := Single.near hf (x := p.h * p.h) (b := p.h * p.h) (by rw [abs_of_nonneg (mul_self_nonneg _)])
        have h0 : 0 ≤ fl (p.h * p.h) := by
          refine le_trans ?_ nr.1
          norm_num
          nlinarith [mul_self_nonneg p.h]
        have hc := halfChord_near (x := p.h ^ 2) (x' := fl (p.h * p.h)) (d := transDist2 box l.axis p.pos l.cofm) (e := p.h / 2 ^ 12) (by positivity) (by
          rw [abs_le]
          have e : (p.h / 2 ^ 12) ^ 2 = (2 : ℝ)⁻¹ ^ 24 * (p.h * p.h) := by ring
          rw [e]
          constructor <;> nlinarith [nr.1, nr.2])
        simp only [q, hho, if_true, decide_true, List.map_cons, List.sum_cons, coldenF_sum L hL hk hn, Real.sq_sqrt h0, not_false_eq_true, ne_eq]
        have hd1 : |p.dens * (2 * halfChord (fl (p.h * p.h)) (transDist2 box l.axis p.pos l.cofm) / (4 / 3 * Real.pi)) -
            p.dens * (2 * halfChord (p.h ^ 2) (transDist2 box l.axis p.pos l.cofm) / (4 / 3 * Real.pi))| ≤ p.dens * (p.h / 2 ^ 11 / (4 / 3 * Real.pi)) := by
          have e : p.dens * (2 * halfChord (fl (p.h * p.h)) (transDist2 box l.axis p.pos l.cofm) / (4 / 3 * Real.pi)) -
            p.dens * (2 * halfChord (p.h ^ 2) (transDist2 box l.axis p.pos l.cofm) / (4 / 3 * Real.pi)) = p.dens * (2 / (4 / 3 * Real.pi)) *
              (halfChord (fl (p.h * p.h)) (transDist2 box l.axis p.pos l.cofm) - halfChord (p.h ^ 2) (transDist2 box l.axis p.pos l.cofm)) := by ring
          rw [e, abs_mul, abs_of_nonneg (by positivity)]
          calc _ ≤ p.dens * (2 / (4 / 3 * Real.pi)) * (p.h / 2 ^ 12) := by gcongr
            _ = _ := by ring
        rw [add_sub_add_comm]
        exact (abs_add_le _ _).trans (add_le_add hd1 ih)
      · simp only [q, if_false, Finset.sum_const_zero, zero_add]
        refine ih.trans ?_
        split
        · rw [List.map_cons, List.sum_cons]
          have : 0 ≤ p.dens * (p.h / 2 ^ 11 / (4 / 3 * Real.pi)) := by positivity
          linarith
        · exact le_refl _
  have key := abs_le.1 key
  rw [abs_le]
  constructor <;> linarith [key.1, key.2]

/-! ### Not as in exact arithmetic -/

/-- A radius whose square becomes larger in single precision. -/
noncomputable def hUp : ℝ := 1 + 2520 / 2 ^ 23

theorem hUp_rounds : hUp ^ 2 < roundTo 24 (hUp * hUp) := by
  have hl : Int.log 2 |hUp * hUp| = 0 := by
    have h0 : 0 < hUp * hUp := by norm_num [hUp]
    rw [abs_of_pos h0]
    have h1 : (2 : ℝ) ^ (0 : ℤ) ≤ hUp * hUp := by norm_num [hUp]
    have h2 : hUp * hUp < (2 : ℝ) ^ ((0 : ℤ) + 1) := by norm_num [hUp]
    have := (Int.zpow_le_iff_le_log (b := 2) (r := hUp * hUp) (x := 0) (by norm_num) h0).1 (by exact_mod_cast h1)
    have := (Int.lt_zpow_iff_log_lt (b := 2) (r := hUp * hUp) (x := 0 + 1) (by norm_num) h0).1 (by exact_mod_cast h2)
    omega
  unfold roundTo
  rw [hl]
  have : round (hUp * hUp * (2 : ℝ) ^ (((24 : ℕ) : ℤ) - 1 - 0)) = 8393649 := by
    rw [round_eq, Int.floor_eq_iff]
    norm_num [hUp]
  rw [this]
  norm_num [hUp]

/-- The bound of C124 cannot be zero: a sightline at the radius of a uniform particle gets a column that is not zero. In exact arithmetic it gets none. -/
theorem edge_column : ∀ (L : LineAbsorption) (_ : GoodAbs L) (_ : L.kernel = TOP_HAT_KERNEL) (nbins : ℕ) (_ : 0 < nbins) (pos : ℝ),
    Absorption.add_colden_particle L (List.replicate nbins 0) 0 nbins (hUp ^ 2) 1 pos hUp = .ok (List.replicate nbins 0) ∧
    ∃ out, EdgeRounding.add_colden_particle (roundTo 24) L (List.replicate nbins 0) 0 nbins (hUp ^ 2) 1 pos hUp = .ok out ∧ 0 < out.sum := by
  intro L hL hk nbins hn pos
  refine ⟨colden_outside_particle L (by rw [hk]; decide) _ _ _ _ _ le_rfl, ?_⟩
  obtain ⟨out, h1, h2⟩ := tophat_sum L hL hk (off := 0) hn (a := List.replicate nbins 0) (by simp) (hUp ^ 2) 1 pos (√ (roundTo 24 (hUp * hUp)))
  rw [← add_colden_single roundTo_single L hk] at h1
  refine ⟨out, h1, ?_⟩
  have h0 : 0 ≤ roundTo 24 (hUp * hUp) := (sq_nonneg _).trans hUp_rounds.le
  rw [h2, Real.sq_sqrt h0]
  have : 0 < halfChord (roundTo 24 (hUp * hUp)) (hUp ^ 2) := Real.sqrt_pos.2 (by linarith [hUp_rounds])
  have := Real.pi_pos
  simp only [List.sum_replicate, smul_zero, zero_add]
  positivity

/-! ### Examples -/

/-- Well inside the radius nothing is left out: the optical depth is that of exact arithmetic. -/
example (L : LineAbsorption) (hk : L.kernel ≠ VORONOI_MESH) :
    EdgeRounding.add_tau_particle (roundTo 24) L [0, 0, 0, 0] 0 4 0.5 1 2 3 10000 1 = Absorption.add_tau_particle L [0, 0, 0, 0] 0 4 0.5 1 2 3 10000 1 := by
  rcases tau_deposit roundTo_single L hk (off := 0) (nbins := 4) (by norm_num) (a := [0, 0, 0, 0]) (by simp) 0.5 1 2 3 10000 1 with h | ⟨h, -⟩
  · exact h
  · norm_num at h

/-- A sightline of the example of C123 meets the hypotheses of the theorems on whole spectra. -/
example (L : LineAbsorption) (hL : GoodAbs L) (hk : L.kernel = TOP_HAT_KERNEL) :
    ∃ r', EdgeRounding.compute_colden (roundTo 24) L 16 100000 [edgeLine] [⟨edgePart.1, edgePart.1, 1, 10000, edgePart.2⟩] [0] (List.replicate 16 0) = .ok r' := by
  have hl : ∀ l ∈ [edgeLine], GoodLine 100000 l := fun l h => (List.mem_singleton.1 h) ▸ edge_line_good
  obtain ⟨r, r', -, h, -⟩ := column_spectrum roundTo_single L hL hk (nbins := 16) (by norm_num) (box := 100000) (by norm_num) hl
    (parts := [⟨edgePart.1, edgePart.1, 1, 10000, edgePart.2⟩]) (by
      intro p h
      rw [List.mem_singleton.1 h]
      refine ⟨edge_part_small, ?_, by norm_num⟩
      simp only [edgePart]
      norm_num) (sched := [0]) (by simp)
  exact ⟨r', by simpa using h⟩

end Verif.Props.EdgeRounding
