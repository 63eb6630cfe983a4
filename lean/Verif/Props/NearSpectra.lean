import Verif.Lemmas.NearSpectra
import Verif.Props.NearRounding
import Verif.Props.EndToEnd
import Verif.Props.WeightMean
import Verif.Lemmas.Kernels

/-!
C123: the spectra when near sightlines are searched in single precision.
-/

namespace Verif.Props.NearRounding
open Verif Verif.Spec Verif.Props Verif.PartInt Verif.IndexTable Verif.Absorption Verif.Rounding
open Verif.Props.CellRounding (Single roundTo_single)

/-! ### Specification -/

/-- A choice of particles for a sightline that is right up to rounding: all those it clearly passes through, and none it does not pass through. -/
def GoodChoice (box : ℝ) (l : Line) (parts : List Part) (chosen : Part → Prop) : Prop :=
  ∀ p ∈ parts, (ClearlyNear box (p.pos, p.h) l → chosen p) ∧ (chosen p → transDist2 box l.axis p.pos l.cofm < p.h ^ 2)

/-- The most a particle of unit density and radius `h` can add to the column density of a sightline that passes inside its radius by less than `e`: the
length of the chord times the value of the kernel there. Kernel 1 is the cubic spline, 3 the quintic one; the others are uniform. -/
noncomputable def edgeColumn (kernel : ℤ) (h e : ℝ) : ℝ :=
  2 * √ (2 * h * e) * (if kernel = 1 then 16 / Real.pi * (e / h) ^ 3 else if kernel = 3 then 2187 / (40 * Real.pi) * (e / h) ^ 5 else 3 / (4 * Real.pi))

/-! ### Proofs -/

/-- The particles that are found near sightline `i` and deposited. -/
def Chosen (fl : ℝ → ℝ) (box : ℝ) (lines : List Line) (i : ℕ) (l : Line) (p : Part) : Prop :=
  transDist2 box l.axis p.pos l.cofm < p.h ^ 2 ∧ StdMap.find? (NearRounding.get_near_lines fl (build lines box) p.pos p.h) i ≠ none

theorem chosen_good {fl : ℝ → ℝ} (hf : Single fl) {box : ℝ} (hbox : 0 < box) {lines : List Line} (hl : ∀ l ∈ lines, GoodLine box l)
    {parts : List Part} (hp : ∀ p ∈ parts, SmallPart box (p.pos, p.h)) {i : ℕ} {l : Line} (hi : lines[i]? = some l) :
    GoodChoice box l parts (Chosen fl box lines i l) := by
  intro p hpm
  refine ⟨fun h => ⟨?_, ?_⟩, fun h => h.1⟩
  · have h1 : √ (transDist2 box l.axis p.pos l.cofm) < p.h := by
      have : 0 < box / 2 ^ 22 := by positivity
      unfold ClearlyNear at h
      simp only at h
      linarith
    exact (Real.sqrt_lt' (hp p hpm).2.1).1 h1
  · have := near_single_found hf hbox hl (hp p hpm) hi h
    simp only at this
    rw [this]
    exact Option.some_ne_none _

open Classical in
/-- The part of a sum of single-particle contributions that belongs to line `i`. -/
theorem single_chosen {fl : ℝ → ℝ} (hf : Single fl) {box : ℝ} (hbox : 0 < box) {lines : List Line} (hl : ∀ l ∈ lines, GoodLine box l)
    {p : Part} (hp : InBox box p.pos) (F : ℕ → Line → Part → ℝ → ℕ → ℝ) {nbins i j : ℕ} {l : Line} (hi : lines[i]? = some l)
    (hj : j < nbins)
    (hout : ∀ i l p d m, m < i * nbins ∨ i * nbins + nbins ≤ m → F i l p d m = 0)
    (hedge : ∀ i l p d m, p.h ^ 2 ≤ d → F i l p d m = 0) :
    NearRounding.single fl (build lines box) lines F p (i * nbins + j) =
      if Chosen fl box lines i l p then F i l p (transDist2 box l.axis p.pos l.cofm) (i * nbins + j) else 0 := by
  have hil : i < lines.length := by
    by_contra hc; rw [List.getElem?_eq_none (by omega)] at hi; cases hi
  unfold NearRounding.single
  rw [list_sum_single hil]
  · rw [hi]
    simp only [Option.elim_some]
    cases hfd : StdMap.find? (NearRounding.get_near_lines fl (build lines box) p.pos p.h) i with
    | none => rw [if_neg (fun h => h.2 hfd)]; rfl
    | some d =>
      obtain ⟨l', h1, h2, -⟩ := near_single_distance hf hbox hl (p := (p.pos, p.h)) hp i d hfd
      rw [hi] at h1
      simp only [Option.some.injEq] at h1
      subst h1
      simp only at h2
      subst h2
      simp only [Option.elim_some]
      split
      · rfl
      · rename_i hc
        refine hedge _ _ _ _ _ (not_lt.1 fun h => hc ⟨h, ?_⟩)
        rw [hfd]
        exact Option.some_ne_none _
  · intro k hk hne
    cases lines[k]? with
    | none => rfl
    | some l' =>
      cases StdMap.find? (NearRounding.get_near_lines fl (build lines box) p.pos p.h) k with
      | none => rfl
      | some d =>
        apply hout
        rcases lt_or_gt_of_ne hne with h | h
        · right
          have : (k + 1) * nbins ≤ i * nbins := Nat.mul_le_mul_right _ h
          rw [add_mul, one_mul] at this
          omega
        · left
          have : (i + 1) * nbins ≤ k * nbins := Nat.mul_le_mul_right _ h
          rw [add_mul, one_mul] at this
          omega

open Classical in
/-- C123, column density: the pixels of a sightline hold what results from depositing, on an empty spectrum and one after the other, a good choice of
particles, each with its exact distance. The choice depends on the rounding (`inside_lost`). -/
theorem colden_single {fl : ℝ → ℝ} (hf : Single fl) (L : LineAbsorption) (hk : L.kernel ≠ VORONOI_MESH) {nbins : ℕ} (hn : 0 < nbins)
    {box : ℝ} (hbox : 0 < box) {lines : List Line} (hl : ∀ l ∈ lines, GoodLine box l)
    {parts : List Part} (hp : ∀ p ∈ parts, SmallPart box (p.pos, p.h)) {sched : List ℕ} (hs : sched.Perm (List.range parts.length)) :
    ∃ r, NearRounding.compute_colden fl L nbins box lines parts sched (List.replicate (lines.length * nbins) 0) = .ok r ∧
      r.length = lines.length * nbins ∧
      ∀ i l, lines[i]? = some l → ∃ chosen, GoodChoice box l parts chosen ∧
        (parts.filter (fun p => chosen p)).foldlM
          (fun a p => add_colden_particle L a 0 nbins (transDist2 box l.axis p.pos l.cofm) p.dens (axisCoord p.pos l.axis) p.h) (List.replicate nbins 0) =
          .ok (lineSpectrum r nbins i) := by
  refine ⟨_, NearRounding.compute_colden_eq L hk hn box lines (fun l hm => (hl l hm).1) parts hs _ (by simp), by simp, ?_⟩
  intro i l hi
  refine ⟨Chosen fl box lines i l, chosen_good hf hbox hl hp hi, ?_⟩
  have hil : i < lines.length := by
    by_contra hc; rw [List.getElem?_eq_none (by omega)] at hi; cases hi
  rw [lineSpectrum_arrAdd hil, foldlM_arrAdd _ (fun (p : Part) => coldenF L 0 nbins
    (transDist2 box l.axis p.pos l.cofm) p.dens (axisCoord p.pos l.axis) p.h) nbins _ ?_ _ (by simp)]
  swap
  · intro p _ a ha
    exact add_colden_eq L hn (by omega) ..
  congr 1
  apply arrAdd_congr
  intro j hj
  have hj : j < nbins := by simpa using hj
  have h1 : ∀ p ∈ parts, NearRounding.single fl (build lines box) lines (coldenOn L nbins) p (i * nbins + j) =
      if Chosen fl box lines i l p then coldenOn L nbins i l p (transDist2 box l.axis p.pos l.cofm) (i * nbins + j) else 0 :=
    fun p hpm => single_chosen hf hbox hl (hp p hpm).1 _ hi hj
      (fun i l p d m hm => coldenF_outside L hn hm ..) (coldenOn_edge L hk nbins)
  rw [List.map_congr_left h1]
  clear h1 hs
  induction parts with
  | nil => rfl
  | cons p ps ih =>
    have ih := ih (fun q hq => hp q (by simp [hq]))
    by_cases hd : Chosen fl box lines i l p
    · simp only [List.filter_cons, hd, decide_true, if_true, List.map_cons, List.sum_cons, ih]
      congr 1
      exact (coldenF_offset ..).symm
    · simp only [List.filter_cons, hd, decide_false, if_false, List.map_cons, List.sum_cons, ih,
        zero_add, Bool.false_eq_true]

open Classical in
/-- C123, optical depth: the same. -/
theorem tau_single {fl : ℝ → ℝ} (hf : Single fl) (L : LineAbsorption) (hk : L.kernel ≠ VORONOI_MESH) {nbins : ℕ} (hn : 0 < nbins)
    {box : ℝ} (hbox : 0 < box) {lines : List Line} (hl : ∀ l ∈ lines, GoodLine box l)
    {parts : List Part} (hp : ∀ p ∈ parts, SmallPart box (p.pos, p.h)) {sched : List ℕ} (hs : sched.Perm (List.range parts.length)) :
    ∃ r, NearRounding.compute_tau fl L nbins box lines parts sched (List.replicate (lines.length * nbins) 0) = .ok r ∧
      r.length = lines.length * nbins ∧
      ∀ i l, lines[i]? = some l → ∃ chosen, GoodChoice box l parts chosen ∧
        (parts.filter (fun p => chosen p)).foldlM
          (fun a p => add_tau_particle L a 0 nbins (transDist2 box l.axis p.pos l.cofm) p.dens (axisCoord p.pos l.axis) (axisCoord p.vel l.axis) p.temp p.h) (List.replicate nbins 0) =
          .ok (lineSpectrum r nbins i) := by
  refine ⟨_, NearRounding.compute_tau_eq L hk hn box lines (fun l hm => (hl l hm).1) parts hs _ (by simp), by simp, ?_⟩
  intro i l hi
  refine ⟨Chosen fl box lines i l, chosen_good hf hbox hl hp hi, ?_⟩
  have hil : i < lines.length := by
    by_contra hc; rw [List.getElem?_eq_none (by omega)] at hi; cases hi
  rw [lineSpectrum_arrAdd hil, foldlM_arrAdd _ (fun (p : Part) => tauF L 0 nbins
    (transDist2 box l.axis p.pos l.cofm) p.dens (axisCoord p.pos l.axis) (axisCoord p.vel l.axis) p.temp p.h) nbins _ ?_ _ (by simp)]
  swap
  · intro p _ a ha
    exact add_tau_eq L hn (by omega) ..
  congr 1
  apply arrAdd_congr
  intro j hj
  have hj : j < nbins := by simpa using hj
  have h1 : ∀ p ∈ parts, NearRounding.single fl (build lines box) lines (tauOn L nbins) p (i * nbins + j) =
      if Chosen fl box lines i l p then tauOn L nbins i l p (transDist2 box l.axis p.pos l.cofm) (i * nbins + j) else 0 :=
    fun p hpm => single_chosen hf hbox hl (hp p hpm).1 _ hi hj
      (fun i l p d m hm => tauF_outside L hn hm ..) (tauOn_edge L hk nbins)
  rw [List.map_congr_left h1]
  clear h1 hs
  induction parts with
  | nil => rfl
  | cons p ps ih =>
    have ih := ih (fun q hq => hp q (by simp [hq]))
    by_cases hd : Chosen fl box lines i l p
    · simp only [List.filter_cons, hd, decide_true, if_true, List.map_cons, List.sum_cons, ih]
      congr 1
      exact (tauF_offset ..).symm
    · simp only [List.filter_cons, hd, decide_false, if_false, List.map_cons, List.sum_cons, ih,
        zero_add, Bool.false_eq_true]

/-! ### What is lost at the edge -/

/-- The kernel is largest where the sightline is nearest to the centre. -/
theorem spline_le {kern : ℝ → ℝ} (hk : AntitoneOn kern (Set.Ici 0)) {h : ℝ} (hh : 0 < h) (zl zh dr2 zr : ℝ) :
    sph_kern_frac kern zl zh h dr2 zr ≤ kern (√ dr2 / h) * max 0 (min zh zr - max zl (-zr)) := by
  unfold sph_kern_frac
  dsimp only
  generalize max zl (-zr) = a
  generalize min zh zr = b
  split
  · rename_i hab
    rw [max_eq_left (by linarith), mul_zero]
  · rename_i hab
    have hab := not_lt.1 hab
    rw [max_eq_right (by linarith)]
    have hle : ∀ z : ℝ, kern (√ (dr2 + z * z) / h) ≤ kern (√ dr2 / h) := by
      intro z
      refine hk (Set.mem_Ici.2 (by positivity)) (Set.mem_Ici.2 (by positivity)) ?_
      gcongr
      nlinarith [mul_self_nonneg z]
    simp only [NGRID, List.range', List.foldl_cons, List.foldl_nil, Nat.add_one_sub_one]
    generalize kern (√ dr2 / h) = K at *
    have h0 := hle a
    have h8 := hle b
    have hm := fun i : ℕ => hle ((i : ℝ) * ((b - a) / ((8 : ℕ) : ℝ)) + a)
    have hd : 0 ≤ (b - a) / ((8 : ℕ) : ℝ) := by
      have : 0 ≤ b - a := by linarith
      positivity
    have e : K * (b - a) = (b - a) / ((8 : ℕ) : ℝ) * (8 * K) := by push_cast; ring
    rw [e]
    refine mul_le_mul_of_nonneg_left ?_ hd
    have h1 := hm 1
    have h2 := hm 2
    have h3 := hm 3
    have h4 := hm 4
    have h5 := hm 5
    have h6 := hm 6
    have h7 := hm 7
    linarith

/-- The kernel of a particle at the edge, in units of a uniform one. -/
noncomputable def edgeRatio (kernel : ℤ) (x : ℝ) : ℝ :=
  if kernel = 1 then 16 / Real.pi * x ^ 3 else if kernel = 3 then 2187 / (40 * Real.pi) * x ^ 5 else 3 / (4 * Real.pi)

theorem edgeRatio_nonneg (kernel : ℤ) {x : ℝ} (hx : 0 ≤ x) : 0 ≤ edgeRatio kernel x := by
  have := Real.pi_pos
  unfold edgeRatio
  split_ifs <;> positivity

theorem kern_frac_edge {kernel : ℤ} (hk : kernel ≠ VORONOI_MESH) {h e dr2 : ℝ} (he : 0 < e) (h3 : 3 * e ≤ h) (hd : h - e ≤ √ dr2) (hd1 : √ dr2 ≤ h)
    (zl zh zr : ℝ) :
    get_kern_frac kernel zl zh h dr2 zr ≤ edgeRatio kernel (e / h) * (4 / 3 * Real.pi) * tophat_kern_frac zl zh h dr2 zr := by
  have hh : 0 < h := by linarith
  have hpi := Real.pi_pos
  have hq : 1 - e / h ≤ √ dr2 / h := by
    rw [le_div_iff₀ hh, sub_mul, div_mul_cancel₀ _ hh.ne']
    linarith
  have hq1 : √ dr2 / h ≤ 1 := by rw [div_le_one hh]; exact hd1
  have hx : e / h ≤ 1 / 3 := by rw [div_le_iff₀ hh]; linarith
  have top : edgeRatio kernel (e / h) * (4 / 3 * Real.pi) * tophat_kern_frac zl zh h dr2 zr =
      edgeRatio kernel (e / h) * max 0 (min zh zr - max zl (-zr)) := by
    unfold tophat_kern_frac
    dsimp only
    field_simp
  rw [top]
  have hm : 0 ≤ max 0 (min zh zr - max zl (-zr)) := le_max_left _ _
  have plain : tophat_kern_frac zl zh h dr2 zr ≤ 3 / (4 * Real.pi) * max 0 (min zh zr - max zl (-zr)) := by
    unfold tophat_kern_frac
    dsimp only
    exact le_of_eq (by field_simp)
  by_cases k0 : kernel = 0
  · subst k0
    have e1 : get_kern_frac 0 = tophat_kern_frac := by unfold get_kern_frac; exact if_pos rfl
    have e2 : edgeRatio 0 (e / h) = 3 / (4 * Real.pi) := by simp [edgeRatio]
    rw [e1, e2]
    exact plain
  unfold get_kern_frac edgeRatio
  by_cases k1 : kernel = 1
  · subst k1
    simp only [TOP_HAT_KERNEL, SPH_CUBIC_SPLINE, if_true, one_ne_zero, if_false]
    refine (spline_le cubic_antitone hh ..).trans (mul_le_mul_of_nonneg_right ?_ hm)
    rw [cubic_outer (by linarith) hq1]
    have : (1 - √ dr2 / h) ^ 3 ≤ (e / h) ^ 3 := by
      gcongr
      linarith
    calc 8 / Real.pi * (2 * (1 - √ dr2 / h) ^ 3) = 16 / Real.pi * (1 - √ dr2 / h) ^ 3 := by ring
      _ ≤ _ := by gcongr
  by_cases k3 : kernel = 3
  · subst k3
    simp only [TOP_HAT_KERNEL, SPH_CUBIC_SPLINE, VORONOI_MESH, SPH_QUINTIC_SPLINE]
    norm_num
    refine (spline_le quintic_antitone hh ..).trans (mul_le_mul_of_nonneg_right ?_ hm)
    rw [quintic_outer (by linarith) hq1]
    have : (1 - √ dr2 / h) ^ 5 ≤ (e / h) ^ 5 := by
      gcongr
      linarith
    calc 9 / 40 / Real.pi * (243 * (1 - √ dr2 / h) ^ 5) = 2187 / (40 * Real.pi) * (1 - √ dr2 / h) ^ 5 := by field_simp; ring
      _ ≤ _ := by gcongr
  · have e1 : kernel ≠ TOP_HAT_KERNEL := k0
    have e2 : kernel ≠ SPH_CUBIC_SPLINE := k1
    have e3 : kernel ≠ SPH_QUINTIC_SPLINE := k3
    rw [if_neg e1, if_neg e2, if_neg hk, if_neg e3, if_neg k1, if_neg k3]
    exact plain

theorem colden_edge (L : LineAbsorption) (hL : GoodAbs L) (hk : L.kernel ≠ VORONOI_MESH) {nbins : ℕ} (hn : 0 < nbins) {h e dr2 dens : ℝ} (pos : ℝ)
    (he : 0 < e) (h3 : 3 * e ≤ h) (hd0 : 0 ≤ dr2) (hd : h - e ≤ √ dr2) (hd1 : dr2 < h ^ 2) (hdens : 0 ≤ dens) :
    ∑ j ∈ Finset.range nbins, coldenF L 0 nbins dr2 dens pos h j ≤ dens * edgeColumn L.kernel h e := by
  have hh : 0 < h := by linarith
  have hpi := Real.pi_pos
  have hs1 : √ dr2 ≤ h := Real.sqrt_le_iff.2 ⟨hh.le, hd1.le⟩
  set L0 : LineAbsorption := { L with kernel := TOP_HAT_KERNEL } with hL0
  have hL0g : GoodAbs L0 := ⟨hL.vbox, hL.velfac, hL.bfac, hL.sigma⟩
  obtain ⟨out, h1, h2, -⟩ := colden_conserved_tophat L0 hL0g rfl (off := 0) hn (a := List.replicate nbins 0) (by simp) dens pos hd1.le
  rw [add_colden_eq L0 hn (by simp)] at h1
  cases h1
  rw [arrAdd_sum, List.length_replicate, chordLength_eq hd1.le] at h2
  simp only [List.sum_replicate, smul_zero, zero_add] at h2
  have hpt : ∀ j, coldenF L 0 nbins dr2 dens pos h j ≤ edgeRatio L.kernel (e / h) * (4 / 3 * Real.pi) * coldenF L0 0 nbins dr2 dens pos h j := by
    intro j
    unfold coldenF
    have hk0 : L0.kernel ≠ VORONOI_MESH := by simp only [hL0]; decide
    simp only [hk, hk0, false_and, if_false, ne_eq, not_false_eq_true, true_and]
    split
    · rw [mul_zero]
    · unfold pixelSum
      rw [← List.sum_map_mul_left]
      refine List.sum_le_sum fun z _ => ?_
      split
      · have := kern_frac_edge hk he h3 hd hs1 (L.vbox / nbins / L.velfac * z - pos) (L.vbox / nbins / L.velfac * z - pos + L.vbox / nbins / L.velfac)
          (√ (h * h - dr2))
        calc _ ≤ dens * _ := mul_le_mul_of_nonneg_left this hdens
          _ = _ := by simp only [hL0, get_kern_frac, if_true]; ring
      · rw [mul_zero]
  have hc : √ (h ^ 2 - dr2) ≤ √ (2 * h * e) := by
    apply Real.sqrt_le_sqrt
    have := Real.sq_sqrt hd0
    nlinarith
  have hr := edgeRatio_nonneg L.kernel (x := e / h) (by positivity)
  calc _ ≤ ∑ j ∈ Finset.range nbins, edgeRatio L.kernel (e / h) * (4 / 3 * Real.pi) * coldenF L0 0 nbins dr2 dens pos h j :=
        Finset.sum_le_sum fun j _ => hpt j
    _ = edgeRatio L.kernel (e / h) * (4 / 3 * Real.pi) * (dens * (2 * √ (h ^ 2 - dr2) / (4 / 3 * Real.pi))) := by rw [← Finset.mul_sum, h2]
    _ = dens * (2 * √ (h ^ 2 - dr2) * edgeRatio L.kernel (e / h)) := by field_simp
    _ ≤ dens * (2 * √ (2 * h * e) * edgeRatio L.kernel (e / h)) := by gcongr
    _ = dens * edgeColumn L.kernel h e := rfl

theorem edgeColumn_nonneg (kernel : ℤ) {h e : ℝ} (hh : 0 ≤ h) (he : 0 ≤ e) : 0 ≤ edgeColumn kernel h e :=
  mul_nonneg (by positivity) (edgeRatio_nonneg kernel (x := e / h) (by positivity))

open Classical in
/-- The difference of two sums over particles, one of which leaves some out. -/
theorem left_out {n : ℕ} (c : Part → ℕ → ℝ) (B : Part → ℝ) (near clear chosen : Part → Prop) (parts : List Part)
    (h1 : ∀ p ∈ parts, clear p → chosen p) (h2 : ∀ p ∈ parts, chosen p → near p)
    (h3 : ∀ p ∈ parts, near p → ¬ clear p → ∑ j ∈ Finset.range n, c p j ≤ B p) (h4 : ∀ p ∈ parts, 0 ≤ B p) :
    ∑ j ∈ Finset.range n, (parts.map (fun p => if near p then c p j else 0)).sum -
      ∑ j ∈ Finset.range n, (parts.map (fun p => if chosen p then c p j else 0)).sum ≤
      ((parts.filter (fun p => near p ∧ ¬ clear p)).map B).sum := by
  induction parts with
  | nil => simp
  | cons p ps ih =>
    have ih := ih (fun q hq => h1 q (by simp [hq])) (fun q hq => h2 q (by simp [hq])) (fun q hq => h3 q (by simp [hq])) (fun q hq => h4 q (by simp [hq]))
    have h1 := h1 p (by simp)
    have h2 := h2 p (by simp)
    have h3 := h3 p (by simp)
    have h4 := h4 p (by simp)
    simp only [List.map_cons, List.sum_cons, Finset.sum_add_distrib, List.filter_cons]
    by_cases q1 : near p
    · by_cases q2 : clear p
      · have q3 := h1 q2
        simp only [q1, q2, q3, if_true, not_true, and_false, decide_false, Bool.false_eq_true, if_false]
        linarith
      · have h3 := h3 q1 q2
        by_cases q3 : chosen p
        · simp only [q1, q2, q3, if_true, not_false_eq_true, and_true, decide_true, List.map_cons, List.sum_cons]
          linarith
        · simp only [q1, q2, q3, if_true, if_false, not_false_eq_true, and_true, decide_true, List.map_cons, List.sum_cons, Finset.sum_const_zero]
          linarith
    · have q3 : ¬ chosen p := fun h => q1 (h2 h)
      simp only [q1, q3, if_false, false_and, decide_false, Bool.false_eq_true, Finset.sum_const_zero]
      linarith

theorem arrAdd_zeros (n : ℕ) (f : ℕ → ℝ) : arrAdd (List.replicate n 0) f = (List.range n).map f := by
  apply List.ext_getElem?
  intro j
  rw [arrAdd_getElem?, List.getElem?_replicate, List.getElem?_map]
  by_cases hj : j < n
  · rw [if_pos hj, List.getElem?_range hj]
    simp
  · rw [if_neg hj, List.getElem?_eq_none (by simpa using hj)]
    rfl

open Classical in
/-- C123: against exact arithmetic, the column density of a sightline in single precision is never larger in any pixel, and what is lost in all is at most
what the particles it grazes, by less than a four millionth of the box, have so near to their edge. -/
theorem column_lost {fl : ℝ → ℝ} (hf : Single fl) (L : LineAbsorption) (hL : GoodAbs L) (hk : L.kernel ≠ VORONOI_MESH) {nbins : ℕ} (hn : 0 < nbins)
    {box : ℝ} (hbox : 0 < box) {lines : List Line} (hl : ∀ l ∈ lines, GoodLine box l)
    {parts : List Part} (hp : ∀ p ∈ parts, SmallPart box (p.pos, p.h) ∧ box / 2 ^ 20 ≤ p.h ∧ 0 ≤ p.dens) {sched : List ℕ}
    (hs : sched.Perm (List.range parts.length)) :
    ∃ r r', PartInt.compute_colden L nbins box lines parts (List.replicate (lines.length * nbins) 0) = .ok r ∧
      NearRounding.compute_colden fl L nbins box lines parts sched (List.replicate (lines.length * nbins) 0) = .ok r' ∧
      ∀ i l, lines[i]? = some l →
        List.Forall₂ (· ≤ ·) (lineSpectrum r' nbins i) (lineSpectrum r nbins i) ∧
        (lineSpectrum r nbins i).sum - (lineSpectrum r' nbins i).sum ≤
          ((parts.filter (fun p => transDist2 box l.axis p.pos l.cofm < p.h ^ 2 ∧ ¬ ClearlyNear box (p.pos, p.h) l)).map
            (fun p => p.dens * edgeColumn L.kernel p.h (box / 2 ^ 22))).sum := by
  refine ⟨_, _, PartInt.compute_colden_eq L hk hn box lines (fun l hm => (hl l hm).1) parts _ (by simp),
    NearRounding.compute_colden_eq L hk hn box lines (fun l hm => (hl l hm).1) parts hs _ (by simp), ?_⟩
  intro i l hi
  have hil : i < lines.length := by
    by_contra hc; rw [List.getElem?_eq_none (by omega)] at hi; cases hi
  have hδ : 0 < box / 2 ^ 22 := by positivity
  have hb22 : box / 2 ^ 20 = 4 * (box / 2 ^ 22) := by ring
  rw [lineSpectrum_arrAdd hil, lineSpectrum_arrAdd hil, arrAdd_zeros, arrAdd_zeros]
  have e1 : ∀ j < nbins, (parts.map (fun p => PartInt.single (build lines box) lines (coldenOn L nbins) p (i * nbins + j))).sum =
      (parts.map (fun p => if transDist2 box l.axis p.pos l.cofm < p.h ^ 2 then
        coldenF L 0 nbins (transDist2 box l.axis p.pos l.cofm) p.dens (axisCoord p.pos l.axis) p.h j else 0)).sum := by
    intro j hj
    congr 1
    refine List.map_congr_left fun p hpm => ?_
    obtain ⟨⟨a, b, c⟩, -⟩ := hp p hpm
    rw [single_on_line hbox hl (p := p) ⟨a, b, by simp only at c ⊢; linarith⟩ (coldenOn L nbins) hi hj (fun i l p d m hm => coldenF_outside L hn hm ..)
      (coldenOn_edge L hk nbins)]
    split
    · exact coldenF_offset ..
    · rfl
  have e2 : ∀ j < nbins, (parts.map (fun p => NearRounding.single fl (build lines box) lines (coldenOn L nbins) p (i * nbins + j))).sum =
      (parts.map (fun p => if Chosen fl box lines i l p then
        coldenF L 0 nbins (transDist2 box l.axis p.pos l.cofm) p.dens (axisCoord p.pos l.axis) p.h j else 0)).sum := by
    intro j hj
    congr 1
    refine List.map_congr_left fun p hpm => ?_
    rw [single_chosen hf hbox hl (hp p hpm).1.1 (coldenOn L nbins) hi hj (fun i l p d m hm => coldenF_outside L hn hm ..) (coldenOn_edge L hk nbins)]
    split
    · exact coldenF_offset ..
    · rfl
  rw [List.map_congr_left (fun j hj => e1 j (List.mem_range.1 hj)), List.map_congr_left (fun j hj => e2 j (List.mem_range.1 hj))]
  constructor
  · rw [List.forall₂_map_left_iff, List.forall₂_map_right_iff, List.forall₂_same]
    intro j _
    refine List.sum_le_sum fun p hpm => ?_
    have h0 := WeightMean.coldenF_nonneg L 0 nbins (dr2 := transDist2 box l.axis p.pos l.cofm) (pos := axisCoord p.pos l.axis) (hp p hpm).2.2
      (hp p hpm).1.2.1.le j
    by_cases hc : Chosen fl box lines i l p
    · rw [if_pos hc, if_pos hc.1]
    · rw [if_neg hc]
      split
      · exact h0
      · exact le_rfl
  · rw [← List.sum_toFinset _ List.nodup_range, ← List.sum_toFinset _ List.nodup_range, List.toFinset_range]
    have good := chosen_good hf hbox hl (fun p hpm => (hp p hpm).1) hi
    refine left_out (fun p j => coldenF L 0 nbins (transDist2 box l.axis p.pos l.cofm) p.dens (axisCoord p.pos l.axis) p.h j)
      (fun p => p.dens * edgeColumn L.kernel p.h (box / 2 ^ 22)) (fun p => transDist2 box l.axis p.pos l.cofm < p.h ^ 2)
      (fun p => ClearlyNear box (p.pos, p.h) l) (Chosen fl box lines i l) parts (fun p hpm => (good p hpm).1) (fun p hpm => (good p hpm).2) ?_ ?_
    · intro p hpm q1 q2
      obtain ⟨⟨a, b, c⟩, d, e⟩ := hp p hpm
      refine colden_edge L hL hk hn _ hδ (by linarith) ?_ ?_ q1 e
      · rw [transDist2_eq (hl l (List.mem_of_getElem? hi)).1]
        positivity
      · unfold ClearlyNear at q2
        simp only [not_lt] at q2
        linarith
    · intro p hpm
      obtain ⟨⟨a, b, c⟩, d, e⟩ := hp p hpm
      exact mul_nonneg e (edgeColumn_nonneg _ b.le hδ.le)

/-! ### Examples -/

/-- The particle that is lost. -/
noncomputable def edgeGas : Part := ⟨edgePart.1, ![0, 0, 0], 1, 1e4, edgePart.2⟩

/-- C123 in full is false: with a top hat kernel, of which a chord of 90 pc is inside the radius of 1 kpc, nothing is deposited. -/
theorem chord_lost : ∃ r, PartInt.compute_colden (exAbs 0) 4 100000 [edgeLine] [edgeGas] (List.replicate (1 * 4) 0) = .ok r ∧
    0.02 < (lineSpectrum r 4 0).sum ∧
    NearRounding.compute_colden (roundTo 24) (exAbs 0) 4 100000 [edgeLine] [edgeGas] [0] (List.replicate (1 * 4) 0) = .ok (List.replicate 4 0) := by
  have hl : ∀ l ∈ [edgeLine], GoodLine 100000 l := by
    intro l h
    rw [List.mem_singleton.1 h]
    exact edge_line_good
  obtain ⟨r, h1, h2⟩ := total_column_tophat (exAbs 0) (exAbs_good 0) rfl (nbins := 4) (by norm_num) (box := 100000) (by norm_num) hl (parts := [edgeGas]) (by
    intro p h
    rw [List.mem_singleton.1 h]
    exact ⟨edge_part_small.1, edge_part_small.2.1, by norm_num [edgeGas, edgePart]⟩)
  refine ⟨r, h1, ?_, ?_⟩
  · rw [h2 0 edgeLine rfl]
    have hd : transDist2 100000 edgeLine.axis edgeGas.pos edgeLine.cofm < edgeGas.h ^ 2 := edge_dist
    have hv : transDist2 100000 edgeLine.axis edgeGas.pos edgeLine.cofm = (1 + (2 : ℝ)⁻¹ ^ 10) ^ 2 := by
      have hb := inbox_abs edge_part_small.1 edge_line_good.2
      change transDist2 100000 edgeLine.axis edgePart.1 edgeLine.cofm = _
      rw [transDist2_eq edge_line_good.1, ← wrapDist_eq_perDist (by norm_num) (hb _), ← wrapDist_eq_perDist (by norm_num) (hb _)]
      have c1e : c1 edgeLine = 0 := rfl
      have c2e : c2 edgeLine = 1 := rfl
      rw [c1e, c2e]
      norm_num [edgeLine, edgePart, wrapDist, abs_of_neg]
    have e1 : edgeGas.dens = 1 := rfl
    rw [List.filter_cons, if_pos (by simpa using hd), List.filter_nil, List.map_cons, List.map_nil, List.sum_singleton, e1, one_mul,
      chordLength_eq hd.le, hv]
    have h4 : 0.044 ≤ √ (edgeGas.h ^ 2 - (1 + (2 : ℝ)⁻¹ ^ 10) ^ 2) := by
      apply Real.le_sqrt_of_sq_le
      norm_num [edgeGas, edgePart]
    rw [lt_div_iff₀ (by positivity)]
    have := Real.pi_lt_d2
    nlinarith
  · have e := NearRounding.compute_colden_eq (fl := roundTo 24) (exAbs 0) (by change (0 : ℤ) ≠ 2; decide) (nbins := 4) (by norm_num) 100000 [edgeLine]
      (fun l hm => (hl l hm).1) [edgeGas] (sched := [0]) (List.Perm.refl _) (List.replicate (1 * 4) 0) (by simp)
    rw [e]
    congr 1
    have hz : ∀ m, (([edgeGas] : List Part).map (fun p => NearRounding.single (roundTo 24) (build [edgeLine] 100000) [edgeLine] (coldenOn (exAbs 0) 4) p m)).sum
        = 0 := by
      intro m
      rw [List.map_cons, List.map_nil, List.sum_singleton]
      unfold NearRounding.single
      have : NearRounding.get_near_lines (roundTo 24) (build [edgeLine] 100000) edgeGas.pos edgeGas.h = [] := edge_none
      rw [this]
      simp [StdMap.find?]
    rw [arrAdd_zeros, List.map_congr_left (fun m _ => hz m)]
    rfl

/-- What the particle that is lost has near its edge is less than `10 ^ -4` of its density. -/
theorem edge_gas_column : edgeColumn 1 edgeGas.h (100000 / 2 ^ 22) ≤ 1e-4 := by
  have hpi := Real.pi_gt_three
  unfold edgeColumn
  rw [if_pos rfl]
  have h1 : √ (2 * edgeGas.h * (100000 / 2 ^ 22)) ≤ 0.25 := by
    rw [Real.sqrt_le_left (by norm_num)]
    norm_num [edgeGas, edgePart]
  have h2 : 16 / Real.pi ≤ 16 / 3 := by gcongr
  have h3 : (100000 / 2 ^ 22 / edgeGas.h) ^ 3 ≤ 1.5e-5 := by norm_num [edgeGas, edgePart]
  have h4 : 0 ≤ (100000 / 2 ^ 22 / edgeGas.h) ^ 3 := by norm_num [edgeGas, edgePart]
  have h5 : 16 / Real.pi * (100000 / 2 ^ 22 / edgeGas.h) ^ 3 ≤ 16 / 3 * 1.5e-5 := by gcongr
  have h6 : 0 ≤ 16 / Real.pi * (100000 / 2 ^ 22 / edgeGas.h) ^ 3 := by positivity
  have h7 := Real.sqrt_nonneg (2 * edgeGas.h * (100000 / 2 ^ 22))
  nlinarith

/-- A cubic spline in the box of the sightline that loses its particle: less than `10 ^ -4` of its density is lost. -/
example : ∃ r r', PartInt.compute_colden (exAbs 1) 4 100000 [edgeLine] [edgeGas] (List.replicate (1 * 4) 0) = .ok r ∧
    NearRounding.compute_colden (roundTo 24) (exAbs 1) 4 100000 [edgeLine] [edgeGas] [0] (List.replicate (1 * 4) 0) = .ok r' ∧
    (lineSpectrum r 4 0).sum - (lineSpectrum r' 4 0).sum ≤ 1e-4 := by
  classical
  obtain ⟨r, r', h1, h2, h3⟩ := column_lost roundTo_single (exAbs 1) (exAbs_good 1) (by change (1 : ℤ) ≠ 2; decide) (nbins := 4) (by norm_num)
    (box := 100000) (by norm_num) (lines := [edgeLine]) (by intro l h; rw [List.mem_singleton.1 h]; exact edge_line_good) (parts := [edgeGas]) (by
      intro p h
      rw [List.mem_singleton.1 h]
      exact ⟨edge_part_small, by norm_num [edgeGas, edgePart], by norm_num [edgeGas]⟩) (sched := [0]) (List.Perm.refl _)
  refine ⟨r, r', h1, h2, (h3 0 edgeLine rfl).2.trans ?_⟩
  have hb := edge_gas_column
  have e1 : edgeGas.dens = 1 := rfl
  have e2 : (exAbs 1).kernel = 1 := rfl
  rw [List.filter_cons, List.filter_nil]
  split
  · rw [List.map_cons, List.map_nil, List.sum_singleton, e1, one_mul, e2]
    exact hb
  · norm_num

end Verif.Props.NearRounding
