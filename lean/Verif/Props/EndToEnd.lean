import Verif.Props.NearLines
import Verif.Props.Deposit
import Verif.Lemmas.PartInt

/-!
C57: the spectrum of a sightline is the deposit of exactly the particles within reach of it, at their
own coordinates along it.
-/

namespace Verif.Props

open Verif Spec PartInt IndexTable Absorption

/-- The Cartesian coordinate of `v` along axis number 1, 2 or 3. -/
def axisCoord (v : Vec3) (axis : ℤ) : ℝ := if axis = 1 then v 0 else if axis = 2 then v 1 else v 2

/-- The pixels of sightline `i` in the flattened output array. -/
def lineSpectrum (a : List ℝ) (nbins i : ℕ) : List ℝ := (a.drop (i * nbins)).take nbins

theorem pixelSum_offset (off nbins : ℕ) (val : ℤ → ℝ) (zs : List ℤ) (j : ℕ) :
    pixelSum off nbins val zs (off + j) = pixelSum 0 nbins val zs j := by
  unfold pixelSum
  congr 1
  apply List.map_congr_left
  intro z _
  have : ((off + j : ℕ) : ℤ) = off + z % nbins ↔ (j : ℤ) = (0 : ℕ) + z % nbins := by
    push_cast; omega
  simp only [this]

theorem coldenF_offset (L : LineAbsorption) (off nbins : ℕ) (dr2 dens pos h : ℝ) (j : ℕ) :
    coldenF L off nbins dr2 dens pos h (off + j) = coldenF L 0 nbins dr2 dens pos h j := by
  unfold coldenF
  simp only [pixelSum_offset]

theorem tauF_offset (L : LineAbsorption) (off nbins : ℕ) (dr2 dens ppos pvel temp h : ℝ) (j : ℕ) :
    tauF L off nbins dr2 dens ppos pvel temp h (off + j) =
      tauF L 0 nbins dr2 dens ppos pvel temp h j := by
  unfold tauF
  simp only [pixelSum_offset]

theorem list_sum_single {n i : ℕ} (hi : i < n) (f : ℕ → ℝ) (h : ∀ j < n, j ≠ i → f j = 0) :
    ((List.range n).map f).sum = f i := by
  rw [← List.sum_toFinset f List.nodup_range, Finset.sum_eq_single i]
  · intro j hj hne
    exact h j (by simpa using hj) hne
  · intro hc; exact absurd (by simpa using hi) hc

/-- The part of a sum of single-particle contributions that belongs to line `i`. -/
theorem single_on_line {box : ℝ} (hbox : 0 < box) {lines : List Line}
    (hl : ∀ l ∈ lines, GoodLine box l) {p : Part} (hp : GoodPart box (p.pos, p.h))
    (F : ℕ → Line → Part → ℝ → ℕ → ℝ) {nbins i j : ℕ} {l : Line} (hi : lines[i]? = some l)
    (hj : j < nbins)
    (hout : ∀ i l p d m, m < i * nbins ∨ i * nbins + nbins ≤ m → F i l p d m = 0)
    (hedge : ∀ i l p d m, p.h ^ 2 ≤ d → F i l p d m = 0) :
    single (build lines box) lines F p (i * nbins + j) =
      if transDist2 box l.axis p.pos l.cofm < p.h ^ 2 then
        F i l p (transDist2 box l.axis p.pos l.cofm) (i * nbins + j) else 0 := by
  have hil : i < lines.length := by
    by_contra hc; rw [List.getElem?_eq_none (by omega)] at hi; cases hi
  unfold single
  rw [list_sum_single hil]
  · rw [hi]
    simp only [Option.elim_some]
    split
    · rename_i hd
      rw [near_line_found hbox hl hp hi hd]; rfl
    · rename_i hd
      cases hf : StdMap.find? (get_near_lines (build lines box) p.pos p.h) i with
      | none => rfl
      | some d =>
        obtain ⟨l', h1, h2, h3⟩ := pair_distance hbox hl hp.1 p.h i d hf
        rw [hi] at h1
        simp only [Option.some.injEq] at h1
        subst h1
        simp only [Option.elim_some]
        exact hedge _ _ _ _ _ (by rw [h2]; exact not_lt.1 hd)
  · intro k hk hne
    cases lines[k]? with
    | none => rfl
    | some l' =>
      cases StdMap.find? (get_near_lines (build lines box) p.pos p.h) k with
      | none => rfl
      | some d =>
        apply hout
        rcases lt_or_gt_of_ne hne with h | h
        · right
          have : (k + 1) * nbins ≤ i * nbins := Nat.mul_le_mul_right _ h
          rw [add_mul, one_mul] at this
          omega
        · left
          have : (i + 1) * nbins ≤ k * nbins := Nat.mul_le_mul_right _ h
          rw [add_mul, one_mul] at this
          omega

theorem coldenOn_edge (L : LineAbsorption) (hk : L.kernel ≠ VORONOI_MESH) (nbins : ℕ) (i : ℕ) (l : Line)
    (p : Part) (d : ℝ) (m : ℕ) (h : p.h ^ 2 ≤ d) : coldenOn L nbins i l p d m = 0 := by
  unfold coldenOn coldenF
  rw [if_neg (by tauto), if_pos ⟨hk, by nlinarith⟩]

theorem tauOn_edge (L : LineAbsorption) (hk : L.kernel ≠ VORONOI_MESH) (nbins : ℕ) (i : ℕ) (l : Line)
    (p : Part) (d : ℝ) (m : ℕ) (h : p.h ^ 2 ≤ d) : tauOn L nbins i l p d m = 0 := by
  unfold tauOn tauF
  rw [if_neg (by tauto), if_pos ⟨hk, by nlinarith⟩]

theorem lineSpectrum_arrAdd {n nbins i : ℕ} (hi : i < n) (G : ℕ → ℝ) :
    lineSpectrum (arrAdd (List.replicate (n * nbins) 0) G) nbins i =
      arrAdd (List.replicate nbins 0) (fun j => G (i * nbins + j)) := by
  have hle := slice_le (nbins := nbins) hi
  unfold lineSpectrum
  apply List.ext_getElem?
  intro j
  rw [List.getElem?_take, List.getElem?_drop, arrAdd_getElem?, arrAdd_getElem?]
  by_cases hj : j < nbins
  · rw [if_pos hj, List.getElem?_replicate, List.getElem?_replicate, if_pos (by omega), if_pos hj]
  · rw [if_neg hj, List.getElem?_replicate, if_neg hj]; rfl

open Classical in
/-- C57, optical depth: the pixels of sightline `i` hold what results from depositing, on an empty
spectrum, one after the other, the particles whose periodic transverse distance from the sightline is
below their radius, with that distance and their own position and velocity along the sightline. -/
theorem tau_end_to_end (L : LineAbsorption) (hk : L.kernel ≠ VORONOI_MESH) {nbins : ℕ} (hn : 0 < nbins)
    {box : ℝ} (hbox : 0 < box) {lines : List Line} (hl : ∀ l ∈ lines, GoodLine box l)
    {parts : List Part} (hp : ∀ p ∈ parts, GoodPart box (p.pos, p.h)) :
    ∃ r, compute_tau L nbins box lines parts (List.replicate (lines.length * nbins) 0) = .ok r ∧
      r.length = lines.length * nbins ∧
      ∀ i l, lines[i]? = some l →
        (parts.filter (fun p => transDist2 box l.axis p.pos l.cofm < p.h ^ 2)).foldlM
          (fun a p => add_tau_particle L a 0 nbins (transDist2 box l.axis p.pos l.cofm) p.dens
            (axisCoord p.pos l.axis) (axisCoord p.vel l.axis) p.temp p.h) (List.replicate nbins 0) =
          .ok (lineSpectrum r nbins i) := by
  refine ⟨_, compute_tau_eq L hk hn box lines (fun l hm => (hl l hm).1) parts _ (by simp), by simp, ?_⟩
  intro i l hi
  have hil : i < lines.length := by
    by_contra hc; rw [List.getElem?_eq_none (by omega)] at hi; cases hi
  rw [lineSpectrum_arrAdd hil, foldlM_arrAdd _ (fun (p : Part) => tauF L 0 nbins
    (transDist2 box l.axis p.pos l.cofm) p.dens (axisCoord p.pos l.axis) (axisCoord p.vel l.axis)
      p.temp p.h) nbins _ ?_ _ (by simp)]
  swap
  · intro p _ a ha
    exact add_tau_eq L hn (by omega) ..
  congr 1
  apply arrAdd_congr
  intro j hj
  have hj : j < nbins := by simpa using hj
  have h1 : ∀ p ∈ parts, single (build lines box) lines (tauOn L nbins) p (i * nbins + j) =
      if transDist2 box l.axis p.pos l.cofm < p.h ^ 2 then
        tauOn L nbins i l p (transDist2 box l.axis p.pos l.cofm) (i * nbins + j) else 0 :=
    fun p hpm => single_on_line hbox hl (hp p hpm) _ hi hj
      (fun i l p d m hm => tauF_outside L hn hm ..) (tauOn_edge L hk nbins)
  rw [List.map_congr_left h1]
  clear h1
  induction parts with
  | nil => rfl
  | cons p ps ih =>
    have ih := ih (fun q hq => hp q (by simp [hq]))
    by_cases hd : transDist2 box l.axis p.pos l.cofm < p.h ^ 2
    · simp only [List.filter_cons, hd, decide_true, if_true, List.map_cons, List.sum_cons, ih]
      congr 1
      exact (tauF_offset ..).symm
    · simp only [List.filter_cons, hd, decide_false, if_false, List.map_cons, List.sum_cons, ih,
        zero_add, Bool.false_eq_true]

open Classical in
/-- C57, column density: the same. -/
theorem colden_end_to_end (L : LineAbsorption) (hk : L.kernel ≠ VORONOI_MESH) {nbins : ℕ}
    (hn : 0 < nbins) {box : ℝ} (hbox : 0 < box) {lines : List Line} (hl : ∀ l ∈ lines, GoodLine box l)
    {parts : List Part} (hp : ∀ p ∈ parts, GoodPart box (p.pos, p.h)) :
    ∃ r, compute_colden L nbins box lines parts (List.replicate (lines.length * nbins) 0) = .ok r ∧
      r.length = lines.length * nbins ∧
      ∀ i l, lines[i]? = some l →
        (parts.filter (fun p => transDist2 box l.axis p.pos l.cofm < p.h ^ 2)).foldlM
          (fun a p => add_colden_particle L a 0 nbins (transDist2 box l.axis p.pos l.cofm) p.dens
            (axisCoord p.pos l.axis) p.h) (List.replicate nbins 0) =
          .ok (lineSpectrum r nbins i) := by
  refine ⟨_, compute_colden_eq L hk hn box lines (fun l hm => (hl l hm).1) parts _ (by simp), by simp, ?_⟩
  intro i l hi
  have hil : i < lines.length := by
    by_contra hc; rw [List.getElem?_eq_none (by omega)] at hi; cases hi
  rw [lineSpectrum_arrAdd hil, foldlM_arrAdd _ (fun (p : Part) => coldenF L 0 nbins
    (transDist2 box l.axis p.pos l.cofm) p.dens (axisCoord p.pos l.axis) p.h) nbins _ ?_ _ (by simp)]
  swap
  · intro p _ a ha
    exact add_colden_eq L hn (by omega) ..
  congr 1
  apply arrAdd_congr
  intro j hj
  have hj : j < nbins := by simpa using hj
  have h1 : ∀ p ∈ parts, single (build lines box) lines (coldenOn L nbins) p (i * nbins + j) =
      if transDist2 box l.axis p.pos l.cofm < p.h ^ 2 then
        coldenOn L nbins i l p (transDist2 box l.axis p.pos l.cofm) (i * nbins + j) else 0 :=
    fun p hpm => single_on_line hbox hl (hp p hpm) _ hi hj
      (fun i l p d m hm => coldenF_outside L hn hm ..) (coldenOn_edge L hk nbins)
  rw [List.map_congr_left h1]
  clear h1
  induction parts with
  | nil => rfl
  | cons p ps ih =>
    have ih := ih (fun q hq => hp q (by simp [hq]))
    by_cases hd : transDist2 box l.axis p.pos l.cofm < p.h ^ 2
    · simp only [List.filter_cons, hd, decide_true, if_true, List.map_cons, List.sum_cons, ih]
      congr 1
      exact (coldenF_offset ..).symm
    · simp only [List.filter_cons, hd, decide_false, if_false, List.map_cons, List.sum_cons, ih,
        zero_add, Bool.false_eq_true]

open Classical in
theorem foldlM_colden_sum (L : LineAbsorption) (hL : GoodAbs L) (hk : L.kernel = TOP_HAT_KERNEL)
    {nbins : ℕ} (hn : 0 < nbins) (g x : Part → ℝ) (ps : List Part) (hg : ∀ p ∈ ps, g p < p.h ^ 2)
    (a out : List ℝ) (ha : a.length = nbins)
    (h : ps.foldlM (fun a p => add_colden_particle L a 0 nbins (g p) p.dens (x p) p.h) a = .ok out) :
    out.sum = a.sum + (ps.map (fun p => p.dens * (chordLength p.h (g p) / (4 / 3 * Real.pi)))).sum := by
  induction ps generalizing a with
  | nil =>
    have : a = out := Except.ok.inj h
    subst this; simp
  | cons p ps ih =>
    obtain ⟨b, hb, hs, hlen, -⟩ := colden_conserved_tophat L hL hk (off := 0) hn
      (a := a) (by omega) p.dens (x p) (hg p (by simp)).le
    rw [List.foldlM_cons, hb, ok_bind] at h
    rw [ih (fun q hq => hg q (by simp [hq])) b (by omega) h, hs, List.map_cons, List.sum_cons]
    ring

open Classical in
/-- C57 with C04: for the top-hat kernel the total column density of a sightline is the sum over the
particles it crosses of density times chord length, in units of a uniform sphere of unit mass. -/
theorem total_column_tophat (L : LineAbsorption) (hL : GoodAbs L) (hk : L.kernel = TOP_HAT_KERNEL)
    {nbins : ℕ} (hn : 0 < nbins) {box : ℝ} (hbox : 0 < box) {lines : List Line}
    (hl : ∀ l ∈ lines, GoodLine box l) {parts : List Part}
    (hp : ∀ p ∈ parts, GoodPart box (p.pos, p.h)) :
    ∃ r, compute_colden L nbins box lines parts (List.replicate (lines.length * nbins) 0) = .ok r ∧
      ∀ i l, lines[i]? = some l → (lineSpectrum r nbins i).sum =
        ((parts.filter (fun p => transDist2 box l.axis p.pos l.cofm < p.h ^ 2)).map (fun p =>
          p.dens * (chordLength p.h (transDist2 box l.axis p.pos l.cofm) / (4 / 3 * Real.pi)))).sum := by
  obtain ⟨r, h1, -, h3⟩ := colden_end_to_end L (by rw [hk]; decide) hn hbox hl hp
  refine ⟨r, h1, fun i l hi => ?_⟩
  rw [foldlM_colden_sum L hL hk hn (fun p => transDist2 box l.axis p.pos l.cofm)
    (fun p => axisCoord p.pos l.axis) _ (fun p hpm => by simpa using (List.mem_filter.1 hpm).2) _ _
    (by simp) (h3 i l hi)]
  simp

/-- Witness: two sightlines, two particles. -/
example : ∃ r, compute_tau (exAbs 1) 4 10 [exLine, exLine]
    [⟨exPart.1, ![1, 2, 3], 1, 1e4, exPart.2⟩, ⟨![1, 1, 1], ![1, 2, 3], 1, 1e4, 1⟩]
      (List.replicate (2 * 4) 0) = .ok r ∧ r.length = 2 * 4 := by
  obtain ⟨r, h1, h2, -⟩ := tau_end_to_end (exAbs 1) (by change (1 : ℤ) ≠ 2; decide) (nbins := 4) (by norm_num)
    (box := 10) (by norm_num) (lines := [exLine, exLine]) (by simpa using exLine_good)
    (parts := [⟨exPart.1, ![1, 2, 3], 1, 1e4, exPart.2⟩, ⟨![1, 1, 1], ![1, 2, 3], 1, 1e4, 1⟩]) (by
      intro p hp
      simp only [List.mem_cons, List.not_mem_nil, or_false] at hp
      rcases hp with rfl | rfl
      · exact exPart_good
      · refine ⟨?_, by norm_num, by norm_num⟩
        intro i; fin_cases i <;> norm_num)
  exact ⟨r, h1, h2⟩

/-- The sightlines and particles of the example above, for the column density. -/
example := colden_end_to_end (exAbs 1) (by change (1 : ℤ) ≠ 2; decide) (nbins := 4) (by norm_num) (box := 10) (by norm_num) (lines := [exLine])
  (by simpa using exLine_good) (parts := [⟨exPart.1, ![1, 2, 3], 1, 1e4, exPart.2⟩]) (by simpa using exPart_good)

end Verif.Props
