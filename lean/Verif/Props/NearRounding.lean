import Verif.Lemmas.NearRounding
import Verif.Props.NearLines
import Verif.Props.CellRounding

/-!
C122: the search for sightlines near particles, in single precision.
-/

namespace Verif.Props.NearRounding
open Verif Verif.Spec Verif.Props Verif.IndexTable Verif.Rounding
open Verif.Props.CellRounding (Single roundTo_single)

/-! ### Specification -/

/-- A sightline passes inside the radius of a particle by more than a four millionth of the box. -/
def ClearlyNear (box : ℝ) (p : Vec3 × ℝ) (l : Line) : Prop :=
  √ (transDist2 box l.axis p.1 l.cofm) + box / 2 ^ 22 < p.2

/-- A sightline does not pass outside the radius by more than a relative `2 ^ -25` (the square by `2 ^ -24`). -/
def HardlyOutside (box : ℝ) (p : Vec3 × ℝ) (l : Line) : Prop :=
  transDist2 box l.axis p.1 l.cofm ≤ p.2 ^ 2 * (1 + (2 : ℝ)⁻¹ ^ 24)

/-- A particle inside the box with a positive radius clearly below half the box. -/
def SmallPart (box : ℝ) (p : Vec3 × ℝ) : Prop := InBox box p.1 ∧ 0 < p.2 ∧ 2 * p.2 + box / 2 ^ 20 < box

/-! ### The window -/

/-- What rounding does to a number of the size of the box. -/
theorem Single.near {fl : ℝ → ℝ} (hf : Single fl) {x b : ℝ} (hx : |x| ≤ b) : x - (2 : ℝ)⁻¹ ^ 24 * b ≤ fl x ∧ fl x ≤ x + (2 : ℝ)⁻¹ ^ 24 * b := by
  have h := abs_le.1 ((hf x).trans (mul_le_mul_of_nonneg_left hx (by positivity)))
  constructor <;> linarith [h.1, h.2]

theorem window_of_lt {fl : ℝ → ℝ} (hf : Single fl) {box f h c : ℝ} (h0 : 0 < h) (hh : 2 * h + box / 2 ^ 20 < box) (hfb : 0 ≤ f ∧ f ≤ box)
    (hc : 0 ≤ c ∧ c ≤ box) (hd : wrapDist box (f - c) + box / 2 ^ 22 < h) : NearRounding.inWindow fl box f h c := by
  have hbox : 0 < box := by nlinarith [hfb.1, hfb.2]
  have hcases : |f - c| + box / 2 ^ 22 < h ∨ (box - |f - c| + box / 2 ^ 22 < h) := by
    unfold wrapDist at hd; split at hd
    · exact Or.inr hd
    · exact Or.inl hd
  have hδ : box / 2 ^ 22 < h := by
    have := abs_nonneg (f - c)
    have : |f - c| ≤ box := abs_le.2 ⟨by linarith, by linarith⟩
    rcases hcases with h | h <;> linarith
  have p1 := Single.near hf (x := f + h) (b := 1.5 * box) (abs_le.2 ⟨by linarith, by linarith⟩)
  have m1 := Single.near hf (x := f - h) (b := box) (abs_le.2 ⟨by linarith, by linarith⟩)
  have p2 := Single.near hf (x := fl (f + h) - box) (b := box)
    (abs_le.2 ⟨by have := p1.1; norm_num at this hδ; linarith, by have := p1.2; norm_num at this; linarith⟩)
  have m2 : fl (f - h) < 0 → _ := fun hn => Single.near hf (x := fl (f - h) + box) (b := box) (abs_le.2 ⟨by linarith [m1.1], by linarith [m1.2]⟩)
  simp only [NearRounding.inWindow]
  generalize fl (f + h) = P at *
  generalize fl (f - h) = M at *
  generalize fl (P - box) = P' at *
  generalize fl (M + box) = M' at *
  obtain ⟨p1a, p1b⟩ := p1
  obtain ⟨p2a, p2b⟩ := p2
  obtain ⟨m1a, m1b⟩ := m1
  norm_num at *
  rcases hcases with hl | hr
  · have ha := neg_abs_le (f - c)
    have hb := le_abs_self (f - c)
    by_cases hM : M < 0
    · obtain ⟨m2a, m2b⟩ := m2 hM
      split_ifs <;> first
        | (constructor <;> linarith)
        | (exfalso; linarith)
        | (left; linarith)
        | (right; linarith)
    · split_ifs <;> first
        | (constructor <;> linarith)
        | (exfalso; linarith)
        | (left; linarith)
        | (right; linarith)
  · rcases abs_cases (f - c) with ⟨h1, h2⟩ | ⟨h1, h2⟩ <;> rw [h1] at hr <;>
    (by_cases hM : M < 0
     · obtain ⟨m2a, m2b⟩ := m2 hM
       split_ifs <;> first
        | (constructor <;> linarith)
        | (exfalso; linarith)
        | (left; linarith)
        | (right; linarith)
     · split_ifs <;> first
        | (constructor <;> linarith)
        | (exfalso; linarith)
        | (left; linarith)
        | (right; linarith))

theorem close_of_lt {fl : ℝ → ℝ} (hf : Single fl) {box f h c : ℝ} (h0 : 0 < h) (hh : 2 * h < box) (hfb : 0 ≤ f ∧ f ≤ box)
    (hc : 0 ≤ c ∧ c ≤ box) (hd : wrapDist box (f - c) + box / 2 ^ 22 < h) : NearRounding.second_close fl box f c h = true := by
  have hcases : |f - c| + box / 2 ^ 22 < h ∨ (box - |f - c| + box / 2 ^ 22 < h) := by
    unfold wrapDist at hd; split at hd
    · exact Or.inr hd
    · exact Or.inl hd
  have p1 := Single.near hf (x := f + h) (b := 1.5 * box) (abs_le.2 ⟨by linarith, by linarith⟩)
  have m1 := Single.near hf (x := f - h) (b := box) (abs_le.2 ⟨by linarith, by linarith⟩)
  simp only [NearRounding.second_close]
  generalize fl (f + h) = P at *
  generalize fl (f - h) = M at *
  norm_num at p1 m1 hcases
  split
  · rfl
  · rename_i n1
    split
    · rfl
    · rename_i n2
      rw [if_pos]
      rcases hcases with hl | hr
      · have ha := neg_abs_le (f - c)
        have hb := le_abs_self (f - c)
        constructor <;> linarith
      · exfalso
        rcases abs_cases (f - c) with ⟨h1, h2⟩ | ⟨h1, h2⟩ <;> rw [h1] at hr
        · exact n1 ⟨by linarith, by linarith⟩
        · exact n2 ⟨by linarith, by linarith⟩

/-! ### The search for one particle -/

theorem inbox_abs {box : ℝ} {p c : Vec3} (hp : InBox box p) (hc : InBox box c) (i : Fin 3) : |p i - c i| ≤ box :=
  abs_le.2 ⟨by linarith [(hp i).1, (hc i).2], by linarith [(hp i).2, (hc i).1]⟩

/-- C122: a sightline clearly inside the radius is found, with its exact distance, however sums are rounded. -/
theorem near_single_found {fl : ℝ → ℝ} (hf : Single fl) {box : ℝ} (hbox : 0 < box) {lines : List Line} (hl : ∀ l ∈ lines, GoodLine box l)
    {p : Vec3 × ℝ} (hp : SmallPart box p) {k : ℕ} {l : Line} (hk : lines[k]? = some l) (hd : ClearlyNear box p l) :
    StdMap.find? (NearRounding.get_near_lines fl (build lines box) p.1 p.2) k = some (transDist2 box l.axis p.1 l.cofm) := by
  obtain ⟨hax, hin⟩ := hl l (List.mem_of_getElem? hk)
  obtain ⟨hpos, hh0, hh⟩ := hp
  have hb := inbox_abs hpos hin
  have hb22 : box / 2 ^ 20 = 4 * (box / 2 ^ 22) := by ring
  have hδ : 0 < box / 2 ^ 22 := by positivity
  unfold ClearlyNear at hd
  rw [NearRounding.find?_get_near_lines]
  rw [transDist2_eq hax, ← wrapDist_eq_perDist hbox (hb _), ← wrapDist_eq_perDist hbox (hb _)] at hd ⊢
  set a := wrapDist box (p.1 (c1 l) - l.cofm (c1 l)) with ha
  set b := wrapDist box (p.1 (c2 l) - l.cofm (c2 l)) with hb'
  have s1 : a ≤ √ (a ^ 2 + b ^ 2) := Real.le_sqrt_of_sq_le (by nlinarith [sq_nonneg b])
  have s2 : b ≤ √ (a ^ 2 + b ^ 2) := Real.le_sqrt_of_sq_le (by nlinarith [sq_nonneg a])
  refine ⟨l, hk, ?_, ?_, (calc_dr2_eq _ _ _).symm, ?_⟩
  · exact window_of_lt hf hh0 hh (hpos _) (hin _) (by linarith)
  · exact close_of_lt hf hh0 (by linarith) (hpos _) (hin _) (by linarith)
  · have s3 := Real.sq_sqrt (show 0 ≤ a ^ 2 + b ^ 2 by positivity)
    have s0 := Real.sqrt_nonneg (a ^ 2 + b ^ 2)
    have lo := (Single.near hf (x := p.2 * p.2) (b := p.2 * p.2) (by rw [abs_of_pos (by positivity)])).1
    rw [← s3]
    have e : (2 : ℝ)⁻¹ ^ 24 * (p.2 * p.2) ≤ box / 2 ^ 22 * p.2 := by
      have : (2 : ℝ)⁻¹ ^ 24 * p.2 ≤ box / 2 ^ 22 := by norm_num; linarith
      nlinarith
    nlinarith

/-- C122: what is found has its exact distance, and is hardly outside the radius. -/
theorem near_single_distance {fl : ℝ → ℝ} (hf : Single fl) {box : ℝ} (hbox : 0 < box) {lines : List Line} (hl : ∀ l ∈ lines, GoodLine box l)
    {p : Vec3 × ℝ} (hpos : InBox box p.1) (k : ℕ) (d : ℝ)
    (h : StdMap.find? (NearRounding.get_near_lines fl (build lines box) p.1 p.2) k = some d) :
    ∃ l, lines[k]? = some l ∧ d = transDist2 box l.axis p.1 l.cofm ∧ HardlyOutside box p l := by
  rw [NearRounding.find?_get_near_lines] at h
  obtain ⟨l, h1, -, -, h2, h3⟩ := h
  obtain ⟨hax, hin⟩ := hl l (List.mem_of_getElem? h1)
  have hb := inbox_abs hpos hin
  have e : d = transDist2 box l.axis p.1 l.cofm := by
    rw [h2, calc_dr2_eq, transDist2_eq hax, wrapDist_eq_perDist hbox (hb _), wrapDist_eq_perDist hbox (hb _)]
  refine ⟨l, h1, e, ?_⟩
  unfold HardlyOutside
  rw [← e]
  have := (Single.near hf (x := p.2 * p.2) (b := p.2 * p.2) (by rw [abs_of_nonneg (mul_self_nonneg _)])).2
  nlinarith

/-! ### All the particles -/

/-- C122: the particles returned by `_near_lines`, in increasing order whatever the order in which the threads finish: all those clearly near a sightline,
and none that is more than hardly outside all of them. In between the result depends on the rounding (`inside_lost`). -/
theorem near_lines_single {fl : ℝ → ℝ} (hf : Single fl) {box : ℝ} (hbox : 0 < box) {lines : List Line} (hl : ∀ l ∈ lines, GoodLine box l)
    {parts : List (Vec3 × ℝ)} (hp : ∀ p ∈ parts, SmallPart box p) {sched : List ℕ} (hs : sched.Perm (List.range parts.length)) :
    (NearRounding.near_lines_sched fl box parts lines sched).Pairwise (· < ·) ∧
    (∀ i p, parts[i]? = some p → (∃ l ∈ lines, ClearlyNear box p l) → i ∈ NearRounding.near_lines_sched fl box parts lines sched) ∧
    (∀ i ∈ NearRounding.near_lines_sched fl box parts lines sched, ∃ p, parts[i]? = some p ∧ ∃ l ∈ lines, HardlyOutside box p l) := by
  refine ⟨NearRounding.near_lines_sched_sorted _ _ _ _, ?_, ?_⟩
  · rintro i p hi ⟨l, hmem, hd⟩
    obtain ⟨k, hk⟩ := List.mem_iff_getElem?.1 hmem
    refine (NearRounding.mem_near_lines_sched _ _ _ _ _).2 ⟨?_, p, hi, ?_⟩
    · rw [hs.mem_iff, List.mem_range]; by_contra hc
      rw [List.getElem?_eq_none (by omega)] at hi; cases hi
    · exact (find?_exists_iff (NearRounding.get_near_lines_sorted _ _ _)).2
        ⟨k, _, near_single_found hf hbox hl (hp p (List.mem_of_getElem? hi)) hk hd⟩
  · intro i hi
    obtain ⟨-, p, hip, hne⟩ := (NearRounding.mem_near_lines_sched _ _ _ _ _).1 hi
    obtain ⟨k, d, hd⟩ := (find?_exists_iff (NearRounding.get_near_lines_sorted _ _ _)).1 hne
    obtain ⟨l, h1, -, h3⟩ := near_single_distance hf hbox hl (hp p (List.mem_of_getElem? hip)).1 _ _ hd
    exact ⟨p, hip, l, List.mem_of_getElem? h1, h3⟩

/-- C122 for the interpolator: the list of particles of a sightline is sorted by particle number, holds every particle it is clearly near with its exact
squared distance, and none it is more than hardly outside of. In between the result depends on the rounding (`inside_lost`). -/
theorem near_particles_single {fl : ℝ → ℝ} (hf : Single fl) {box : ℝ} (hbox : 0 < box) {lines : List Line} (hl : ∀ l ∈ lines, GoodLine box l)
    {parts : List (Vec3 × ℝ)} (hp : ∀ p ∈ parts, SmallPart box p) {sched : List ℕ} (hs : sched.Perm (List.range parts.length))
    {k : ℕ} {l : Line} (hk : lines[k]? = some l) :
    ∃ m, (NearRounding.get_near_particles_sched fl (build lines box) parts sched)[k]? = some m ∧ m.Sorted ∧
      (∀ i p, parts[i]? = some p → ClearlyNear box p l → (i, transDist2 box l.axis p.1 l.cofm) ∈ m) ∧
      (∀ i d, (i, d) ∈ m → ∃ p, parts[i]? = some p ∧ d = transDist2 box l.axis p.1 l.cofm ∧ HardlyOutside box p l) := by
  have hklt : k < lines.length := by
    by_contra hc; rw [List.getElem?_eq_none (by omega)] at hk; cases hk
  refine ⟨NearRounding.nearList fl (build lines box) parts k, ?_, NearRounding.nearList_sorted _ _ _, ?_, ?_⟩
  · rw [NearRounding.get_near_particles_sched_eq _ _ _ hs, build_lines, List.getElem?_map, List.getElem?_range hklt]
    rfl
  · intro i p hi hd
    rw [StdMap.mem_iff_find? (NearRounding.nearList_sorted _ _ _), NearRounding.find?_nearList, hi]
    exact near_single_found hf hbox hl (hp p (List.mem_of_getElem? hi)) hk hd
  · intro i d h
    rw [StdMap.mem_iff_find? (NearRounding.nearList_sorted _ _ _), NearRounding.find?_nearList, Option.bind_eq_some_iff] at h
    obtain ⟨p, hi, hd⟩ := h
    obtain ⟨l', h1, h2, h3⟩ := near_single_distance hf hbox hl (hp p (List.mem_of_getElem? hi)).1 _ _ hd
    rw [hk] at h1; cases h1
    exact ⟨p, hi, h2, h3⟩

/-- C122: without rounding the search is the one of C01. -/
theorem exact_search (t : Table) (pos : Vec3) (hh : ℝ) : NearRounding.get_near_lines (fun x => x) t pos hh = IndexTable.get_near_lines t pos hh := rfl

/-! ### What is lost -/

/-- A sightline in a box of 100 Mpc. -/
noncomputable def edgeLine : Line := ⟨3, ![65537 + (2 : ℝ)⁻¹ ^ 10, 65536, 0]⟩

/-- A particle whose radius of a little more than 1 kpc holds the sightline. -/
noncomputable def edgePart : Vec3 × ℝ := (![65536, 65536, 0], 1 + (2 : ℝ)⁻¹ ^ 9)

/-- The upper limit of the window is rounded down. -/
theorem edge_limit : roundTo 24 ((65536 : ℝ) + (1 + (2 : ℝ)⁻¹ ^ 9)) = 65537 := by
  have hx : (65536 : ℝ) + (1 + (2 : ℝ)⁻¹ ^ 9) = 65537.001953125 := by norm_num
  rw [hx]
  have hlog : Int.log 2 |(65537.001953125 : ℝ)| = 16 := by
    rw [abs_of_pos (by norm_num)]
    have h1 : (2 : ℝ) ^ (16 : ℤ) ≤ 65537.001953125 := by norm_num
    have h2 : (65537.001953125 : ℝ) < (2 : ℝ) ^ ((16 : ℤ) + 1) := by norm_num
    have := (Int.zpow_le_iff_le_log (b := 2) (r := (65537.001953125 : ℝ)) (x := 16) (by norm_num) (by norm_num)).1 (by exact_mod_cast h1)
    have := (Int.lt_zpow_iff_log_lt (b := 2) (r := (65537.001953125 : ℝ)) (x := 16 + 1) (by norm_num) (by norm_num)).1 (by exact_mod_cast h2)
    omega
  unfold roundTo
  rw [hlog]
  have : round ((65537.001953125 : ℝ) * (2 : ℝ) ^ (((24 : ℕ) : ℤ) - 1 - 16)) = 8388736 := by
    rw [round_eq_iff]
    norm_num
  rw [this]
  norm_num

theorem edge_line_good : GoodLine 100000 edgeLine := by
  refine ⟨by simp [edgeLine], fun i => ?_⟩
  fin_cases i <;> simp [edgeLine] <;> norm_num

theorem edge_part_small : SmallPart 100000 edgePart := by
  refine ⟨fun i => ?_, by norm_num [edgePart], by norm_num [edgePart]⟩
  fin_cases i <;> simp [edgePart] <;> norm_num

theorem edge_dist : transDist2 100000 edgeLine.axis edgePart.1 edgeLine.cofm < edgePart.2 ^ 2 := by
  have hb := inbox_abs edge_part_small.1 edge_line_good.2
  rw [transDist2_eq edge_line_good.1, ← wrapDist_eq_perDist (by norm_num) (hb _), ← wrapDist_eq_perDist (by norm_num) (hb _)]
  have c1e : c1 edgeLine = 0 := rfl
  have c2e : c2 edgeLine = 1 := rfl
  rw [c1e, c2e]
  norm_num [edgeLine, edgePart, wrapDist, abs_of_neg]

/-- Nothing is found. -/
theorem edge_none : NearRounding.get_near_lines (roundTo 24) (build [edgeLine] 100000) edgePart.1 edgePart.2 = [] := by
  by_contra hne
  obtain ⟨k, d, hd⟩ := (find?_exists_iff (NearRounding.get_near_lines_sorted _ _ _)).1 hne
  rw [NearRounding.find?_get_near_lines] at hd
  obtain ⟨l, h1, h2, -⟩ := hd
  have e1 := List.mem_singleton.1 (List.mem_of_getElem? h1)
  subst e1
  have m1 := (Single.near roundTo_single (x := (65536 : ℝ) - (1 + (2 : ℝ)⁻¹ ^ 9)) (b := 65536) (by rw [abs_le]; constructor <;> norm_num))
  have q1 : edgePart.1 (c1 edgeLine) = 65536 := rfl
  have q2 : edgeLine.cofm (c1 edgeLine) = 65537 + (2 : ℝ)⁻¹ ^ 10 := rfl
  have q3 : edgePart.2 = 1 + (2 : ℝ)⁻¹ ^ 9 := rfl
  rw [q1, q2, q3] at h2
  simp only [NearRounding.inWindow, edge_limit] at h2
  generalize roundTo 24 ((65536 : ℝ) - (1 + (2 : ℝ)⁻¹ ^ 9)) = M at *
  norm_num at m1 h2
  rw [if_neg (by linarith [m1.1])] at h2
  linarith [h2.1, m1.2]

/-- C122 in full is false: in a box of 100 Mpc, a particle of 1 kpc with a sightline inside its radius is not found, and is in exact arithmetic. -/
theorem inside_lost :
    GoodLine 100000 edgeLine ∧ SmallPart 100000 edgePart ∧ transDist2 100000 edgeLine.axis edgePart.1 edgeLine.cofm < edgePart.2 ^ 2 ∧
    0 ∈ near_lines 100000 [edgePart] [edgeLine] ∧ NearRounding.near_lines_sched (roundTo 24) 100000 [edgePart] [edgeLine] [0] = [] := by
  have hl : ∀ l ∈ [edgeLine], GoodLine 100000 l := by
    intro l h
    rw [List.mem_singleton.1 h]
    exact edge_line_good
  refine ⟨edge_line_good, edge_part_small, edge_dist, ?_, ?_⟩
  · refine (near_lines_exact (by norm_num) hl (parts := [edgePart]) ?_).2.1 0 edgePart rfl ⟨edgeLine, by simp, edge_dist⟩
    intro p h
    rw [List.mem_singleton.1 h]
    exact ⟨edge_part_small.1, edge_part_small.2.1, by linarith [edge_part_small.2.2]⟩
  · refine List.eq_nil_iff_forall_not_mem.2 fun i hi => ?_
    obtain ⟨-, p, hip, hne⟩ := (NearRounding.mem_near_lines_sched _ _ _ _ _).1 hi
    rw [List.mem_singleton.1 (List.mem_of_getElem? hip)] at hne
    exact hne edge_none

/-! ### Examples -/

/-- A sightline through the particle itself is found, in single precision and with its exact distance. -/
example : StdMap.find? (NearRounding.get_near_lines (roundTo 24) (build [⟨3, ![65536.5, 65536, 0]⟩] 100000) edgePart.1 edgePart.2) 0 =
    some (transDist2 100000 3 edgePart.1 ![65536.5, 65536, 0]) := by
  have hg : GoodLine 100000 ⟨3, ![65536.5, 65536, 0]⟩ := by
    refine ⟨by simp, fun i => ?_⟩
    fin_cases i <;> simp <;> norm_num
  refine near_single_found roundTo_single (by norm_num) (fun l h => (List.mem_singleton.1 h) ▸ hg) edge_part_small (l := ⟨3, ![65536.5, 65536, 0]⟩) rfl ?_
  unfold ClearlyNear
  have hb := inbox_abs edge_part_small.1 hg.2
  rw [transDist2_eq hg.1, ← wrapDist_eq_perDist (by norm_num) (hb _), ← wrapDist_eq_perDist (by norm_num) (hb _)]
  have : √ (wrapDist 100000 (edgePart.1 (c1 ⟨3, ![65536.5, 65536, 0]⟩) - ![65536.5, 65536, 0] (c1 ⟨3, ![65536.5, 65536, 0]⟩)) ^ 2 +
      wrapDist 100000 (edgePart.1 (c2 ⟨3, ![65536.5, 65536, 0]⟩) - ![65536.5, 65536, 0] (c2 ⟨3, ![65536.5, 65536, 0]⟩)) ^ 2) = 0.5 := by
    rw [Real.sqrt_eq_iff_mul_self_eq (by positivity) (by norm_num)]
    norm_num [c1, c2, edgePart, wrapDist, abs_of_neg]
  rw [this]
  norm_num [edgePart]

end Verif.Props.NearRounding
