import Verif.Lemmas.NearParticles

/-!
C01, C02, C03: the search for particles near sightlines.
-/

namespace Verif.Props

open Verif Spec IndexTable

/-- A sightline that can exist in a box: it runs along one of the three axes and passes inside. -/
def GoodLine (box : ℝ) (l : Line) : Prop :=
  (l.axis = 1 ∨ l.axis = 2 ∨ l.axis = 3) ∧ InBox box l.cofm

/-- A particle inside the box with a positive radius below half the box. -/
def GoodPart (box : ℝ) (p : Vec3 × ℝ) : Prop := InBox box p.1 ∧ 0 < p.2 ∧ 2 * p.2 < box

/-- C02: the distance stored for a particle and a sightline is the squared periodic transverse
distance, whatever the radius, and never exceeds the squared radius. -/
theorem pair_distance {box : ℝ} (hbox : 0 < box) {lines : List Line}
    (hl : ∀ l ∈ lines, GoodLine box l) {pos : Vec3} (hpos : InBox box pos) (hh : ℝ) (k : ℕ) (d : ℝ)
    (h : StdMap.find? (get_near_lines (build lines box) pos hh) k = some d) :
    ∃ l, lines[k]? = some l ∧ d = transDist2 box l.axis pos l.cofm ∧ d ≤ hh ^ 2 := by
  rw [find?_get_near_lines] at h
  obtain ⟨l, h1, -, -, h2, h3⟩ := h
  obtain ⟨hax, hin⟩ := hl l (List.mem_of_getElem? h1)
  refine ⟨l, h1, ?_, by nlinarith⟩
  have hb : ∀ i, |pos i - l.cofm i| ≤ box := fun i =>
    abs_le.2 ⟨by linarith [(hpos i).1, (hin i).2], by linarith [(hpos i).2, (hin i).1]⟩
  rw [h2, calc_dr2_eq, transDist2_eq hax, wrapDist_eq_perDist hbox (hb _),
    wrapDist_eq_perDist hbox (hb _)]

/-- C01, completeness for one particle: a sightline closer than the radius is always found, with its
distance. -/
theorem near_line_found {box : ℝ} (hbox : 0 < box) {lines : List Line}
    (hl : ∀ l ∈ lines, GoodLine box l) {p : Vec3 × ℝ} (hp : GoodPart box p) {k : ℕ} {l : Line}
    (hk : lines[k]? = some l) (hd : transDist2 box l.axis p.1 l.cofm < p.2 ^ 2) :
    StdMap.find? (get_near_lines (build lines box) p.1 p.2) k =
      some (transDist2 box l.axis p.1 l.cofm) := by
  obtain ⟨hax, hin⟩ := hl l (List.mem_of_getElem? hk)
  obtain ⟨hpos, hh0, hh⟩ := hp
  have hb : ∀ i, |p.1 i - l.cofm i| ≤ box := fun i =>
    abs_le.2 ⟨by linarith [(hpos i).1, (hin i).2], by linarith [(hpos i).2, (hin i).1]⟩
  rw [find?_get_near_lines]
  rw [transDist2_eq hax, ← wrapDist_eq_perDist hbox (hb _), ← wrapDist_eq_perDist hbox (hb _)] at hd ⊢
  refine ⟨l, hk, ?_, ?_, (calc_dr2_eq _ _ _).symm, by nlinarith⟩
  · exact inWindow_of_lt hh (hpos _) (hin _)
      (lt_of_pow_lt_pow_left₀ 2 hh0.le (by nlinarith [sq_nonneg (wrapDist box (p.1 (c2 l) - l.cofm (c2 l)))]))
  · exact second_close_of_lt (hpos _) (hin _)
      (lt_of_pow_lt_pow_left₀ 2 hh0.le (by nlinarith [sq_nonneg (wrapDist box (p.1 (c1 l) - l.cofm (c1 l)))]))

/-- C01: `near_lines` returns the strictly increasing list of the particles that some sightline
passes closer than their radius. (At a distance of exactly the radius, where the kernel vanishes,
either answer is allowed.) -/
theorem near_lines_exact {box : ℝ} (hbox : 0 < box) {lines : List Line}
    (hl : ∀ l ∈ lines, GoodLine box l) {parts : List (Vec3 × ℝ)} (hp : ∀ p ∈ parts, GoodPart box p) :
    (near_lines box parts lines).Pairwise (· < ·) ∧
    (∀ i p, parts[i]? = some p → (∃ l ∈ lines, transDist2 box l.axis p.1 l.cofm < p.2 ^ 2) →
      i ∈ near_lines box parts lines) ∧
    (∀ i ∈ near_lines box parts lines, ∃ p, parts[i]? = some p ∧
      ∃ l ∈ lines, transDist2 box l.axis p.1 l.cofm ≤ p.2 ^ 2) := by
  refine ⟨near_lines_sched_sorted _ _ _ _, ?_, ?_⟩
  · rintro i p hi ⟨l, hmem, hd⟩
    obtain ⟨k, hk⟩ := List.mem_iff_getElem?.1 hmem
    refine (mem_near_lines_sched _ _ _ _ _).2 ⟨?_, p, hi, ?_⟩
    · rw [List.mem_range]; by_contra hc
      rw [List.getElem?_eq_none (by omega)] at hi; cases hi
    · exact (find?_exists_iff (get_near_lines_sorted _ _ _)).2
        ⟨k, _, near_line_found hbox hl (hp p (List.mem_of_getElem? hi)) hk hd⟩
  · intro i hi
    obtain ⟨-, p, hip, hne⟩ := (mem_near_lines_sched _ _ _ _ _).1 hi
    obtain ⟨k, d, hd⟩ := (find?_exists_iff (get_near_lines_sorted _ _ _)).1 hne
    obtain ⟨l, h1, h2, h3⟩ := pair_distance hbox hl (hp p (List.mem_of_getElem? hip)).1 _ _ _ hd
    exact ⟨p, hip, l, List.mem_of_getElem? h1, h2 ▸ h3⟩

/-- C01 for the interpolator: the list of particles of sightline `k` is sorted by particle number,
holds every particle closer than its radius with its squared distance, and nothing farther away. -/
theorem near_particles_exact {box : ℝ} (hbox : 0 < box) {lines : List Line}
    (hl : ∀ l ∈ lines, GoodLine box l) {parts : List (Vec3 × ℝ)} (hp : ∀ p ∈ parts, GoodPart box p)
    {k : ℕ} {l : Line} (hk : lines[k]? = some l) :
    ∃ m, (get_near_particles (build lines box) parts)[k]? = some m ∧ m.Sorted ∧
      (∀ i p, parts[i]? = some p → transDist2 box l.axis p.1 l.cofm < p.2 ^ 2 →
        (i, transDist2 box l.axis p.1 l.cofm) ∈ m) ∧
      (∀ i d, (i, d) ∈ m → ∃ p, parts[i]? = some p ∧ d = transDist2 box l.axis p.1 l.cofm ∧
        d ≤ p.2 ^ 2) := by
  have hklt : k < lines.length := by
    by_contra hc; rw [List.getElem?_eq_none (by omega)] at hk; cases hk
  refine ⟨nearList (build lines box) parts k, ?_, nearList_sorted _ _ _, ?_, ?_⟩
  · unfold get_near_particles
    rw [get_near_particles_sched_eq _ _ _ (List.Perm.refl _), build_lines, List.getElem?_map,
      List.getElem?_range hklt]
    rfl
  · intro i p hi hd
    rw [StdMap.mem_iff_find? (nearList_sorted _ _ _), find?_nearList, hi]
    exact near_line_found hbox hl (hp p (List.mem_of_getElem? hi)) hk hd
  · intro i d h
    rw [StdMap.mem_iff_find? (nearList_sorted _ _ _), find?_nearList, Option.bind_eq_some_iff] at h
    obtain ⟨p, hi, hd⟩ := h
    obtain ⟨l', h1, h2, h3⟩ := pair_distance hbox hl (hp p (List.mem_of_getElem? hi)).1 _ _ _ hd
    rw [hk] at h1; cases h1
    exact ⟨p, hi, h2, h3⟩

/-- C02: the distance ignores the coordinate along the sightline. -/
theorem transDist2_along (box : ℝ) (axis : ℤ) (p q c : Fin 3 → ℝ)
    (h : ∀ i : Fin 3, (i : ℤ) + 1 ≠ axis → p i = q i) :
    transDist2 box axis p c = transDist2 box axis q c := by
  unfold transDist2
  refine Finset.sum_congr rfl fun i _ => ?_
  split
  · rfl
  · rename_i hi; rw [h i hi]

/-- C02: moving particle and sightline together, modulo the box, changes nothing. -/
theorem transDist2_shift {box : ℝ} (hbox : 0 < box) (axis : ℤ) (p c p' c' s : Fin 3 → ℝ)
    (hp : ∀ i, ∃ n : ℤ, p' i = p i + s i + n * box) (hc : ∀ i, ∃ n : ℤ, c' i = c i + s i + n * box) :
    transDist2 box axis p' c' = transDist2 box axis p c := by
  unfold transDist2
  refine Finset.sum_congr rfl fun i _ => ?_
  split
  · rfl
  · obtain ⟨n, hn⟩ := hp i
    obtain ⟨m, hm⟩ := hc i
    have : perDist box (p' i - c' i) = perDist box (p i - c i) := by
      unfold perDist
      have e : (p' i - c' i) / box = (p i - c i) / box + ((n - m : ℤ) : ℝ) := by
        rw [hn, hm]; push_cast; field_simp; ring
      rw [e, round_add_intCast, hn, hm]
      push_cast; ring_nf
    rw [this]

/-- C02 at the level of the search: two searches whose particle and sightlines are shifted together,
with the same radius, attach the same distance to a sightline both find. -/
theorem pair_distance_shift {box : ℝ} (hbox : 0 < box) {lines lines' : List Line}
    (hl : ∀ l ∈ lines, GoodLine box l) (hl' : ∀ l ∈ lines', GoodLine box l)
    {pos pos' : Vec3} (hpos : InBox box pos) (hpos' : InBox box pos') (s : Vec3)
    (hs : ∀ i, ∃ n : ℤ, pos' i = pos i + s i + n * box)
    (hsl : ∀ (k : ℕ) l l', lines[k]? = some l → lines'[k]? = some l' →
      l'.axis = l.axis ∧ ∀ i, ∃ n : ℤ, l'.cofm i = l.cofm i + s i + n * box)
    (hh : ℝ) (k : ℕ) (d d' : ℝ)
    (h : StdMap.find? (get_near_lines (build lines box) pos hh) k = some d)
    (h' : StdMap.find? (get_near_lines (build lines' box) pos' hh) k = some d') : d = d' := by
  obtain ⟨l, h1, h2, -⟩ := pair_distance hbox hl hpos hh k d h
  obtain ⟨l', h1', h2', -⟩ := pair_distance hbox hl' hpos' hh k d' h'
  obtain ⟨hax, hc⟩ := hsl k l l' h1 h1'
  rw [h2, h2', hax, transDist2_shift hbox l.axis pos l.cofm pos' l'.cofm s hs hc]

/-- C03: the particle lists are the same for every assignment of particles to threads and every
order of the critical sections. -/
theorem near_particles_schedule (lines : List Line) (box : ℝ) (parts : List (Vec3 × ℝ))
    (queues : List (List ℕ)) (hq : ValidQueues parts.length queues) (trace : List ℕ)
    (h : Interleaving queues trace) :
    get_near_particles_sched (build lines box) parts trace =
      get_near_particles (build lines box) parts := by
  unfold get_near_particles
  rw [get_near_particles_sched_eq _ _ _ (h.perm.trans hq),
    get_near_particles_sched_eq _ _ _ (List.Perm.refl _)]

/-- C03: likewise for the list returned by `near_lines`. -/
theorem near_lines_schedule (box : ℝ) (parts : List (Vec3 × ℝ)) (lines : List Line)
    (queues : List (List ℕ)) (hq : ValidQueues parts.length queues) (trace : List ℕ)
    (h : Interleaving queues trace) :
    near_lines_sched box parts lines trace = near_lines box parts lines := by
  refine StdSet.ext_of_mem (near_lines_sched_sorted _ _ _ _) (near_lines_sched_sorted _ _ _ _) ?_
  intro i
  rw [near_lines, mem_near_lines_sched, mem_near_lines_sched, (h.perm.trans hq).mem_iff]

/-! ### Concrete cases -/

/-- A box of 10, a z-sightline through (9.5, 5, 0), a particle at (0.5, 5, 3) of radius 2: they meet
across the box edge. -/
def exLine : Line := ⟨3, ![9.5, 5, 0]⟩
def exPart : Vec3 × ℝ := (![0.5, 5, 3], 2)

theorem exLine_good : GoodLine 10 exLine := by
  refine ⟨by simp [exLine], fun i => ?_⟩
  fin_cases i <;> simp [exLine] <;> norm_num

theorem exPart_good : GoodPart 10 exPart := by
  refine ⟨fun i => ?_, by norm_num [exPart], by norm_num [exPart]⟩
  fin_cases i <;> simp [exPart] <;> norm_num

theorem exDist : transDist2 10 exLine.axis exPart.1 exLine.cofm = 1 := by
  have hb : ∀ i, |exPart.1 i - exLine.cofm i| ≤ 10 := fun i =>
    abs_le.2 ⟨by linarith [(exPart_good.1 i).1, (exLine_good.2 i).2],
      by linarith [(exPart_good.1 i).2, (exLine_good.2 i).1]⟩
  rw [transDist2_eq exLine_good.1, ← wrapDist_eq_perDist (by norm_num) (hb _),
    ← wrapDist_eq_perDist (by norm_num) (hb _)]
  simp only [wrapDist, c1, c2, exPart, exLine]
  norm_num [abs_of_neg, abs_of_pos]

/-- Witness for `near_line_found`, `pair_distance`, `near_lines_exact`, `near_particles_exact`. -/
example : 0 ∈ near_lines 10 [exPart] [exLine] ∧
    StdMap.find? (get_near_lines (build [exLine] 10) exPart.1 exPart.2) 0 = some 1 := by
  have hl : ∀ l ∈ [exLine], GoodLine 10 l := by simpa using exLine_good
  have hp : ∀ p ∈ [exPart], GoodPart 10 p := by simpa using exPart_good
  have hd : transDist2 10 exLine.axis exPart.1 exLine.cofm < exPart.2 ^ 2 := by
    rw [exDist]; norm_num [exPart]
  exact ⟨(near_lines_exact (by norm_num) hl hp).2.1 0 exPart rfl ⟨exLine, by simp, hd⟩,
    by rw [near_line_found (by norm_num) hl exPart_good (k := 0) rfl hd, exDist]⟩

/-- Witness for the schedule theorems: two threads, three particles, an interleaved order. -/
example : ValidQueues 3 [[0, 2], [1]] ∧ Interleaving [[0, 2], [1]] [0, 1, 2] := by
  refine ⟨by unfold ValidQueues; decide, ?_⟩
  exact .step [] 0 [2] [[1]] _ (.step [[2]] 1 [] [] _ (.step [] 2 [] [[]] _ (.done _ (by simp))))

/-- The bound on the radius in C01 is needed: with a radius of half the box a particle sitting on the
sightline is missed. -/
theorem near_lines_misses_half_box :
    transDist2 10 3 ![6, 5, 0] ![6, 5, 0] = 0 ∧
    near_lines 10 [((![6, 5, 0] : Vec3), 5)] [⟨3, ![6, 5, 0]⟩] = [] := by
  constructor
  · unfold transDist2 perDist; rw [Fin.sum_univ_three]; simp
  · rw [List.eq_nil_iff_forall_not_mem]
    intro i hi
    obtain ⟨h1, p, h2, h3⟩ := (mem_near_lines_sched _ _ _ _ _).1 hi
    simp at h1; subst h1
    simp at h2; subst h2
    obtain ⟨k, d, hd⟩ := (find?_exists_iff (get_near_lines_sorted _ _ _)).1 h3
    rw [find?_get_near_lines] at hd
    obtain ⟨l, hk, hw, -⟩ := hd
    have hl := List.mem_of_getElem? hk
    simp at hl; subst hl
    simp only [inWindow, c1] at hw
    norm_num at hw

/-! The other theorems at work on the same sightline and particle. -/

example (d : ℝ) := pair_distance (box := 10) (by norm_num) (lines := [exLine]) (by simpa using exLine_good) (pos := exPart.1) exPart_good.1 exPart.2 0 d

example := near_particles_exact (box := 10) (by norm_num) (lines := [exLine]) (by simpa using exLine_good) (parts := [exPart])
  (by simpa using exPart_good) (k := 0) rfl

example := transDist2_along 10 3 ![1, 2, 3] ![1, 2, 7] ![5, 5, 0] (by intro i; fin_cases i <;> simp)

example := transDist2_shift (box := 10) (by norm_num) 3 ![1, 2, 3] ![5, 5, 0] ![4, 2, 3] ![8, 5, 0] ![3, 0, 0]
  (by intro i; exact ⟨0, by fin_cases i <;> norm_num⟩) (by intro i; exact ⟨0, by fin_cases i <;> norm_num⟩)

theorem exQueues : ValidQueues 3 [[0, 2], [1]] ∧ Interleaving [[0, 2], [1]] [0, 1, 2] :=
  ⟨by unfold ValidQueues; decide, .step [] 0 [2] [[1]] _ (.step [[2]] 1 [] [] _ (.step [] 2 [] [[]] _ (.done _ (by simp))))⟩

example := near_particles_schedule [exLine] 10 [exPart, exPart, exPart] _ exQueues.1 _ exQueues.2

example := near_lines_schedule 10 [exPart, exPart, exPart] [exLine] _ exQueues.1 _ exQueues.2

end Verif.Props
