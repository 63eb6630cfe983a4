import Verif.Props.Voronoi

/-!
C09, concrete sightlines through two cells of a moving mesh, box size 1 (ten sample points): one
where the program works, and four where the English claim fails of the program.
-/

namespace Verif.Props
open Verif Verif.Spec Verif.IndexTable Verif.Absorption Verif.PartInt

/-- A sightline along the first axis. -/
noncomputable def meshLine : Line := ⟨1, ![0, 0.5, 0.5]⟩

/-- A cell with centre at `x` along the sightline and at distance `d` from it. -/
noncomputable def meshCell (x d : ℝ) : Part := ⟨![x, 0.5 + d, 0.5], ![0, 0, 0], 1, 1e4, 0.49⟩

theorem meshLine_good : GoodLine 1 meshLine := by
  refine ⟨by simp [meshLine], fun i => ?_⟩
  fin_cases i <;> simp [meshLine] <;> norm_num

theorem meshCell_good {x d : ℝ} (h0 : 0 ≤ x) (h1 : x < 1) (h2 : 0 ≤ d) (h3 : d < 0.49) :
    GoodPart 1 ((meshCell x d).pos, (meshCell x d).h) := by
  norm_num at h3
  refine ⟨fun i => ?_, by norm_num [meshCell], by norm_num [meshCell]⟩
  fin_cases i <;> simp [meshCell] <;> constructor <;> linarith

theorem nearestCell_two {box a b : ℝ} (ha : a < box) :
    nearestCell box [a, b] = if b < a then 1 else 0 := by
  simp only [nearestCell, List.foldl_cons, List.foldl_nil, nearestStep]
  rw [if_pos ha]
  simp only
  split <;> rfl

/-- The cell chosen at `xp` out of two. -/
noncomputable def pick (x0 d0 x1 d1 xp : ℝ) : ℕ :=
  if wrapAbs 1 (x1 - xp) ^ 2 + d1 ^ 2 < wrapAbs 1 (x0 - xp) ^ 2 + d0 ^ 2 then 1 else 0

theorem wrapAbs_small {d : ℝ} (h0 : 0 ≤ d) (h1 : d < 0.49) : wrapAbs 1 d = d := by
  norm_num at h1
  unfold wrapAbs
  rw [abs_of_nonneg h0, if_neg (by linarith)]

theorem wrapAbs_bound {d : ℝ} (h : |d| ≤ 1) : 0 ≤ wrapAbs 1 d ∧ wrapAbs 1 d ≤ 1 / 2 := by
  unfold wrapAbs
  have := abs_nonneg d
  split <;> constructor <;> linarith

theorem meshDist {x d xp : ℝ} (h2 : 0 ≤ d) (h3 : d < 0.49) :
    cellDist 1 meshLine (meshCell x d).pos x xp = √(wrapAbs 1 (x - xp) ^ 2 + d ^ 2) := by
  have e1 : coordMod (meshCell x d).pos 1 - coordMod meshLine.cofm 1 = d := by
    simp [coordMod, meshCell, meshLine]
  have e2 : coordMod (meshCell x d).pos (1 + 1) - coordMod meshLine.cofm (1 + 1) = 0 := by
    simp [coordMod, meshCell, meshLine]
  have e3 : wrapAbs 1 0 = 0 := wrapAbs_small le_rfl (by norm_num)
  have hx : meshLine.axis = 1 := rfl
  unfold cellDist
  simp only [hx]
  rw [e1, e2, e3, wrapAbs_small h2 h3]
  congr 1; ring

theorem ten : ⌊(1 : ℝ) / RESO⌋.toNat = 10 := by
  have : ⌊(1 : ℝ) / RESO⌋ = 10 := by
    rw [Int.floor_eq_iff]; norm_num [RESO]
  rw [this]; rfl

theorem assign_two {x0 d0 x1 d1 : ℝ} (hd0 : 0 ≤ d0) (hd0' : d0 < 0.49) (hd1 : 0 ≤ d1) (hd1' : d1 < 0.49)
    (hx0 : 0 ≤ x0) (hx0' : x0 < 1) (e0 e1 : ℝ) :
    assign_cells 1 meshLine [meshCell x0 d0, meshCell x1 d1] [(0, e0), (1, e1)] =
      (assignLoop 1 (1 / 10) (fun xp => if 0 ≤ xp ∧ xp ≤ 1 then pick x0 d0 x1 d1 xp else
        nearestCell 1 [√(wrapAbs 1 (x0 - xp) ^ 2 + d0 ^ 2), √(wrapAbs 1 (x1 - xp) ^ 2 + d1 ^ 2)]) 10 0
        [(3, 3), (3, 3)]).map (fun arr => arr.map (fun c => (c.1 - 0.5 * (1 / 10), c.2 + 0.5 * (1 / 10)))) := by
  have hsel : (fun xp => nearestCell 1 [√(wrapAbs 1 (x0 - xp) ^ 2 + d0 ^ 2),
      √(wrapAbs 1 (x1 - xp) ^ 2 + d1 ^ 2)]) = (fun xp => if 0 ≤ xp ∧ xp ≤ 1 then pick x0 d0 x1 d1 xp else
        nearestCell 1 [√(wrapAbs 1 (x0 - xp) ^ 2 + d0 ^ 2), √(wrapAbs 1 (x1 - xp) ^ 2 + d1 ^ 2)]) := by
    funext xp
    split
    · rename_i h
      obtain ⟨w0, w1⟩ := wrapAbs_bound (d := x0 - xp) (abs_le.2 ⟨by linarith, by linarith⟩)
      norm_num at hd0'
      rw [nearestCell_two]
      · unfold pick
        simp only [Real.sqrt_lt_sqrt_iff (show 0 ≤ wrapAbs 1 (x1 - xp) ^ 2 + d1 ^ 2 by positivity)]
      · rw [Real.sqrt_lt' one_pos]
        nlinarith
    · rfl
  rw [← hsel]
  unfold assign_cells
  have c0 : coord (meshCell x0 d0).pos meshLine.axis = .ok x0 := rfl
  have c1 : coord (meshCell x1 d1).pos meshLine.axis = .ok x1 := rfl
  have r : List.mapM (fun it : ℕ × ℝ => readAt [meshCell x0 d0, meshCell x1 d1] (it.1 : ℤ))
      [(0, e0), (1, e1)] = .ok [meshCell x0 d0, meshCell x1 d1] := rfl
  rw [r, ok_bind]
  have r2 : List.mapM (fun p : Part => coord p.pos meshLine.axis) [meshCell x0 d0, meshCell x1 d1] =
      .ok [x0, x1] := rfl
  rw [r2, ok_bind]
  simp only [ten, List.zip_cons_cons, List.zip_nil_left, List.map_cons, List.map_nil,
    meshDist hd0 hd0', meshDist hd1 hd1', List.length_cons, List.length_nil, List.replicate]
  norm_num
  cases assignLoop 1 (1 / 10) _ 10 0 [((3 : ℝ), (3 : ℝ)), (3, 3)] <;> rfl

theorem loop_next {sel : ℝ → ℕ} {n i k : ℕ} {arr arr' : List (ℝ × ℝ)} {c : ℝ × ℝ} (xp : ℝ)
    (hxp : ((i : ℝ) + 0.5) * (1 / 10) = xp) (hx : sel xp = k)
    (hc : arr[k]? = some c) (h1 : ¬(c.1 < 1 / 10 ∧ xp > 1 / 2 + 0.5 * (1 / 10)))
    (h2 : ¬xp > 1.5 * (1 / 10) + c.2) (hn : arr.set k (if c.1 > 2 * 1 then xp else c.1, xp) = arr') :
    assignLoop 1 (1 / 10) sel (n + 1) i arr = assignLoop 1 (1 / 10) sel n (i + 1) arr' := by
  rw [assignLoop]
  simp only [hxp, hx, cellStep, hc]
  rw [if_neg h1, if_neg h2]
  simp only [hn]

theorem loop_brk {sel : ℝ → ℕ} {n i k : ℕ} {arr arr' : List (ℝ × ℝ)} {c : ℝ × ℝ} (xp : ℝ)
    (hxp : ((i : ℝ) + 0.5) * (1 / 10) = xp) (hx : sel xp = k)
    (hc : arr[k]? = some c) (h1 : c.1 < 1 / 10 ∧ xp > 1 / 2 + 0.5 * (1 / 10))
    (hn : arr.set k (xp, c.2 + 1) = arr') :
    assignLoop 1 (1 / 10) sel (n + 1) i arr = .ok arr' := by
  rw [assignLoop]
  simp only [hxp, hx, cellStep, hc]
  rw [if_pos h1]
  simp only [hn]

theorem loop_exit {sel : ℝ → ℕ} {n i k : ℕ} {arr : List (ℝ × ℝ)} {c : ℝ × ℝ} (xp : ℝ)
    (hxp : ((i : ℝ) + 0.5) * (1 / 10) = xp) (hx : sel xp = k)
    (hc : arr[k]? = some c) (h1 : ¬(c.1 < 1 / 10 ∧ xp > 1 / 2 + 0.5 * (1 / 10)))
    (h2 : xp > 1.5 * (1 / 10) + c.2) :
    assignLoop 1 (1 / 10) sel (n + 1) i arr = .error (.exit 1) := by
  rw [assignLoop]
  simp only [hxp, hx, cellStep, hc]
  rw [if_neg h1, if_pos h2]

theorem meshTrans {x d : ℝ} (h0 : 0 ≤ x) (h1 : x < 1) (h2 : 0 ≤ d) (h3 : d < 0.49) :
    transDist2 1 meshLine.axis (meshCell x d).pos meshLine.cofm = d ^ 2 := by
  have hg := meshCell_good h0 h1 h2 h3
  have hb : ∀ i, |(meshCell x d).pos i - meshLine.cofm i| ≤ 1 := fun i =>
    abs_le.2 ⟨by linarith [(hg.1 i).1, (meshLine_good.2 i).2],
      by linarith [(hg.1 i).2, (meshLine_good.2 i).1]⟩
  rw [transDist2_eq meshLine_good.1, ← wrapDist_eq_perDist (by norm_num) (hb _),
    ← wrapDist_eq_perDist (by norm_num) (hb _)]
  norm_num at h3
  have : ¬ (0.5 < d) := by norm_num; linarith
  simp [wrapDist, c1, c2, meshCell, meshLine, abs_of_nonneg h2, this]
  norm_num

theorem mesh_near {x d : ℝ} (h0 : 0 ≤ x) (h1 : x < 1) (h2 : 0 ≤ d) (h3 : d < 0.49) :
    StdMap.find? (get_near_lines (build [meshLine] 1) (meshCell x d).pos (meshCell x d).h) 0 =
      some (d ^ 2) := by
  have hg := meshCell_good h0 h1 h2 h3
  have hd := meshTrans h0 h1 h2 h3
  have hn := near_line_found (box := 1) one_pos (lines := [meshLine]) (by simpa using meshLine_good) hg
    (k := 0) rfl (by
      change transDist2 1 meshLine.axis (meshCell x d).pos meshLine.cofm < (meshCell x d).h ^ 2
      rw [hd]; simp only [meshCell]; nlinarith)
  rw [← hd]; exact hn

theorem mesh_pointDist2 {x d xp : ℝ} (h0 : 0 ≤ x) (h1 : x < 1) (h2 : 0 ≤ d) (h3 : d < 0.49) (h4 : 0 ≤ xp)
    (h5 : xp ≤ 1) : pointDist2 1 meshLine (meshCell x d).pos xp = wrapAbs 1 (x - xp) ^ 2 + d ^ 2 := by
  unfold pointDist2
  rw [meshTrans h0 h1 h2 h3]
  have : axisCoord (meshCell x d).pos meshLine.axis = x := rfl
  rw [this, wrapAbs_eq one_pos (abs_le.2 ⟨by linarith, by linarith⟩)]

theorem mesh_near_two {x0 d0 x1 d1 : ℝ} (hx0 : 0 ≤ x0) (hx0' : x0 < 1) (hd0 : 0 ≤ d0) (hd0' : d0 < 0.49)
    (hx1 : 0 ≤ x1) (hx1' : x1 < 1) (hd1 : 0 ≤ d1) (hd1' : d1 < 0.49) :
    get_near_particles (build [meshLine] 1) (posH [meshCell x0 d0, meshCell x1 d1]) =
      [[(0, d0 ^ 2), (1, d1 ^ 2)]] := by
  unfold get_near_particles
  rw [get_near_particles_sched_eq _ _ _ (List.Perm.refl _), build_lines]
  have r1 : List.range (posH [meshCell x0 d0, meshCell x1 d1]).length = [0, 1] := rfl
  change [nearList (build [meshLine] 1) (posH [meshCell x0 d0, meshCell x1 d1]) 0] = _
  unfold nearList
  rw [r1]
  simp only [posH, List.map_cons, List.map_nil, List.filterMap_cons, List.filterMap_nil,
    List.getElem?_cons_zero, List.getElem?_cons_succ, Option.bind_some,
    mesh_near hx0 hx0' hd0 hd0', mesh_near hx1 hx1' hd1 hd1', Option.map_some]

/-- Both interpolations of a single sightline fail as the assignment of cells does. -/
theorem overLines_error (body : ℕ → Line → List ((ℕ × ℝ) × (ℝ × ℝ)) → List ℝ → CRes (List ℝ))
    {parts : List Part} {nearby : StdMap ℝ} {e : CErr} (out : List ℝ)
    (hn : get_near_particles (build [meshLine] 1) (posH parts) = [nearby])
    (h : assign_cells 1 meshLine parts nearby = .error e) :
    overLines body VORONOI_MESH 1 [meshLine] parts out = .error e := by
  unfold overLines
  have h0 : List.range [nearby].length = [0] := rfl
  simp only [hn, h0, List.foldlM_cons]
  have h1 : readAt [nearby] ((0 : ℕ) : ℤ) = .ok nearby := rfl
  have h2 : readAt [meshLine] ((0 : ℕ) : ℤ) = .ok meshLine := rfl
  rw [h1, ok_bind, h2, ok_bind]
  unfold lineEntries
  rw [if_pos rfl, h]
  rfl

/-- Evaluates the choice between the two cells at a given sample point. -/
macro "sel_eval" : tactic => `(tactic| (
  norm_num [pick, wrapAbs, abs_of_nonneg, abs_of_nonpos]))

/-- The program works on two equal cells. -/
theorem assign_equal (e0 e1 : ℝ) :
    assign_cells 1 meshLine [meshCell 0.25 0, meshCell 0.75 0] [(0, e0), (1, e1)] =
      .ok [(0, 0.5), (0.5, 1)] := by
  rw [assign_two (by norm_num) (by norm_num) (by norm_num) (by norm_num) (by norm_num) (by norm_num)]
  rw [loop_next (k := 0) 0.05 (by norm_num) (by sel_eval) rfl (by norm_num) (by norm_num) rfl,
    loop_next (k := 0) 0.15 (by norm_num) (by sel_eval) rfl (by norm_num) (by norm_num) rfl,
    loop_next (k := 0) 0.25 (by norm_num) (by sel_eval) rfl (by norm_num) (by norm_num) rfl,
    loop_next (k := 0) 0.35 (by norm_num) (by sel_eval) rfl (by norm_num) (by norm_num) rfl,
    loop_next (k := 0) 0.45 (by norm_num) (by sel_eval) rfl (by norm_num) (by norm_num) rfl,
    loop_next (k := 1) 0.55 (by norm_num) (by sel_eval) rfl (by norm_num) (by norm_num) rfl,
    loop_next (k := 1) 0.65 (by norm_num) (by sel_eval) rfl (by norm_num) (by norm_num) rfl,
    loop_next (k := 1) 0.75 (by norm_num) (by sel_eval) rfl (by norm_num) (by norm_num) rfl,
    loop_next (k := 1) 0.85 (by norm_num) (by sel_eval) rfl (by norm_num) (by norm_num) rfl,
    loop_next (k := 1) 0.95 (by norm_num) (by sel_eval) rfl (by norm_num) (by norm_num) rfl]
  rw [assignLoop]
  simp only [Except.map, List.set, List.map_cons, List.map_nil]
  norm_num

/-- C09 fails, case 1: a cell that lies across the edge of the box and is nearest to more than half of
the sightline makes the program stop with `exit(1)`, for any interpolator, in both interpolations. -/
theorem assignment_stops : ∃ parts : List Part, (∀ p ∈ parts, GoodPart 1 (p.pos, p.h)) ∧
    GoodLine 1 meshLine ∧
    ∀ (L : LineAbsorption), L.kernel = VORONOI_MESH → ∀ (nbins : ℕ) (out : List ℝ),
      compute_colden L nbins 1 [meshLine] parts out = .error (.exit 1) ∧
      compute_tau L nbins 1 [meshLine] parts out = .error (.exit 1) := by
  refine ⟨[meshCell 0.8 0, meshCell 0.3 0.4], ?_, meshLine_good, ?_⟩
  · intro p hp
    simp only [List.mem_cons, List.not_mem_nil, or_false] at hp
    rcases hp with rfl | rfl <;> apply meshCell_good <;> norm_num
  · intro L hL nbins out
    have hn := mesh_near_two (x0 := 0.8) (d0 := 0) (x1 := 0.3) (d1 := 0.4) (by norm_num) (by norm_num)
      (by norm_num) (by norm_num) (by norm_num) (by norm_num) (by norm_num) (by norm_num)
    have he : assign_cells 1 meshLine [meshCell 0.8 0, meshCell 0.3 0.4] [(0, 0 ^ 2), (1, 0.4 ^ 2)] =
        .error (.exit 1) := by
      rw [assign_two (by norm_num) (by norm_num) (by norm_num) (by norm_num) (by norm_num) (by norm_num)]
      rw [loop_next (k := 0) 0.05 (by norm_num) (by sel_eval) rfl (by norm_num) (by norm_num) rfl,
        loop_next (k := 0) 0.15 (by norm_num) (by sel_eval) rfl (by norm_num) (by norm_num) rfl,
        loop_next (k := 1) 0.25 (by norm_num) (by sel_eval) rfl (by norm_num) (by norm_num) rfl,
        loop_next (k := 1) 0.35 (by norm_num) (by sel_eval) rfl (by norm_num) (by norm_num) rfl,
        loop_exit (k := 0) 0.45 (by norm_num) (by sel_eval) rfl (by norm_num) (by norm_num)]
      rfl
    unfold compute_colden compute_tau
    rw [hL]
    exact ⟨overLines_error _ out hn he, overLines_error _ out hn he⟩

/-- C09 fails, case 2: a cell that starts at the edge of the box and is nearest to more than half of
the sightline takes the rest of it too: here the point at 0.85 is in the segment of cell 0, at distance
0.45, although the centre of cell 1 is at distance 0.3 from it; cell 1 gets nothing. -/
theorem assignment_swallows (e0 e1 : ℝ) : ∃ s0 s1 : ℝ × ℝ,
    assign_cells 1 meshLine [meshCell 0.3 0, meshCell 0.85 0.3] [(0, e0), (1, e1)] = .ok [s0, s1] ∧
    Covers 1 s0 0.85 ∧ ¬Used 1 s1 ∧
    pointDist2 1 meshLine (meshCell 0.85 0.3).pos 0.85 < pointDist2 1 meshLine (meshCell 0.3 0).pos 0.85 := by
  refine ⟨(0.6, 1.6), (2.95, 3.05), ?_, ?_, ?_, ?_⟩
  · rw [assign_two (by norm_num) (by norm_num) (by norm_num) (by norm_num) (by norm_num) (by norm_num)]
    rw [loop_next (k := 0) 0.05 (by norm_num) (by sel_eval) rfl (by norm_num) (by norm_num) rfl,
      loop_next (k := 0) 0.15 (by norm_num) (by sel_eval) rfl (by norm_num) (by norm_num) rfl,
      loop_next (k := 0) 0.25 (by norm_num) (by sel_eval) rfl (by norm_num) (by norm_num) rfl,
      loop_next (k := 0) 0.35 (by norm_num) (by sel_eval) rfl (by norm_num) (by norm_num) rfl,
      loop_next (k := 0) 0.45 (by norm_num) (by sel_eval) rfl (by norm_num) (by norm_num) rfl,
      loop_next (k := 0) 0.55 (by norm_num) (by sel_eval) rfl (by norm_num) (by norm_num) rfl,
      loop_brk (k := 0) 0.65 (by norm_num) (by sel_eval) rfl (by norm_num) rfl]
    simp only [Except.map, List.set, List.map_cons, List.map_nil]
    norm_num
  · exact ⟨by unfold Used; norm_num, 0, by norm_num, by norm_num⟩
  · unfold Used; norm_num
  · rw [mesh_pointDist2 (by norm_num) (by norm_num) (by norm_num) (by norm_num) (by norm_num) (by norm_num),
      mesh_pointDist2 (by norm_num) (by norm_num) (by norm_num) (by norm_num) (by norm_num) (by norm_num)]
    norm_num [wrapAbs]

/-- C09 fails, case 3: a sightline without any near cell makes the program write outside the array. -/
theorem no_cells_out_of_bounds {box : ℝ} (hbox : 0.1 ≤ box) (line : Line) (parts : List Part) :
    assign_cells box line parts [] = .error .outOfBounds := by
  unfold assign_cells
  have hN : 0 < ⌊box / RESO⌋.toNat := sampleCount_pos hbox
  have r : List.mapM (fun it : ℕ × ℝ => readAt parts (it.1 : ℤ)) [] = .ok [] := rfl
  have r2 : List.mapM (fun p : Part => coord p.pos line.axis) [] = .ok [] := rfl
  rw [r, ok_bind, r2, ok_bind]
  obtain ⟨n, hn⟩ := Nat.exists_eq_succ_of_ne_zero hN.ne'
  simp only [hn, Nat.succ_eq_add_one, assignLoop, cellStep]
  rfl

theorem foldl_add_zero {α : Type} (f : ℝ → α → ℝ) (xs : List α) (h : ∀ a x, f a x = a) (a : ℝ) :
    xs.foldl f a = a := by
  induction xs generalizing a with
  | nil => rfl
  | cons x xs ih => rw [List.foldl_cons, h, ih]

/-- C09 fails for the optical depth: a cell whose segment starts at the edge of the box, at 0, adds
nothing to the spectrum, whatever its density, temperature and length. -/
theorem edge_cell_no_tau (L : LineAbsorption) (hk : L.kernel = VORONOI_MESH) {off nbins : ℕ}
    (hn : 0 < nbins) {a : List ℝ} (ha : off + nbins ≤ a.length) (dens ppos pvel temp hi : ℝ) :
    add_tau_particle L a off nbins 0 dens ppos pvel temp hi = .ok a := by
  rw [add_tau_eq L hn ha]
  have hz : ∀ pos1 z, tauPixel L nbins 0 dens pos1 pvel temp hi z = 0 := by
    intro pos1 z
    have hin : ∀ (b aa v : ℝ), SingleAbsorber.tau_kern_inner
        ⟨L.profile, b, 0, L.velfac * hi, aa, L.kernel⟩ v = 0 := by
      intro b aa v
      have : SingleAbsorber.m_vhigh ⟨L.profile, b, 0, L.velfac * hi, aa, L.kernel⟩ = 0 := by
        simp only [SingleAbsorber.m_vhigh]
        rw [if_pos hk, if_neg (by simp)]
      simp only [SingleAbsorber.tau_kern_inner, this]
      simp
    unfold tauPixel
    simp only [hk, ne_eq, not_true_eq_false, if_false, mul_zero]
    rw [← hk]
    unfold SingleAbsorber.tau_kern_outer
    simp only [hin, add_zero, zero_div]
    rw [foldl_add_zero _ _ (fun _ _ => rfl)]
    simp
  have : tauF L off nbins 0 dens ppos pvel temp hi = fun _ => 0 := by
    funext m
    unfold tauF
    simp only [funext (hz _)]
    split
    · rfl
    · split
      · rfl
      · unfold pixelSum
        simp
  rw [this, arrAdd_zero]

/-- The case happens: the first of the two equal cells has such a segment, of half the box. -/
theorem edge_cell_reached (L : LineAbsorption) (hk : L.kernel = VORONOI_MESH) {nbins : ℕ}
    (hn : 0 < nbins) (dens ppos pvel temp e0 e1 : ℝ) : ∃ s0 s1 : ℝ × ℝ,
    assign_cells 1 meshLine [meshCell 0.25 0, meshCell 0.75 0] [(0, e0), (1, e1)] = .ok [s0, s1] ∧
      usedLength 1 s0 = 1 / 2 ∧
      add_tau_particle L (List.replicate nbins 0) 0 nbins s0.1 dens ppos pvel temp s0.2 =
        .ok (List.replicate nbins 0) := by
  refine ⟨_, _, assign_equal e0 e1, ?_, edge_cell_no_tau L hk hn (by simp) _ _ _ _ _⟩
  unfold usedLength Used
  norm_num

/-- Witness for `segments_tile`. -/
example : ∃ segs, assign_cells 1 meshLine [meshCell 0.25 0, meshCell 0.75 0] [(0, 0), (1, 0)] = .ok segs ∧
    (segs.map (usedLength 1)).sum = 1 :=
  ⟨_, assign_equal 0 0, (segments_tile (by norm_num) (assign_equal 0 0)).2.2.1⟩

noncomputable def meshAbs : LineAbsorption := ⟨fun _ _ => 1, 0, 1, 1, 1, 1, 1, VORONOI_MESH⟩

/-- Witness for `mesh_column`: two cells of unit density give a column of the box size. -/
theorem mesh_column_witness : ∃ r, compute_colden meshAbs 4 1 [meshLine]
    [meshCell 0.25 0, meshCell 0.75 0] (List.replicate (1 * 4) 0) = .ok r ∧
      (lineSpectrum r 4 0).sum = 1 := by
  have hn := mesh_near_two (x0 := 0.25) (d0 := 0) (x1 := 0.75) (d1 := 0) (by norm_num) (by norm_num)
      (by norm_num) (by norm_num) (by norm_num) (by norm_num) (by norm_num) (by norm_num)
  have hok : ∃ r, compute_colden meshAbs 4 1 [meshLine]
      [meshCell 0.25 0, meshCell 0.75 0] (List.replicate (1 * 4) 0) = .ok r := by
    unfold compute_colden overLines
    have h0 : ∀ nearby : StdMap ℝ, List.range [nearby].length = [0] := fun _ => rfl
    simp only [hn, h0, List.foldlM_cons]
    have h1 : ∀ nearby : StdMap ℝ, readAt [nearby] ((0 : ℕ) : ℤ) = .ok nearby := fun _ => rfl
    have h2 : readAt [meshLine] ((0 : ℕ) : ℤ) = .ok meshLine := rfl
    rw [h1, ok_bind, h2, ok_bind]
    unfold lineEntries
    have hk : meshAbs.kernel = VORONOI_MESH := rfl
    rw [if_pos hk, assign_equal, ok_bind, ok_bind]
    simp only [List.zip_cons_cons, List.zip_nil_left, coldenLine, List.foldlM_cons, List.foldlM_nil]
    have h3 : readAt [meshCell 0.25 0, meshCell 0.75 0] ((0 : ℕ) : ℤ) = .ok (meshCell 0.25 0) := rfl
    have h4 : readAt [meshCell 0.25 0, meshCell 0.75 0] ((1 : ℕ) : ℤ) = .ok (meshCell 0.75 0) := rfl
    rw [h3, ok_bind, h4]
    have h5 : ∀ x d, coord (meshCell x d).pos meshLine.axis = .ok x := fun _ _ => rfl
    have h6 : meshAbs.kernel = VORONOI_MESH := rfl
    rw [h5, ok_bind, if_pos h6, add_colden_eq _ (by norm_num) (by simp), ok_bind, ok_bind, h5, ok_bind,
      if_pos h6, add_colden_eq _ (by norm_num) (by simp), ok_bind]
    exact ⟨_, rfl⟩
  obtain ⟨r, hr⟩ := hok
  refine ⟨r, hr, ?_⟩
  obtain ⟨w, -, -, h3, h4⟩ := mesh_column meshAbs
    ⟨by norm_num [meshAbs], by norm_num [meshAbs], by norm_num [meshAbs], by norm_num [meshAbs]⟩ rfl
    (by norm_num) (by norm_num) (by norm_num [meshAbs]) (by simp [meshLine]) hr (i := 0) rfl
  rw [h4, ← h3]
  apply Finset.sum_congr rfl
  intro k _
  have : [meshCell 0.25 0, meshCell 0.75 0][k].dens = 1 := by
    fin_cases k <;> rfl
  rw [this, one_mul]

open Classical in
theorem mesh_half (k : ℕ) (hk : IsNearest 1 meshLine [meshCell 0.25 0, meshCell 0.75 0] k (samplePoint 1 0)) :
    2 * ((Finset.range (sampleCount 1)).filter (fun j => IsNearest 1 meshLine
      [meshCell 0.25 0, meshCell 0.75 0] k (samplePoint 1 j))).card ≤ sampleCount 1 := by
  have hc : sampleCount 1 = 10 := ten
  have hs : ∀ j : ℕ, samplePoint 1 j = (j + 1 / 2) / 10 := by
    intro j; unfold samplePoint sampleStep; rw [hc]; push_cast; ring
  have hd0 : ∀ x : ℝ, 0 ≤ x → x ≤ 1 → pointDist2 1 meshLine (meshCell 0.25 0).pos x =
      wrapAbs 1 (0.25 - x) ^ 2 + 0 ^ 2 := fun x h h' =>
    mesh_pointDist2 (by norm_num) (by norm_num) (by norm_num) (by norm_num) h h'
  have hd1 : ∀ x : ℝ, 0 ≤ x → x ≤ 1 → pointDist2 1 meshLine (meshCell 0.75 0).pos x =
      wrapAbs 1 (0.75 - x) ^ 2 + 0 ^ 2 := fun x h h' =>
    mesh_pointDist2 (by norm_num) (by norm_num) (by norm_num) (by norm_num) h h'
  have hk0 : k = 0 := by
    obtain ⟨p, hp, hm⟩ := hk
    match k, hp with
    | 0, _ => rfl
    | 1, hp =>
      simp only [List.getElem?_cons_succ, List.getElem?_cons_zero, Option.some.injEq] at hp
      subst hp
      have := hm (meshCell 0.25 0) (by simp)
      rw [hs, hd0 _ (by norm_num) (by norm_num), hd1 _ (by norm_num) (by norm_num)] at this
      norm_num [wrapAbs] at this
    | k + 2, hp => simp at hp
  subst hk0
  rw [hc]
  have hsub : (Finset.range 10).filter (fun j => IsNearest 1 meshLine
      [meshCell 0.25 0, meshCell 0.75 0] 0 (samplePoint 1 j)) ⊆ Finset.range 5 := by
    intro j hj
    rw [Finset.mem_filter, Finset.mem_range] at hj
    obtain ⟨hj, p, hp, hm⟩ := hj
    simp only [List.getElem?_cons_zero, Option.some.injEq] at hp
    subst hp
    rw [Finset.mem_range]
    by_contra hc
    have := hm (meshCell 0.75 0) (by simp)
    rw [hs] at this
    interval_cases j <;> first
      | omega
      | (rw [hd0 _ (by norm_num) (by norm_num), hd1 _ (by norm_num) (by norm_num)] at this
         norm_num [wrapAbs] at this)
  have := Finset.card_le_card hsub
  rw [Finset.card_range] at this
  omega

theorem mesh_good_two : ∀ p ∈ [meshCell 0.25 0, meshCell 0.75 0], GoodPart 1 (p.pos, p.h) := by
  intro p hp
  simp only [List.mem_cons, List.not_mem_nil, or_false] at hp
  rcases hp with rfl | rfl <;> apply meshCell_good <;> norm_num

/-- Witness for `segments_nearest_partial`: the condition holds of the two equal cells. -/
example : ∃ segs, assign_cells 1 meshLine [meshCell 0.25 0, meshCell 0.75 0] [(0, 0), (1, 0)] = .ok segs ∧
    ∀ j < sampleCount 1, ∀ k seg, segs[k]? = some seg → Covers 1 seg (samplePoint 1 j) →
        IsNearest 1 meshLine [meshCell 0.25 0, meshCell 0.75 0] k (samplePoint 1 j) := by
  obtain ⟨segs, h1, -, h2⟩ := segments_nearest_partial (box := 1) (by norm_num) meshLine_good
    (parts := [meshCell 0.25 0, meshCell 0.75 0]) (cells := [meshCell 0.25 0, meshCell 0.75 0])
    (nearby := [(0, 0), (1, 0)]) (by simp) (by simp) (fun p hp => (mesh_good_two p hp).1) mesh_half
  exact ⟨segs, h1, h2⟩

/-- Witness for `mesh_column_nearest_partial`. -/
example : ∃ r, compute_colden meshAbs 4 1 [meshLine] [meshCell 0.25 0, meshCell 0.75 0]
    (List.replicate (1 * 4) 0) = .ok r := by
  have ht : ∀ p ∈ [meshCell 0.25 0, meshCell 0.75 0],
      transDist2 1 meshLine.axis p.pos meshLine.cofm < p.h ^ 2 := by
    intro p hp
    simp only [List.mem_cons, List.not_mem_nil, or_false] at hp
    rcases hp with rfl | rfl <;>
      rw [meshTrans (by norm_num) (by norm_num) (by norm_num) (by norm_num)] <;> norm_num [meshCell]
  have hnc : nearCells 1 meshLine [meshCell 0.25 0, meshCell 0.75 0] =
      [meshCell 0.25 0, meshCell 0.75 0] := by
    unfold nearCells
    rw [List.filter_eq_self]
    intro p hp
    rw [decide_eq_true_eq]
    exact ht p hp
  have hl : ∀ l ∈ [meshLine], l = meshLine := by simp
  obtain ⟨r, h, -⟩ := mesh_column_nearest_partial meshAbs
    ⟨by norm_num [meshAbs], by norm_num [meshAbs], by norm_num [meshAbs], by norm_num [meshAbs]⟩ rfl
    (nbins := 4) (by norm_num) (box := 1) (by norm_num) (by norm_num [meshAbs]) (lines := [meshLine])
    (by simpa using meshLine_good) mesh_good_two
    (by intro l h p hp; rw [hl l h]; exact (ht p hp).ne)
    (by intro l h; rw [hl l h, hnc]; simp)
    (by intro l h; rw [hl l h, hnc]; exact mesh_half)
  exact ⟨r, h⟩

example := no_cells_out_of_bounds (box := 1) (by norm_num) meshLine [meshCell 0.25 0]

example := edge_cell_no_tau meshAbs rfl (off := 0) (nbins := 4) (by norm_num) (a := [0, 0, 0, 0]) (by simp) 1 0.25 0 1e4 0.5

end Verif.Props
