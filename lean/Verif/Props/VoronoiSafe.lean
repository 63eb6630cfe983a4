import Verif.Props.VoronoiCases
import Verif.Props.PyModule

/-!
C19 for the Voronoi kernel: the extension module stays inside its arrays as long as every sightline has a cell near it.
-/

namespace Verif.Props.VoronoiSafe
open Verif Verif.Spec Verif.ComputeSpectra Verif.PartInt Verif.IndexTable Verif.Absorption Verif.PyModule Verif.Props.PyModule

/-- A result with a given property, or the program was ended by `exit(1)`. -/
def OkOrExit {α : Type} (P : α → Prop) (r : CRes α) : Prop := (∃ a, r = .ok a ∧ P a) ∨ r = .error (.exit 1)

theorem OkOrExit.bind {α β : Type} {P : α → Prop} {Q : β → Prop} {r : CRes α} {f : α → CRes β} (h : OkOrExit P r)
    (hf : ∀ a, P a → OkOrExit Q (f a)) : OkOrExit Q (r >>= f) := by
  rcases h with ⟨a, rfl, ha⟩ | rfl
  · exact hf a ha
  · exact Or.inr rfl

theorem nearestCell_lt (box : ℝ) {dists : List ℝ} (h : dists ≠ []) : nearestCell box dists < dists.length := by
  have key : ∀ (ds : List ℝ) (m : ℝ) (k i : ℕ), (ds.foldl nearestStep (m, k, i)).2.1 = k ∨
      (i ≤ (ds.foldl nearestStep (m, k, i)).2.1 ∧ (ds.foldl nearestStep (m, k, i)).2.1 < i + ds.length) := by
    intro ds
    induction ds with
    | nil => intro m k i; exact Or.inl rfl
    | cons d ds ih =>
      intro m k i
      rw [List.foldl_cons, List.length_cons]
      have hst : nearestStep (m, k, i) d = if d < m then (d, i, i + 1) else (m, k, i + 1) := rfl
      rw [hst]
      split_ifs
      · rcases ih d i (i + 1) with h | ⟨h1, h2⟩
        · exact Or.inr ⟨by rw [h], by rw [h]; omega⟩
        · exact Or.inr ⟨by omega, by omega⟩
      · rcases ih m k (i + 1) with h | ⟨h1, h2⟩
        · exact Or.inl h
        · exact Or.inr ⟨by omega, by omega⟩
  have hp := List.length_pos_of_ne_nil h
  unfold nearestCell
  rcases key dists box 0 0 with h | ⟨-, h2⟩
  · rw [h]; exact hp
  · simpa using h2

theorem assignLoop_safe (box reso : ℝ) (sel : ℝ → ℕ) (n i : ℕ) (arr : List (ℝ × ℝ)) (hs : ∀ x, sel x < arr.length) :
    OkOrExit (fun r => r.length = arr.length) (assignLoop box reso sel n i arr) := by
  induction n generalizing i arr with
  | zero => exact Or.inl ⟨arr, rfl, rfl⟩
  | succ n ih =>
    have next : ∀ k v, OkOrExit (fun r => r.length = arr.length) (assignLoop box reso sel n (i + 1) (arr.set k v)) := by
      intro k v
      have := ih (i + 1) (arr.set k v) (by intro x; rw [List.length_set]; exact hs x)
      rw [List.length_set] at this
      exact this
    rw [assignLoop]
    unfold cellStep
    rw [List.getElem?_eq_getElem (hs _)]
    simp only
    split_ifs
    · exact Or.inl ⟨_, rfl, by simp⟩
    · exact Or.inr rfl
    · exact next _ _
    · exact next _ _

theorem assign_cells_safe (box : ℝ) {line : Line} (hax : line.axis = 1 ∨ line.axis = 2 ∨ line.axis = 3) {parts : List Part}
    {nearby : StdMap ℝ} (hne : nearby ≠ []) (hin : ∀ e ∈ nearby, ∃ p, parts[e.1]? = some p) :
    OkOrExit (fun r => r.length = nearby.length) (assign_cells box line parts nearby) := by
  unfold assign_cells
  obtain ⟨cells, hc⟩ : ∃ cells : List Part, nearby.mapM (fun it => readAt parts (it.1 : ℤ)) = .ok cells := by
    clear hne
    induction nearby with
    | nil => exact ⟨[], rfl⟩
    | cons e es ih =>
      obtain ⟨p, hp⟩ := hin e (by simp)
      obtain ⟨cs, hcs⟩ := ih (fun x hx => hin x (by simp [hx]))
      exact ⟨p :: cs, by rw [List.mapM_cons, readAt_eq hp, ok_bind, hcs, ok_bind]; rfl⟩
  have hlen := mapM_ok_length _ _ _ hc
  rw [hc, ok_bind, mapM_coord hax, ok_bind]
  have hl0 := List.length_pos_of_ne_nil hne
  refine (assignLoop_safe box _ _ _ 0 (List.replicate cells.length (3 * box, 3 * box)) ?_).bind ?_
  · intro x
    rw [List.length_replicate]
    have hz : ((cells.zip (cells.map (fun p => along p.pos line.axis))).map (fun c => cellDist box line c.1.pos c.2 x)).length = cells.length := by
      simp
    have := nearestCell_lt box (dists := (cells.zip (cells.map (fun p => along p.pos line.axis))).map
      (fun c => cellDist box line c.1.pos c.2 x)) (by
        intro h0
        rw [h0] at hz
        simp at hz
        omega)
    rw [hz] at this
    exact this
  · intro r hr
    refine Or.inl ⟨_, rfl, ?_⟩
    dsimp only
    rw [List.length_map, hr, List.length_replicate, hlen]

theorem foldlM_safe {α : Type} (step : List ℝ → α → CRes (List ℝ)) (n : ℕ) (xs : List α)
    (h : ∀ x ∈ xs, ∀ a : List ℝ, a.length = n → OkOrExit (fun r => r.length = n) (step a x)) (a : List ℝ) (ha : a.length = n) :
    OkOrExit (fun r => r.length = n) (xs.foldlM step a) := by
  induction xs generalizing a with
  | nil => exact Or.inl ⟨a, rfl, ha⟩
  | cons x xs ih =>
    rw [List.foldlM_cons]
    exact (h x (by simp) a ha).bind (fun b hb => ih (fun y hy => h y (by simp [hy])) b hb)

/-- The loop over lines is safe if its body is, given that each line has a near particle. -/
theorem overLines_safe (body : ℕ → Line → List ((ℕ × ℝ) × (ℝ × ℝ)) → List ℝ → CRes (List ℝ)) (box : ℝ) {lines : List Line}
    (hax : ∀ l ∈ lines, l.axis = 1 ∨ l.axis = 2 ∨ l.axis = 3) {parts : List Part} (n : ℕ)
    (hne : ∀ i < lines.length, nearList (build lines box) (posH parts) i ≠ [])
    (hb : ∀ j line, lines[j]? = some line → ∀ es : List ((ℕ × ℝ) × (ℝ × ℝ)), (∀ e ∈ es, ∃ p, parts[e.1.1]? = some p) →
      ∀ a : List ℝ, a.length = n → OkOrExit (fun r => r.length = n) (body j line es a)) (a : List ℝ) (ha : a.length = n) :
    OkOrExit (fun r => r.length = n) (overLines body VORONOI_MESH box lines parts a) := by
  unfold overLines
  simp only
  rw [near_particles_nearList, List.length_map, List.length_range]
  refine foldlM_safe _ n _ ?_ a ha
  intro j hj a ha
  rw [List.mem_range] at hj
  have hline : lines[j]? = some lines[j] := List.getElem?_eq_getElem hj
  have h1 : readAt ((List.range lines.length).map (nearList (build lines box) (posH parts))) (j : ℤ) =
      .ok (nearList (build lines box) (posH parts) j) := by
    apply readAt_eq
    rw [List.getElem?_map, List.getElem?_range hj]; rfl
  rw [h1, ok_bind, readAt_eq hline, ok_bind]
  unfold lineEntries
  rw [if_pos rfl]
  have hin : ∀ e ∈ nearList (build lines box) (posH parts) j, ∃ p, parts[e.1]? = some p := by
    intro e he
    obtain ⟨p, hp, -⟩ := nearList_mem he
    exact ⟨p, hp⟩
  have h2 := assign_cells_safe box (hax _ (List.getElem_mem hj)) (hne j hj) hin
  rcases h2 with ⟨segs, hs, -⟩ | hs
  · rw [hs, ok_bind, ok_bind]
    exact hb j _ hline _ (fun e he => hin _ (List.of_mem_zip he).1) a ha
  · rw [hs]
    exact Or.inr rfl

theorem compute_safe (tau : Bool) (L : LineAbsorption) (hk : L.kernel = VORONOI_MESH) {nbins : ℕ} (hn : 0 < nbins) (box : ℝ)
    {lines : List Line} (hax : ∀ l ∈ lines, l.axis = 1 ∨ l.axis = 2 ∨ l.axis = 3) {parts : List Part}
    (hne : ∀ i < lines.length, nearList (build lines box) (posH parts) i ≠ []) :
    OkOrExit (fun r => r.length = lines.length * nbins)
      (if tau then PartInt.compute_tau L nbins box lines parts (List.replicate (lines.length * nbins) 0)
        else compute_colden L nbins box lines parts (List.replicate (lines.length * nbins) 0)) := by
  cases tau with
  | false =>
    simp only [Bool.false_eq_true, if_false]
    unfold compute_colden
    rw [hk]
    refine overLines_safe _ box hax _ hne ?_ _ (by simp)
    intro j line hline es hes a ha
    have hj : j < lines.length := by
      by_contra hc; rw [List.getElem?_eq_none (by omega)] at hline; cases hline
    unfold coldenLine
    refine foldlM_safe _ _ _ ?_ a ha
    intro e he b hb
    obtain ⟨p, hp⟩ := hes e he
    rw [readAt_eq hp, ok_bind, coord_eq (hax line (List.mem_of_getElem? hline)), ok_bind, if_pos hk,
      add_colden_eq L hn (by rw [hb]; exact slice_le hj)]
    exact Or.inl ⟨_, rfl, by simpa using hb⟩
  | true =>
    simp only [if_true]
    unfold PartInt.compute_tau
    rw [hk]
    refine overLines_safe _ box hax _ hne ?_ _ (by simp)
    intro j line hline es hes a ha
    have hj : j < lines.length := by
      by_contra hc; rw [List.getElem?_eq_none (by omega)] at hline; cases hline
    unfold tauLine
    refine foldlM_safe _ _ _ ?_ a ha
    intro e he b hb
    obtain ⟨p, hp⟩ := hes e he
    rw [readAt_eq hp, ok_bind, coord_eq (hax line (List.mem_of_getElem? hline)), ok_bind, coord_eq (hax line (List.mem_of_getElem? hline)),
      ok_bind, if_pos hk, add_tau_eq L hn (by rw [hb]; exact slice_le hj)]
    exact Or.inl ⟨_, rfl, by simpa using hb⟩

/-- C19, Voronoi kernel, partial: with arrays of the documented types and shapes, and a cell of the snapshot within its search radius of
every sightline, there is a result with a row per line, or the program ends itself with `exit(1)`; nothing outside the arrays is read or
written. Missing: sightlines without such a cell (`interp_voronoi_no_cell`). -/
theorem interp_voronoi_partial (tau : Bool) {nbins : ℕ} (hn : 0 < nbins) (L : LineAbsorption) (hk : L.kernel = VORONOI_MESH) {box : ℝ}
    (hbox : 0 < box) (pos vel dens temp h : Arr ℝ) (axis : Arr ℤ) (cofm : Arr ℝ) (ht : Types pos vel dens temp h axis cofm) {n l : ℕ}
    (hs : Shapes tau pos vel dens temp h axis cofm n n n l l 3) (hax : ∀ i < l, IsAxis (axis.data.getD i 0))
    (hl : ∀ x ∈ flatLines axis.data cofm.data l, GoodLine box x)
    (hnear : ∀ x ∈ flatLines axis.data cofm.data l, ∃ p ∈ flatParts pos.data vel.data dens.data temp.data h.data n,
      GoodPart box (p.pos, p.h) ∧ transDist2 box x.axis p.pos x.cofm < p.h ^ 2) :
    (∃ out, py_particle_interpolate tau nbins L box pos vel dens temp h axis cofm = .value ([(l : ℤ), (nbins : ℤ)], out) ∧
      out.length = l * nbins) ∨
    py_particle_interpolate tau nbins L box pos vel dens temp h axis cofm = .crashed (.exit 1) := by
  set lines := flatLines axis.data cofm.data l with hlines
  set parts := flatParts pos.data vel.data dens.data temp.data h.data n with hparts
  have hll : lines.length = l := flatLines_length _ _ _
  have hne : ∀ i < lines.length, nearList (build lines box) (posH parts) i ≠ [] := by
    intro i hi h0
    have hi' : lines[i]? = some lines[i] := List.getElem?_eq_getElem hi
    obtain ⟨p, hp, hg, hd⟩ := hnear lines[i] (List.getElem_mem hi)
    have hf := near_line_found hbox hl hg hi' hd
    have hc := nearList_cells (build lines box) parts i
    rw [h0] at hc
    have hmem : p ∈ parts.filter (fun p => (StdMap.find? (get_near_lines (build lines box) p.pos p.h) i).isSome) :=
      List.mem_filter.2 ⟨hp, by rw [show StdMap.find? (get_near_lines (build lines box) p.pos p.h) i = _ from hf]; rfl⟩
    have : parts.filter (fun p => (StdMap.find? (get_near_lines (build lines box) p.pos p.h) i).isSome) = [] := by simpa using hc.symm
    rw [this] at hmem
    simp at hmem
  have hsafe := compute_safe tau L hk hn box (flatLines_axes hax) hne
  rw [hll] at hsafe
  have f1 := hs.pos.2; have f2 := hs.dens.2; have f3 := hs.h.2; have f4 := hs.axis.2; have f5 := hs.cofm.2
  unfold Full at f1 f2 f3 f4 f5
  rw [hs.pos.1] at f1; rw [hs.dens.1] at f2; rw [hs.h.1] at f3; rw [hs.axis.1] at f4; rw [hs.cofm.1] at f5
  simp only [List.prod_cons, List.prod_nil, mul_one] at f1 f2 f3 f4 f5
  rw [interp_value L box ht hs.pos.1 hs.dens.1 hs.h.1 hs.axis.1 hs.cofm.1 (by omega) (by omega) (by omega) (by omega) (by omega) ?_ ?_ hax
    vel.data temp.data (fun _ => rfl) (fun _ => rfl)]
  · rcases hsafe with ⟨out, ho, hlen⟩ | he
    · exact Or.inl ⟨out, by rw [ho]; rfl, hlen⟩
    · exact Or.inr (by rw [he]; rfl)
  · intro e
    obtain ⟨f, nv, hv, g⟩ := hs.vel e
    unfold Full at f
    rw [g] at f
    simp only [List.prod_cons, List.prod_nil, mul_one] at f
    omega
  · intro e
    obtain ⟨f, nv, hv, g⟩ := hs.temp e
    unfold Full at f
    rw [g] at f
    simp only [List.prod_cons, List.prod_nil, mul_one] at f
    omega

/-- One line along x and one cell on it, in arrays of the documented shapes: the hypotheses of `interp_voronoi_partial` can be met. -/
example : let pos : Arr ℝ := ⟨.float32, [1, 3], [1, 2, 2]⟩
    let num : Arr ℝ := ⟨.float32, [1], [1]⟩
    let axis : Arr ℤ := ⟨.int32, [1], [1]⟩
    let cofm : Arr ℝ := ⟨.float64, [1, 3], [0, 2, 2]⟩
    Types pos pos num num num axis cofm ∧ Shapes true pos pos num num num axis cofm 1 1 1 1 1 3 ∧
    (∀ i < 1, IsAxis (axis.data.getD i 0)) ∧ (∀ x ∈ flatLines axis.data cofm.data 1, GoodLine 10 x) ∧
    ∀ x ∈ flatLines axis.data cofm.data 1, ∃ p ∈ flatParts pos.data pos.data num.data num.data num.data 1,
      GoodPart 10 (p.pos, p.h) ∧ transDist2 10 x.axis p.pos x.cofm < p.h ^ 2 := by
  dsimp only
  refine ⟨⟨rfl, rfl, rfl, rfl, rfl, rfl, rfl⟩, ⟨⟨rfl, rfl⟩, ⟨rfl, rfl⟩, ⟨rfl, rfl⟩, ⟨rfl, rfl⟩, ⟨rfl, rfl⟩, fun _ => ⟨rfl, 1, le_rfl, rfl⟩,
    fun _ => ⟨rfl, 1, le_rfl, rfl⟩⟩, ?_, ?_, ?_⟩
  · intro i hi
    obtain rfl : i = 0 := by omega
    exact Or.inl rfl
  · intro x hx
    simp only [flatLines, List.range_one, List.map_cons, List.map_nil, List.mem_singleton] at hx
    subst hx
    refine ⟨Or.inl rfl, ?_⟩
    intro k
    fin_cases k <;> norm_num [flatVec]
  · intro x hx
    simp only [flatLines, List.range_one, List.map_cons, List.map_nil, List.mem_singleton] at hx
    subst hx
    refine ⟨_, by simp only [flatParts, List.range_one, List.map_cons, List.map_nil, List.mem_singleton]; rfl, ⟨?_, ?_, ?_⟩, ?_⟩
    · intro k
      fin_cases k <;> norm_num [flatVec]
    · norm_num
    · norm_num
    · norm_num [transDist2, flatVec, perDist, Fin.sum_univ_three]

/-- C19 fails for the Voronoi kernel: if no cell is found near some sightline there is never a result, whatever the arrays hold. -/
theorem interp_voronoi_no_cell (tau : Bool) (nbins : ℕ) (L : LineAbsorption) (hk : L.kernel = VORONOI_MESH) {box : ℝ}
    (hbox : 0.1 ≤ box) (lines : List Line) (parts : List Part) {i : ℕ}
    (hi : i < lines.length) (h0 : nearList (build lines box) (posH parts) i = []) (r : List ℝ) :
    (if tau then PartInt.compute_tau L nbins box lines parts (List.replicate (lines.length * nbins) 0)
        else compute_colden L nbins box lines parts (List.replicate (lines.length * nbins) 0)) ≠ .ok r := by
  have key : ∀ (body : ℕ → Line → List ((ℕ × ℝ) × (ℝ × ℝ)) → List ℝ → CRes (List ℝ)) (a : List ℝ),
      overLines body VORONOI_MESH box lines parts a ≠ .ok r := by
    intro body a
    unfold overLines
    simp only
    rw [near_particles_nearList, List.length_map, List.length_range]
    have gen : ∀ (xs : List ℕ) (step : List ℝ → ℕ → CRes (List ℝ)) (a : List ℝ), i ∈ xs → (∀ b, step b i = .error .outOfBounds) →
        xs.foldlM step a ≠ .ok r := by
      intro xs step
      induction xs with
      | nil => intro a h; simp at h
      | cons x xs ih =>
        intro a hm hst
        rw [List.foldlM_cons]
        by_cases hx : x = i
        · rw [hx, hst]; exact fun h => by cases h
        · cases hs : step a x with
          | error e => exact fun h => by cases h
          | ok b => exact ih b (by simpa [Ne.symm hx] using hm) hst
    refine gen _ _ a (List.mem_range.2 hi) ?_
    intro b
    have h1 : readAt ((List.range lines.length).map (nearList (build lines box) (posH parts))) (i : ℤ) =
        .ok (nearList (build lines box) (posH parts) i) := by
      apply readAt_eq
      rw [List.getElem?_map, List.getElem?_range hi]; rfl
    rw [h1, ok_bind, readAt_eq (List.getElem?_eq_getElem hi), ok_bind, h0]
    unfold lineEntries
    rw [if_pos rfl, no_cells_out_of_bounds hbox]
    rfl
  cases tau with
  | false => simp only [Bool.false_eq_true, if_false]; unfold compute_colden; rw [hk]; exact key _ _
  | true => simp only [if_true]; unfold PartInt.compute_tau; rw [hk]; exact key _ _

/-- A sightline and no cells at all. -/
example (r : List ℝ) := interp_voronoi_no_cell false 4 ⟨fun _ _ => 1, 0, 1, 1, 1, 1, 10, VORONOI_MESH⟩ rfl (box := 10) (by norm_num) [⟨1, fun _ => 5⟩] []
  (i := 0) (by simp) (by simp [nearList, posH]) r

end Verif.Props.VoronoiSafe
