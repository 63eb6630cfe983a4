import Verif.Model.PyModule
import Verif.Lemmas.PartInt

/-!
The extension module on arrays with enough elements computes what the models without memory compute.
-/

namespace Verif.PyModule
open Verif Verif.ComputeSpectra Verif.PartInt Verif.IndexTable Verif.Absorption

/-- Elements `3*i`, `3*i+1`, `3*i+2` of an array. -/
def flatVec (a : List ℝ) (i : ℕ) : Vec3 := fun k => a.getD (3 * i + k) 0

/-- The sightlines in the arrays `axis` and `cofm`. -/
def flatLines (axis : List ℤ) (cofm : List ℝ) (n : ℕ) : List Line := (List.range n).map (fun i => ⟨axis.getD i 0, flatVec cofm i⟩)

/-- The particles in the other arrays. -/
def flatParts (Pos Vel Dens temp h : List ℝ) (n : ℕ) : List Part :=
  (List.range n).map (fun i => ⟨flatVec Pos i, flatVec Vel i, Dens.getD i 0, temp.getD i 0, h.getD i 0⟩)

theorem readAt_getD {α : Type} {a : List α} {i : ℕ} (h : i < a.length) (d : α) : readAt a (i : ℤ) = .ok (a.getD i d) := by
  apply readAt_eq
  rw [List.getD, List.getElem?_eq_getElem h]
  rfl

theorem readAt_int {α : Type} {a : List α} {i : ℕ} {j : ℤ} (hj : j = i) (h : i < a.length) (d : α) : readAt a j = .ok (a.getD i d) := by
  rw [hj, readAt_getD h d]

theorem flatLines_get {axis : List ℤ} {cofm : List ℝ} {n i : ℕ} (hi : i < n) :
    (flatLines axis cofm n)[i]? = some ⟨axis.getD i 0, flatVec cofm i⟩ := by
  unfold flatLines
  rw [List.getElem?_map, List.getElem?_range hi]
  rfl

theorem flatLines_length (axis : List ℤ) (cofm : List ℝ) (n : ℕ) : (flatLines axis cofm n).length = n := by simp [flatLines]

theorem flatParts_get {Pos Vel Dens temp h : List ℝ} {n i : ℕ} (hi : i < n) :
    (flatParts Pos Vel Dens temp h n)[i]? = some ⟨flatVec Pos i, flatVec Vel i, Dens.getD i 0, temp.getD i 0, h.getD i 0⟩ := by
  unfold flatParts
  rw [List.getElem?_map, List.getElem?_range hi]
  rfl

theorem flatParts_length (Pos Vel Dens temp h : List ℝ) (n : ℕ) : (flatParts Pos Vel Dens temp h n).length = n := by simp [flatParts]

theorem posAt_ok {Pos : List ℝ} {i n : ℕ} (hi : i < n) (hP : 3 * n ≤ Pos.length) (k : Fin 3) :
    posAt Pos i (k : ℕ) = .ok (flatVec Pos i k) := by
  unfold posAt flatVec
  exact readAt_int (by push_cast; ring) (by have := k.isLt; omega) 0

theorem posAt_0 {Pos : List ℝ} {i n : ℕ} (hi : i < n) (hP : 3 * n ≤ Pos.length) : posAt Pos i 0 = .ok (flatVec Pos i 0) :=
  posAt_ok hi hP 0
theorem posAt_1 {Pos : List ℝ} {i n : ℕ} (hi : i < n) (hP : 3 * n ≤ Pos.length) : posAt Pos i 1 = .ok (flatVec Pos i 1) :=
  posAt_ok hi hP 1
theorem posAt_2 {Pos : List ℝ} {i n : ℕ} (hi : i < n) (hP : 3 * n ≤ Pos.length) : posAt Pos i 2 = .ok (flatVec Pos i 2) :=
  posAt_ok hi hP 2

theorem cofm_0 {cofm : List ℝ} {i n : ℕ} (hi : i < n) (hP : 3 * n ≤ cofm.length) : readAt cofm (3 * (i : ℤ)) = .ok (flatVec cofm i 0) := by
  have := posAt_0 hi hP
  unfold posAt at this
  rwa [add_zero] at this
theorem cofm_1 {cofm : List ℝ} {i n : ℕ} (hi : i < n) (hP : 3 * n ≤ cofm.length) : readAt cofm (3 * (i : ℤ) + 1) = .ok (flatVec cofm i 1) :=
  posAt_1 hi hP
theorem cofm_2 {cofm : List ℝ} {i n : ℕ} (hi : i < n) (hP : 3 * n ≤ cofm.length) : readAt cofm (3 * (i : ℤ) + 2) = .ok (flatVec cofm i 2) :=
  posAt_2 hi hP

/-! ### The tables -/

theorem buildM_from {axis : List ℤ} {cofm : List ℝ} {numLos : ℕ} (ha : numLos ≤ axis.length) (hc : 3 * numLos ≤ cofm.length)
    (n i : ℕ) (hi : i + n = numLos) (T : Table) :
    buildM axis cofm n i (T.index_table, T.index_table_xx) =
      .ok ((buildFrom T i ((flatLines axis cofm numLos).drop i)).index_table,
        (buildFrom T i ((flatLines axis cofm numLos).drop i)).index_table_xx) := by
  induction n generalizing i T with
  | zero =>
    have : (flatLines axis cofm numLos).drop i = [] := by
      rw [List.drop_eq_nil_iff, flatLines_length]
      omega
    rw [this]
    rfl
  | succ n ih =>
    have hlt : i < numLos := by omega
    have hd : (flatLines axis cofm numLos).drop i = ⟨axis.getD i 0, flatVec cofm i⟩ :: (flatLines axis cofm numLos).drop (i + 1) := by
      rw [List.drop_eq_getElem_cons (by rw [flatLines_length]; exact hlt)]
      congr 1
      have := flatLines_get (axis := axis) (cofm := cofm) hlt
      rw [List.getElem?_eq_getElem (by rw [flatLines_length]; exact hlt)] at this
      injection this
    rw [hd, buildM, readAt_getD (by omega) 0, ok_bind, buildFrom]
    unfold addLine
    dsimp only
    split
    · rw [cofm_1 hlt hc, ok_bind]
      exact ih (i + 1) (by omega) { T with index_table_xx := MultiMap.insert T.index_table_xx (flatVec cofm i 1) i }
    · rw [cofm_0 hlt hc, ok_bind]
      exact ih (i + 1) (by omega) { T with index_table := MultiMap.insert T.index_table (flatVec cofm i 0) i }

theorem buildM_eq {axis : List ℤ} {cofm : List ℝ} {numLos : ℕ} (ha : numLos ≤ axis.length) (hc : 3 * numLos ≤ cofm.length) (box : ℝ) :
    buildM axis cofm numLos 0 ([], []) = .ok ((build (flatLines axis cofm numLos) box).index_table,
      (build (flatLines axis cofm numLos) box).index_table_xx) := by
  exact buildM_from ha hc numLos 0 (by omega)
    { index_table := [], index_table_xx := [], lines := flatLines axis cofm numLos, boxsize := box }

/-- What the arrays of sightlines must hold. -/
structure LineRoom (axis : List ℤ) (cofm : List ℝ) (numLos : ℕ) : Prop where
  axis : numLos ≤ axis.length
  cofm : 3 * numLos ≤ cofm.length

theorem rangeM_eq {axis : List ℤ} {cofm : List ℝ} {numLos : ℕ} (hr : LineRoom axis cofm numLos) (T : Table)
    (hT : T.lines = flatLines axis cofm numLos) {Pos : List ℝ} {i n : ℕ} (hi : i < n) (hP : 3 * n ≤ Pos.length) (hh first : ℝ)
    (elems : List (ℝ × ℕ)) (hel : ∀ it ∈ elems, it.2 < numLos) (nearby : StdMap ℝ) :
    get_nearby_from_rangeM T.boxsize axis cofm elems nearby (posAt Pos i) hh first =
      .ok (get_nearby_from_range T elems nearby (flatVec Pos i) hh first) := by
  unfold get_nearby_from_rangeM get_nearby_from_range
  induction elems generalizing nearby with
  | nil => rfl
  | cons it elems ih =>
    have hlt := hel it (by simp)
    rw [List.foldlM_cons, List.foldl_cons]
    have hstep : rangeStepM T.boxsize axis cofm (posAt Pos i) hh first nearby it = .ok (match T.lines[it.2]? with
        | none => nearby
        | some line =>
          let second := if line.axis = 3 then flatVec Pos i 1 else flatVec Pos i 2
          let lproj2 := if line.axis = 3 then line.cofm 1 else line.cofm 2
          let lproj := it.1
          if second_close T.boxsize second lproj2 hh then
            let dr2 := calc_dr2 T.boxsize (first - lproj) (second - lproj2)
            if dr2 ≤ hh * hh then nearby.assign it.2 dr2 else nearby
          else nearby) := by
      rw [hT, flatLines_get hlt]
      unfold rangeStepM
      rw [readAt_getD (by have := hr.axis; omega) 0, ok_bind]
      dsimp only
      by_cases h3 : axis.getD it.2 0 = 3
      · simp only [h3, if_true]
        rw [posAt_1 hi hP, ok_bind, cofm_1 hlt hr.cofm, ok_bind]
        split <;> rfl
      · simp only [h3, if_false]
        rw [posAt_2 hi hP, ok_bind, cofm_2 hlt hr.cofm, ok_bind]
        split <;> rfl
    rw [hstep, ok_bind]
    exact ih (fun x hx => hel x (by simp [hx])) _

theorem mem_range_of {t : List (ℝ × ℕ)} {low high : ℕ} {x : ℝ × ℕ} (h : x ∈ MultiMap.range t low high) : x ∈ t :=
  List.mem_of_mem_drop (List.mem_of_mem_take h)

theorem get_nearbyM_eq {axis : List ℤ} {cofm : List ℝ} {numLos : ℕ} (hr : LineRoom axis cofm numLos) (T : Table)
    (hT : T.lines = flatLines axis cofm numLos) {Pos : List ℝ} {i n : ℕ} (hi : i < n) (hP : 3 * n ≤ Pos.length) (hh first : ℝ)
    (s : List (ℝ × ℕ)) (hel : ∀ it ∈ s, it.2 < numLos) (nearby : StdMap ℝ) :
    get_nearbyM T.boxsize axis cofm first s nearby (posAt Pos i) hh = .ok (get_nearby T first s nearby (flatVec Pos i) hh) := by
  unfold get_nearbyM get_nearby
  dsimp only
  rw [rangeM_eq hr T hT hi hP hh first _ (fun it h => hel it (mem_range_of h)),
    rangeM_eq hr T hT hi hP hh first _ (fun it h => hel it (mem_range_of h)), ok_bind,
    rangeM_eq hr T hT hi hP hh first _ (fun it h => hel it (mem_range_of h))]
  split_ifs <;> rfl

theorem get_near_linesM_eq {axis : List ℤ} {cofm : List ℝ} {numLos : ℕ} (hr : LineRoom axis cofm numLos) (box : ℝ) {Pos : List ℝ}
    {i n : ℕ} (hi : i < n) (hP : 3 * n ≤ Pos.length) (hh : ℝ) :
    get_near_linesM box axis cofm ((build (flatLines axis cofm numLos) box).index_table,
      (build (flatLines axis cofm numLos) box).index_table_xx) (posAt Pos i) hh =
      .ok (get_near_lines (build (flatLines axis cofm numLos) box) (flatVec Pos i) hh) := by
  have hb := build_boxsize (flatLines axis cofm numLos) box
  have hl := build_lines (flatLines axis cofm numLos) box
  have hm : ∀ it ∈ (build (flatLines axis cofm numLos) box).index_table, it.2 < numLos := by
    intro it hit
    obtain ⟨l, h, _⟩ := (build_mem _ _ it).1.1 hit
    have := (List.getElem?_eq_some_iff.1 h).1
    rwa [flatLines_length] at this
  have hm2 : ∀ it ∈ (build (flatLines axis cofm numLos) box).index_table_xx, it.2 < numLos := by
    intro it hit
    obtain ⟨l, h, _⟩ := (build_mem _ _ it).2.1 hit
    have := (List.getElem?_eq_some_iff.1 h).1
    rwa [flatLines_length] at this
  have key := fun first s hs nearby => get_nearbyM_eq hr (build (flatLines axis cofm numLos) box) hl hi hP hh first s hs nearby
  rw [hb] at key
  unfold get_near_linesM get_near_lines
  dsimp only
  rw [posAt_0 hi hP, posAt_1 hi hP, ok_bind, key _ _ hm]
  by_cases h1 : (build (flatLines axis cofm numLos) box).index_table.length > 0
  · rw [if_pos h1, if_pos h1, ok_bind, ok_bind, key _ _ hm2]
    split_ifs <;> rfl
  · rw [if_neg h1, if_neg h1, ok_bind, ok_bind, key _ _ hm2]
    split_ifs <;> rfl

theorem foldlM_ok {α β ε : Type} {f : β → α → Except ε β} {g : β → α → β} {l : List α} (h : ∀ x ∈ l, ∀ b, f b x = .ok (g b x)) (b : β) :
    l.foldlM f b = .ok (l.foldl g b) := by
  induction l generalizing b with
  | nil => rfl
  | cons a l ih =>
    rw [List.foldlM_cons, h a (by simp), List.foldl_cons]
    exact ih (fun x hx => h x (by simp [hx])) _

theorem foldlM_congr {α β ε : Type} {f g : β → α → Except ε β} {l : List α} (h : ∀ x ∈ l, ∀ b, f b x = g b x) (b : β) :
    l.foldlM f b = l.foldlM g b := by
  induction l generalizing b with
  | nil => rfl
  | cons a l ih =>
    rw [List.foldlM_cons, List.foldlM_cons, h a (by simp)]
    congr 1
    funext x
    exact ih (fun x hx => h x (by simp [hx])) _

theorem posH_flat (Pos Vel Dens temp h : List ℝ) (n : ℕ) {i : ℕ} (hi : i < n) :
    (posH (flatParts Pos Vel Dens temp h n))[i]? = some (flatVec Pos i, h.getD i 0) := by
  unfold posH
  rw [List.getElem?_map, flatParts_get hi]
  rfl

theorem near_particlesM_eq {axis : List ℤ} {cofm : List ℝ} {numLos : ℕ} (hr : LineRoom axis cofm numLos) (box : ℝ)
    {Pos h : List ℝ} (Vel Dens temp : List ℝ) {n : ℕ} (hP : 3 * n ≤ Pos.length) (hh : n ≤ h.length) :
    get_near_particlesM box axis cofm numLos ((build (flatLines axis cofm numLos) box).index_table,
      (build (flatLines axis cofm numLos) box).index_table_xx) Pos h n =
      .ok (get_near_particles (build (flatLines axis cofm numLos) box) (posH (flatParts Pos Vel Dens temp h n))) := by
  unfold get_near_particlesM get_near_particles get_near_particles_sched
  rw [build_lines, flatLines_length]
  have hl : (posH (flatParts Pos Vel Dens temp h n)).length = n := by simp [posH, flatParts]
  rw [hl]
  apply foldlM_ok
  intro i hi acc
  have hi := List.mem_range.1 hi
  rw [readAt_getD (by omega) 0, ok_bind, get_near_linesM_eq hr box hi hP, ok_bind]
  unfold nearParticlesStep
  rw [posH_flat _ _ _ _ _ _ hi]

/-- The particles in the lists exist. -/
theorem near_mem {lines : List Line} {box : ℝ} {parts : List Part} {i : ℕ} {nearby : StdMap ℝ}
    (h : (get_near_particles (build lines box) (posH parts))[i]? = some nearby) : ∀ e ∈ nearby, e.1 < parts.length := by
  unfold get_near_particles at h
  rw [get_near_particles_sched_eq _ _ _ (List.Perm.refl _), List.getElem?_map] at h
  obtain ⟨k, _, rfl⟩ := Option.map_eq_some_iff.1 h
  intro e he
  unfold nearList at he
  obtain ⟨j, hj, he⟩ := List.mem_filterMap.1 he
  simp only [Option.bind_eq_some_iff, Option.map_eq_some_iff] at he
  obtain ⟨q, hq, _, _, rfl⟩ := he
  have := List.mem_range.1 hj
  simpa [posH] using this

theorem near_length (lines : List Line) (box : ℝ) (parts : List Part) :
    (get_near_particles (build lines box) (posH parts)).length = lines.length := by
  unfold get_near_particles
  rw [get_near_particles_sched_eq _ _ _ (List.Perm.refl _), List.length_map, List.length_range, build_lines]

/-! ### The Voronoi limits -/

/-- An axis. -/
def IsAxis (a : ℤ) : Prop := a = 1 ∨ a = 2 ∨ a = 3

theorem posAt_axis {Pos : List ℝ} {i n : ℕ} (hi : i < n) (hP : 3 * n ≤ Pos.length) {a : ℤ} (ha : IsAxis a) :
    posAt Pos i (a - 1) = coord (flatVec Pos i) a := by
  rcases ha with rfl | rfl | rfl
  · exact posAt_0 hi hP
  · exact posAt_1 hi hP
  · exact posAt_2 hi hP

theorem posAt_mod {Pos : List ℝ} {i n : ℕ} (hi : i < n) (hP : 3 * n ≤ Pos.length) {a : ℤ} (ha : IsAxis a) :
    posAt Pos i (Int.tmod a 3) = .ok (coordMod (flatVec Pos i) a) ∧
    posAt Pos i (Int.tmod (a + 1) 3) = .ok (coordMod (flatVec Pos i) (a + 1)) := by
  rcases ha with rfl | rfl | rfl
  · exact ⟨by simpa [coordMod] using posAt_1 hi hP, by simpa [coordMod] using posAt_2 hi hP⟩
  · exact ⟨by simpa [coordMod] using posAt_2 hi hP, by simpa [coordMod] using posAt_0 hi hP⟩
  · exact ⟨by simpa [coordMod] using posAt_0 hi hP, by simpa [coordMod] using posAt_1 hi hP⟩

theorem mapM_ok' {α β ε : Type} {f : α → Except ε β} {g : α → β} {l : List α} (h : ∀ a ∈ l, f a = .ok (g a)) :
    l.mapM f = .ok (l.map g) := by
  induction l with
  | nil => rfl
  | cons a l ih =>
    rw [List.mapM_cons, h a (by simp), ih (fun x hx => h x (by simp [hx]))]
    rfl

theorem assign_cellsM_eq {axis : List ℤ} {cofm : List ℝ} {numLos : ℕ} (hr : LineRoom axis cofm numLos) (box : ℝ)
    {Pos h : List ℝ} (Vel Dens temp : List ℝ) {n : ℕ} (hP : 3 * n ≤ Pos.length) {i : ℕ} (hi : i < numLos)
    (ha : IsAxis (axis.getD i 0)) (nearby : StdMap ℝ) (hn : ∀ e ∈ nearby, e.1 < n) :
    assign_cellsM box axis cofm Pos i nearby =
      assign_cells box ⟨axis.getD i 0, flatVec cofm i⟩ (flatParts Pos Vel Dens temp h n) nearby := by
  have hcof : readAt cofm (3 * (i : ℤ) + Int.tmod (axis.getD i 0) 3) = .ok (coordMod (flatVec cofm i) (axis.getD i 0)) ∧
      readAt cofm (3 * (i : ℤ) + Int.tmod (axis.getD i 0 + 1) 3) = .ok (coordMod (flatVec cofm i) (axis.getD i 0 + 1)) :=
    posAt_mod hi hr.cofm ha
  have hread : nearby.mapM (fun it => readAt (flatParts Pos Vel Dens temp h n) it.1) = .ok (nearby.map (fun it =>
      (⟨flatVec Pos it.1, flatVec Vel it.1, Dens.getD it.1 0, temp.getD it.1 0, h.getD it.1 0⟩ : Part))) :=
    mapM_ok' (fun it hit => readAt_eq (flatParts_get (hn it hit)))
  have hx : (nearby.map (fun it => (⟨flatVec Pos it.1, flatVec Vel it.1, Dens.getD it.1 0, temp.getD it.1 0, h.getD it.1 0⟩ : Part))).mapM
      (fun p => coord p.pos (axis.getD i 0)) = .ok (nearby.map (fun it => along (flatVec Pos it.1) (axis.getD i 0))) := by
    rw [mapM_ok' (g := fun p => along p.pos (axis.getD i 0)) (fun p _ => coord_eq ha p.pos), List.map_map]
    rfl
  have hcells : nearby.mapM (fun it => do
      let x ← posAt Pos it.1 (axis.getD i 0 - 1)
      let y ← posAt Pos it.1 (Int.tmod (axis.getD i 0) 3)
      let z ← posAt Pos it.1 (Int.tmod (axis.getD i 0 + 1) 3)
      (.ok (x, y, z) : CRes (ℝ × ℝ × ℝ))) = .ok (nearby.map (fun it => (along (flatVec Pos it.1) (axis.getD i 0),
        coordMod (flatVec Pos it.1) (axis.getD i 0), coordMod (flatVec Pos it.1) (axis.getD i 0 + 1)))) :=
    mapM_ok' (fun it hit => by
      rw [posAt_axis (hn it hit) hP ha, coord_eq ha, ok_bind, (posAt_mod (hn it hit) hP ha).1, ok_bind,
        (posAt_mod (hn it hit) hP ha).2, ok_bind])
  unfold assign_cellsM assign_cells
  rw [readAt_getD (by have := hr.axis; omega) 0, ok_bind, hcof.1, ok_bind, hcof.2, ok_bind, hread, ok_bind]
  dsimp only
  rw [hx, ok_bind, hcells]
  by_cases hN : ⌊box / RESO⌋.toNat = 0
  · rw [hN, if_pos rfl, ok_bind, assignLoop, assignLoop, ok_bind, ok_bind]
    simp
  · rw [if_neg hN, ok_bind, List.length_map]
    congr 2
    funext xp
    rw [List.zip_map', List.map_map, List.map_map]
    rfl

theorem lineEntriesM_eq {axis : List ℤ} {cofm : List ℝ} {numLos : ℕ} (hr : LineRoom axis cofm numLos) (kernel : ℤ) (box : ℝ)
    {Pos h : List ℝ} (Vel Dens temp : List ℝ) {n : ℕ} (hP : 3 * n ≤ Pos.length) {i : ℕ} (hi : i < numLos)
    (ha : IsAxis (axis.getD i 0)) (nearby : StdMap ℝ) (hn : ∀ e ∈ nearby, e.1 < n) :
    lineEntriesM kernel box axis cofm Pos i nearby =
      lineEntries kernel box ⟨axis.getD i 0, flatVec cofm i⟩ (flatParts Pos Vel Dens temp h n) nearby := by
  unfold lineEntriesM lineEntries
  rw [assign_cellsM_eq hr box Vel Dens temp (h := h) hP hi ha nearby hn]

theorem lineEntries_mem {kernel : ℤ} {box : ℝ} {line : Line} {parts : List Part} {nearby : StdMap ℝ}
    {entries : List ((ℕ × ℝ) × (ℝ × ℝ))} (h : lineEntries kernel box line parts nearby = .ok entries) :
    ∀ e ∈ entries, e.1 ∈ nearby := by
  unfold lineEntries at h
  split at h
  · cases hc : assign_cells box line parts nearby with
    | error e =>
      rw [hc] at h
      cases h
    | ok arr =>
      rw [hc, ok_bind] at h
      cases h
      intro e he
      exact (List.of_mem_zip he).1
  · cases h
    intro e he
    obtain ⟨x, hx, rfl⟩ := List.mem_map.1 he
    exact hx

/-- The loop over sightlines reads the same whichever way the arrays are represented. -/
theorem overLinesM_eq {axis : List ℤ} {cofm : List ℝ} {numLos : ℕ} (hr : LineRoom axis cofm numLos)
    (hax : ∀ i < numLos, IsAxis (axis.getD i 0)) (kernel : ℤ) (box : ℝ) {Pos h : List ℝ} (Vel Dens temp : List ℝ) {n : ℕ}
    (hP : 3 * n ≤ Pos.length) (hh : n ≤ h.length) (step : ℕ → ℤ → List ℝ → (ℕ × ℝ) × (ℝ × ℝ) → CRes (List ℝ))
    (body : ℕ → Line → List ((ℕ × ℝ) × (ℝ × ℝ)) → List ℝ → CRes (List ℝ))
    (hbody : ∀ i < numLos, ∀ es : List ((ℕ × ℝ) × (ℝ × ℝ)), (∀ e ∈ es, e.1.1 < n) → ∀ out,
      es.foldlM (step i (axis.getD i 0)) out = body i ⟨axis.getD i 0, flatVec cofm i⟩ es out) (out : List ℝ) :
    overLinesM step kernel box axis cofm numLos ((build (flatLines axis cofm numLos) box).index_table,
      (build (flatLines axis cofm numLos) box).index_table_xx) Pos h n out =
      overLines body kernel box (flatLines axis cofm numLos) (flatParts Pos Vel Dens temp h n) out := by
  unfold overLinesM overLines
  rw [near_particlesM_eq hr box Vel Dens temp hP hh, ok_bind]
  dsimp only
  apply foldlM_congr
  intro i hi out
  have hi : i < numLos := by
    have := List.mem_range.1 hi
    rwa [near_length, flatLines_length] at this
  obtain ⟨nearby, hnb⟩ : ∃ nb, (get_near_particles (build (flatLines axis cofm numLos) box)
      (posH (flatParts Pos Vel Dens temp h n)))[i]? = some nb :=
    ⟨_, List.getElem?_eq_getElem (by rw [near_length, flatLines_length]; exact hi)⟩
  have hmem := near_mem hnb
  rw [flatParts_length] at hmem
  rw [readAt_eq hnb, ok_bind, ok_bind, readAt_eq (flatLines_get hi), ok_bind,
    lineEntriesM_eq hr kernel box Vel Dens temp (h := h) hP hi (hax i hi) nearby hmem]
  cases hle : lineEntries kernel box ⟨axis.getD i 0, flatVec cofm i⟩ (flatParts Pos Vel Dens temp h n) nearby with
  | error e => rfl
  | ok es =>
    rw [ok_bind, ok_bind, readAt_getD (by have := hr.axis; omega) 0, ok_bind]
    exact hbody i hi es (fun e he => hmem _ (lineEntries_mem hle e he)) out

theorem coldenM_eq {axis : List ℤ} {cofm : List ℝ} {numLos : ℕ} (hr : LineRoom axis cofm numLos)
    (hax : ∀ i < numLos, IsAxis (axis.getD i 0)) (L : LineAbsorption) (nbins : ℕ) (box : ℝ) {Pos h Dens : List ℝ} (Vel temp : List ℝ)
    {n : ℕ} (hP : 3 * n ≤ Pos.length) (hh : n ≤ h.length) (hD : n ≤ Dens.length) (out : List ℝ) :
    overLinesM (coldenStepM L nbins Pos Dens h) L.kernel box axis cofm numLos ((build (flatLines axis cofm numLos) box).index_table,
      (build (flatLines axis cofm numLos) box).index_table_xx) Pos h n out =
      compute_colden L nbins box (flatLines axis cofm numLos) (flatParts Pos Vel Dens temp h n) out := by
  unfold compute_colden
  apply overLinesM_eq hr hax L.kernel box Vel Dens temp hP hh
  intro i hi es hes out
  unfold coldenLine
  apply foldlM_congr
  intro e he out
  have hlt := hes e he
  unfold coldenStepM
  rw [posAt_axis hlt hP (hax i hi), coord_eq (hax i hi), ok_bind, readAt_getD (by omega) 0, ok_bind, readAt_eq (flatParts_get hlt), ok_bind]
  dsimp only
  rw [coord_eq (hax i hi), ok_bind, readAt_getD (by omega) 0, ok_bind]

theorem tauM_eq {axis : List ℤ} {cofm : List ℝ} {numLos : ℕ} (hr : LineRoom axis cofm numLos)
    (hax : ∀ i < numLos, IsAxis (axis.getD i 0)) (L : LineAbsorption) (nbins : ℕ) (box : ℝ) {Pos h Dens Vel temp : List ℝ}
    {n : ℕ} (hP : 3 * n ≤ Pos.length) (hh : n ≤ h.length) (hD : n ≤ Dens.length) (hV : 3 * n ≤ Vel.length) (hT : n ≤ temp.length)
    (out : List ℝ) :
    overLinesM (tauStepM L nbins Pos Vel Dens temp h) L.kernel box axis cofm numLos ((build (flatLines axis cofm numLos) box).index_table,
      (build (flatLines axis cofm numLos) box).index_table_xx) Pos h n out =
      PartInt.compute_tau L nbins box (flatLines axis cofm numLos) (flatParts Pos Vel Dens temp h n) out := by
  unfold PartInt.compute_tau
  apply overLinesM_eq hr hax L.kernel box Vel Dens temp hP hh
  intro i hi es hes out
  unfold tauLine
  apply foldlM_congr
  intro e he out
  have hlt := hes e he
  unfold tauStepM
  rw [posAt_axis hlt hP (hax i hi), coord_eq (hax i hi), ok_bind, posAt_axis hlt hV (hax i hi), coord_eq (hax i hi), ok_bind,
    readAt_getD (by omega) 0, ok_bind, readAt_getD (by omega) 0, ok_bind, readAt_eq (flatParts_get hlt), ok_bind]
  dsimp only
  rw [coord_eq (hax i hi), ok_bind, coord_eq (hax i hi), ok_bind, readAt_getD (by omega) 0, ok_bind]

theorem nearM_eq {axis : List ℤ} {cofm : List ℝ} {numLos : ℕ} (hr : LineRoom axis cofm numLos) (box : ℝ)
    {Pos h : List ℝ} {n : ℕ} (hP : 3 * n ≤ Pos.length) (hh : n ≤ h.length) :
    (List.range n).foldlM (fun acc (i : ℕ) => do
      let hi ← readAt h (i : ℤ)
      let nearby ← get_near_linesM box axis cofm ((build (flatLines axis cofm numLos) box).index_table,
        (build (flatLines axis cofm numLos) box).index_table_xx) (posAt Pos i) hi
      (.ok (if nearby.length > 0 then StdSet.insert acc i else acc) : CRes (List ℕ))) [] =
      .ok (near_lines box ((List.range n).map (fun i => (flatVec Pos i, h.getD i 0))) (flatLines axis cofm numLos)) := by
  unfold near_lines near_lines_sched
  rw [List.length_map, List.length_range]
  apply foldlM_ok
  intro i hi acc
  have hi := List.mem_range.1 hi
  rw [readAt_getD (by omega) 0, ok_bind, get_near_linesM_eq hr box hi hP, ok_bind]
  unfold nearLinesStep
  rw [List.getElem?_map, List.getElem?_range hi]
  rfl

end Verif.PyModule
