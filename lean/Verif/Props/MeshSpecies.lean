import Verif.Props.VoronoiSafe
import Verif.Model.WeightMean

/-!
C93: column densities through a moving mesh, for any species and number of processes.
-/

namespace Verif.Props.MeshSpecies
open Verif Verif.Spec Verif.ComputeSpectra Verif.PartInt Verif.IndexTable Verif.Absorption Verif.Props.VoronoiSafe

/-- A moving mesh, with the quantities `Spectra` passes to the interpolator. -/
structure MeshConfig (c : Config) : Prop where
  kernel : c.L.kernel = VORONOI_MESH
  abs : GoodAbs c.L
  nbins : 0 < c.nbins
  box : 0.1 ≤ c.box
  vbox : c.L.vbox / c.L.velfac = c.box
  lines : ∀ l ∈ c.lines, GoodLine c.box l

/-- The cell is within its search radius of some sightline. -/
def NearSome (c : Config) (r : Raw) : Prop :=
  GoodPart c.box (r.pos, r.h) ∧ ∃ l ∈ c.lines, transDist2 c.box l.axis r.pos l.cofm < r.h ^ 2

/-- The number density of an element, or of neutral hydrogen, in a cell. -/
noncomputable def cellDen (c : Config) (r : Raw) : ℝ :=
  match c.sp with
  | .HI => r.den * c.rscale * r.massFrac * r.nHI / c.amumass
  | _ => r.den * c.rscale * r.massFrac / c.amumass

theorem near_of_some {c : Config} (hc : MeshConfig c) {r : Raw} (h : NearSome c r) : Near c r := by
  obtain ⟨hg, l, hl, hd⟩ := h
  obtain ⟨k, hk⟩ := List.getElem?_of_mem hl
  have hb : 0 < c.box := by have := hc.box; norm_num at this; linarith
  have := near_line_found hb hc.lines hg hk hd
  intro h0
  have h0' : get_near_lines (build c.lines c.box) r.pos r.h = [] := h0
  simp only at this
  rw [h0'] at this
  cases this

theorem good_axes {c : Config} (hc : MeshConfig c) : GoodAxes c := fun l h => (hc.lines l h).1

/-- A result of the mesh in terms of the densities handed to the interpolator. -/
theorem mesh_between {c : Config} (hc : MeshConfig c) (hsp : TempRead false c.sp) {segs : List (List Raw)} (hs : segs ≠ [])
    (hne : partsOf c false segs.flatten ≠ []) {lo hi : ℝ} (hd : ∀ p ∈ partsOf c false segs.flatten, lo ≤ p.dens ∧ p.dens ≤ hi) {a : List ℝ}
    (h : compute_spectra_mesh c false segs = .value a) {i : ℕ} (hil : i < c.lines.length) :
    lo * c.box ≤ (lineSpectrum a c.nbins i).sum ∧ (lineSpectrum a c.nbins i).sum ≤ hi * c.box := by
  rw [compute_spectra_mesh_eq (good_axes hc) false hsp _ hs, if_neg hne] at h
  cases hi' : interpolate c false (partsOf c false segs.flatten) with
  | error e => rw [hi'] at h; cases h
  | ok b =>
    rw [hi'] at h
    have hab : b = a := by cases h; rfl
    subst hab
    unfold interpolate at hi'
    simp only [Bool.false_eq_true, if_false] at hi'
    obtain ⟨w, w0, -, w1, w2⟩ := mesh_column c.L hc.abs hc.kernel hc.nbins hc.box hc.vbox (good_axes hc) hi' (List.getElem?_eq_getElem hil)
    rw [w2, ← w1, Finset.mul_sum, Finset.mul_sum]
    constructor
    · refine Finset.sum_le_sum fun k _ => mul_le_mul_of_nonneg_right (hd _ (List.getElem_mem _)).1 (w0 k)
    · refine Finset.sum_le_sum fun k _ => mul_le_mul_of_nonneg_right (hd _ (List.getElem_mem _)).2 (w0 k)

theorem mem_partsOf {c : Config} {get_tau : Bool} {rs : List Raw} {p : Part} :
    p ∈ partsOf c get_tau rs ↔ ∃ r ∈ rs, Near c r ∧ prep c get_tau r = some p := by
  unfold partsOf
  simp only [List.mem_filterMap, List.mem_filter, decide_eq_true_eq]
  constructor
  · rintro ⟨r, ⟨h1, h2⟩, h3⟩; exact ⟨r, h1, h2, h3⟩
  · rintro ⟨r, h1, h2, h3⟩; exact ⟨r, ⟨h1, h2⟩, h3⟩

/-- C93, partial: on one process, for an element or neutral hydrogen, the column density along a sightline through the mesh lies between
the smallest and the largest density of a cell near the sightlines, times the box. Missing: ions (`mesh_ion_fills`, `mesh_ion_fails`) and
several processes (`mesh_ranks_multiply`). -/
theorem mesh_species_partial {c : Config} (hc : MeshConfig c) (hsp : c.sp = .all ∨ c.sp = .HI) {segs : List (List Raw)} (hs : segs ≠ [])
    (hnear : ∃ r ∈ segs.flatten, NearSome c r) {lo hi : ℝ}
    (hd : ∀ r ∈ segs.flatten, lo ≤ cellDen c r ∧
      cellDen c r ≤ hi) {a : List ℝ}
    (h : compute_spectra_mesh c false segs = .value a) {i : ℕ} (hil : i < c.lines.length) :
    lo * c.box ≤ (lineSpectrum a c.nbins i).sum ∧ (lineSpectrum a c.nbins i).sum ≤ hi * c.box := by
  have hT : TempRead false c.sp := by rcases hsp with h | h <;> rw [h] <;> trivial
  have hprep : ∀ r, ∃ p, prep c false r = some p ∧
      p.dens = cellDen c r := by
    intro r
    unfold prep cellDen
    rcases hsp with h | h <;> rw [h]
    · exact ⟨_, rfl, rfl⟩
    · exact ⟨_, rfl, rfl⟩
  refine mesh_between hc hT hs ?_ ?_ h hil
  · obtain ⟨r, hr, hn⟩ := hnear
    obtain ⟨p, hp, -⟩ := hprep r
    exact List.ne_nil_of_mem (mem_partsOf.2 ⟨r, hr, near_of_some hc hn, hp⟩)
  · intro p hp
    obtain ⟨r, hr, -, hp'⟩ := mem_partsOf.1 hp
    obtain ⟨q, hq, e⟩ := hprep r
    rw [hp'] at hq
    obtain rfl := Option.some.inj hq
    rw [e]
    exact hd r hr

/-- C93 fails for ions: cells without the element are left out before the sightline is shared among the cells, so that the others take
their place. If all cells with the element have the same density of the ion, the column is that density times the whole box, however
little of the sightline is in those cells. -/
theorem mesh_ion_fills {c : Config} (hc : MeshConfig c) {table : ℝ → ℝ → ℝ} (hsp : c.sp = .ion table) {segs : List (List Raw)} (hs : segs ≠ [])
    (hnear : ∃ r ∈ segs.flatten, NearSome c r ∧ 0 < elemDen c r) {rho : ℝ}
    (hd : ∀ r ∈ segs.flatten, 0 < elemDen c r → elemDen c r * table r.den (fixTemp r.temp) / c.amumass = rho) {a : List ℝ}
    (h : compute_spectra_mesh c false segs = .value a) {i : ℕ} (hil : i < c.lines.length) :
    (lineSpectrum a c.nbins i).sum = rho * c.box := by
  have hT : TempRead false c.sp := by rw [hsp]; trivial
  have hprep : ∀ r p, prep c false r = some p → 0 < elemDen c r ∧ p.dens = elemDen c r * table r.den (fixTemp r.temp) / c.amumass := by
    intro r p hp
    unfold prep at hp
    rw [hsp] at hp
    dsimp only at hp
    split_ifs at hp with h0
    obtain rfl := Option.some.inj hp
    exact ⟨h0, rfl⟩
  have key := mesh_between (lo := rho) (hi := rho) hc hT hs ?_ ?_ h hil
  · exact le_antisymm key.2 key.1
  · obtain ⟨r, hr, hn, h0⟩ := hnear
    have hp : prep c false r = some (toPart c r (elemDen c r * table r.den (fixTemp r.temp)) (fixTemp r.temp)) := by
      unfold prep
      rw [hsp]
      exact if_pos h0
    exact List.ne_nil_of_mem (mem_partsOf.2 ⟨r, hr, near_of_some hc hn, hp⟩)
  · intro p hp
    obtain ⟨r, hr, -, hp'⟩ := mem_partsOf.1 hp
    obtain ⟨h0, e⟩ := hprep r p hp'
    rw [e, hd r hr h0]
    exact ⟨le_rfl, le_rfl⟩

/-- C93 fails for ions: if some sightline has no cell with the element near it, while another one has, there is no result for any of them. -/
theorem mesh_ion_fails {c : Config} (hc : MeshConfig c) {table : ℝ → ℝ → ℝ} (hsp : c.sp = .ion table)
    (get_tau : Bool) {segs : List (List Raw)} (hs : segs ≠ []) (hin : ∀ r ∈ segs.flatten, InBox c.box r.pos)
    (hnear : ∃ r ∈ segs.flatten, NearSome c r ∧ 0 < elemDen c r) {i : ℕ} {l : Line} (hi : c.lines[i]? = some l)
    (hfar : ∀ r ∈ segs.flatten, 0 < elemDen c r → r.h ^ 2 < transDist2 c.box l.axis r.pos l.cofm) (a : List ℝ) :
    compute_spectra_mesh c get_tau segs ≠ .value a := by
  have hT : TempRead get_tau c.sp := by rw [hsp]; trivial
  have hil : i < c.lines.length := by
    by_contra hc; rw [List.getElem?_eq_none (by omega)] at hi; cases hi
  have hbox : 0 < c.box := by have := hc.box; norm_num at this; linarith
  have hprep : ∀ r, prep c get_tau r = if 0 < elemDen c r then
      some (toPart c r (elemDen c r * table r.den (fixTemp r.temp)) (fixTemp r.temp)) else none := by
    intro r
    unfold prep
    rw [hsp]
  have hne : partsOf c get_tau segs.flatten ≠ [] := by
    obtain ⟨r, hr, hn, h0⟩ := hnear
    exact List.ne_nil_of_mem (mem_partsOf.2 ⟨r, hr, near_of_some hc hn, by rw [hprep, if_pos h0]⟩)
  have hempty : nearList (build c.lines c.box) (posH (partsOf c get_tau segs.flatten)) i = [] := by
    rw [List.eq_nil_iff_forall_not_mem]
    intro e he
    obtain ⟨p, hp, hsome⟩ := nearList_mem he
    obtain ⟨r, hr, -, hp'⟩ := mem_partsOf.1 (List.mem_of_getElem? hp)
    rw [hprep] at hp'
    split_ifs at hp' with h0
    obtain rfl := Option.some.inj hp'
    obtain ⟨d, hd⟩ := Option.isSome_iff_exists.1 hsome
    obtain ⟨l', h1, h2, h3⟩ := pair_distance hbox hc.lines (hin r hr) r.h i d hd
    rw [hi] at h1
    obtain rfl := Option.some.inj h1
    have := hfar r hr h0
    rw [h2] at h3
    linarith
  rw [compute_spectra_mesh_eq (good_axes hc) get_tau hT _ hs, if_neg hne]
  have hno := interp_voronoi_no_cell get_tau c.nbins c.L hc.kernel hc.box c.lines (partsOf c get_tau segs.flatten) hil hempty
  cases hr : interpolate c get_tau (partsOf c get_tau segs.flatten) with
  | error e => exact fun h => by cases h
  | ok b => exact absurd hr (hno b)

theorem addArr_line {a b : List ℝ} (hlen : a.length = b.length) (nbins i : ℕ) :
    (lineSpectrum (addArr a b) nbins i).sum = (lineSpectrum a nbins i).sum + (lineSpectrum b nbins i).sum := by
  unfold lineSpectrum addArr
  rw [List.drop_zipWith, List.take_zipWith]
  have hl : ((a.drop (i * nbins)).take nbins).length = ((b.drop (i * nbins)).take nbins).length := by simp [hlen]
  generalize (a.drop (i * nbins)).take nbins = x at hl
  generalize (b.drop (i * nbins)).take nbins = y at hl
  induction x generalizing y with
  | nil => cases y with
    | nil => simp
    | cons _ _ => simp at hl
  | cons u x ih => cases y with
    | nil => simp at hl
    | cons v y =>
      simp only [List.length_cons, Nat.add_right_cancel_iff] at hl
      simp only [List.zipWith_cons_cons, List.sum_cons, ih y hl]
      ring

theorem mesh_length {c : Config} (hc : MeshConfig c) (hsp : TempRead false c.sp) {segs : List (List Raw)} (hs : segs ≠ []) {a : List ℝ}
    (h : compute_spectra_mesh c false segs = .value a) : a.length = c.lines.length * c.nbins := by
  rw [compute_spectra_mesh_eq (good_axes hc) false hsp _ hs] at h
  split_ifs at h with hne
  · cases h; simp [zeros]
  · cases hi' : interpolate c false (partsOf c false segs.flatten) with
    | error e => rw [hi'] at h; cases h
    | ok b =>
      rw [hi'] at h
      cases h
      by_cases hn : ∀ i < c.lines.length, nearList (build c.lines c.box) (posH (partsOf c false segs.flatten)) i ≠ []
      · rcases compute_safe false c.L hc.kernel hc.nbins c.box (good_axes hc) hn with ⟨r, h1, h2⟩ | he
        · have : interpolate c false (partsOf c false segs.flatten) = .ok r := h1
          rw [hi'] at this
          cases this
          exact h2
        · have : interpolate c false (partsOf c false segs.flatten) = .error (.exit 1) := he
          rw [hi'] at this
          cases this
      · push Not at hn
        obtain ⟨i, hi, h0⟩ := hn
        exact absurd hi' (interp_voronoi_no_cell false c.nbins c.L hc.kernel hc.box c.lines _ hi h0 _)

/-- C93 fails with several processes: each of them shares the whole sightline among its own cells, and the results are added. For an
element or neutral hydrogen of one density the column is that density times the box times the number of processes. -/
theorem mesh_ranks_multiply {c : Config} (hc : MeshConfig c) (hsp : c.sp = .all ∨ c.sp = .HI) {ranks : List (List (List Raw))}
    (hs : ∀ segs ∈ ranks, segs ≠ []) (hnear : ∀ segs ∈ ranks, ∃ r ∈ segs.flatten, NearSome c r) {rho : ℝ}
    (hd : ∀ segs ∈ ranks, ∀ r ∈ segs.flatten, cellDen c r = rho)
    {a : List ℝ} (h : compute_spectra_mesh_mpi c false ranks = .value a) {i : ℕ} (hil : i < c.lines.length) :
    (lineSpectrum a c.nbins i).sum = ranks.length * (rho * c.box) := by
  have hT : TempRead false c.sp := by rcases hsp with h | h <;> rw [h] <;> trivial
  have key : (lineSpectrum a c.nbins i).sum = ranks.length * (rho * c.box) ∧ a.length = c.lines.length * c.nbins := by
    induction ranks generalizing a with
    | nil =>
      unfold compute_spectra_mesh_mpi at h
      cases h
      refine ⟨?_, by simp [zeros]⟩
      simp [zeros, lineSpectrum, List.drop_replicate, List.take_replicate]
    | cons rank ranks ih =>
      unfold compute_spectra_mesh_mpi at h
      cases hx : compute_spectra_mesh c false rank with
      | raised e => rw [hx] at h; cases h
      | crashed e => rw [hx] at h; cases h
      | value x =>
        cases hy : compute_spectra_mesh_mpi c false ranks with
        | raised e => rw [hx, hy] at h; cases h
        | crashed e => rw [hx, hy] at h; cases h
        | value y =>
          rw [hx, hy] at h
          cases h
          obtain ⟨i1, i2⟩ := ih (fun s hs' => hs s (by simp [hs'])) (fun s hs' => hnear s (by simp [hs']))
            (fun s hs' => hd s (by simp [hs'])) hy
          have hl := mesh_length hc hT (hs rank (by simp)) hx
          have hm := mesh_species_partial (lo := rho) (hi := rho) hc hsp (hs rank (by simp)) (hnear rank (by simp))
            (fun r hr => by rw [hd rank (by simp) r hr]; exact ⟨le_rfl, le_rfl⟩) hx hil
          refine ⟨?_, ?_⟩
          · rw [addArr_line (by rw [hl, i2]), i1, le_antisymm hm.2 hm.1, List.length_cons]
            push_cast
            ring
          · unfold addArr
            rw [List.length_zipWith, hl, i2, min_self]
  exact key.1

/-! ### A concrete case -/

/-- One sightline through a box of size 1. -/
noncomputable def meshConfig (sp : Species) : Config := ⟨meshAbs, 4, 1, [meshLine], 1, 1, sp⟩

/-- A cell of unit density on it, with a mass fraction of the element. -/
noncomputable def meshRaw (x f : ℝ) : Raw := ⟨![x, 0.5 + 0, 0.5], ![0, 0, 0], 0.49, 1, f, 1e4, 1⟩

theorem meshConfig_good (sp : Species) : MeshConfig (meshConfig sp) :=
  ⟨rfl, ⟨by norm_num [meshConfig, meshAbs], by norm_num [meshConfig, meshAbs], by norm_num [meshConfig, meshAbs],
    by norm_num [meshConfig, meshAbs]⟩, by norm_num [meshConfig], by norm_num [meshConfig], by norm_num [meshConfig, meshAbs],
    by simpa [meshConfig] using meshLine_good⟩

theorem meshRaw_near (sp : Species) {x : ℝ} (h0 : 0 ≤ x) (h1 : x < 1) (f : ℝ) : NearSome (meshConfig sp) (meshRaw x f) := by
  refine ⟨meshCell_good h0 h1 le_rfl (by norm_num), meshLine, by simp [meshConfig], ?_⟩
  have := meshTrans h0 h1 le_rfl (show (0 : ℝ) < 0.49 by norm_num)
  change transDist2 1 meshLine.axis (meshCell x 0).pos meshLine.cofm < _
  rw [this]
  norm_num [meshRaw]

theorem mesh_colden_ok (t : ℝ) : ∃ r, compute_colden meshAbs 4 1 [meshLine]
    [{ meshCell 0.25 0 with temp := t }, { meshCell 0.75 0 with temp := t }] (List.replicate (1 * 4) 0) = .ok r := by
  have hn := mesh_near_two (x0 := 0.25) (d0 := 0) (x1 := 0.75) (d1 := 0) (by norm_num) (by norm_num)
      (by norm_num) (by norm_num) (by norm_num) (by norm_num) (by norm_num) (by norm_num)
  have hn' : get_near_particles (build [meshLine] 1) (posH [{ meshCell 0.25 0 with temp := t }, { meshCell 0.75 0 with temp := t }]) =
      [[(0, 0 ^ 2), (1, 0 ^ 2)]] := hn
  have ha : assign_cells 1 meshLine [{ meshCell 0.25 0 with temp := t }, { meshCell 0.75 0 with temp := t }] [(0, 0 ^ 2), (1, 0 ^ 2)] =
      .ok [(0, 0.5), (0.5, 1)] := assign_equal (0 ^ 2) (0 ^ 2)
  unfold compute_colden overLines
  have h0 : ∀ nearby : StdMap ℝ, List.range [nearby].length = [0] := fun _ => rfl
  simp only [hn', h0, List.foldlM_cons]
  have h1 : ∀ nearby : StdMap ℝ, readAt [nearby] ((0 : ℕ) : ℤ) = .ok nearby := fun _ => rfl
  have h2 : readAt [meshLine] ((0 : ℕ) : ℤ) = .ok meshLine := rfl
  rw [h1, ok_bind, h2, ok_bind]
  unfold lineEntries
  have hk : meshAbs.kernel = VORONOI_MESH := rfl
  rw [if_pos hk, ha, ok_bind, ok_bind]
  simp only [List.zip_cons_cons, List.zip_nil_left, coldenLine, List.foldlM_cons, List.foldlM_nil]
  have h3 : readAt [{ meshCell 0.25 0 with temp := t }, { meshCell 0.75 0 with temp := t }] ((0 : ℕ) : ℤ) =
      .ok { meshCell 0.25 0 with temp := t } := rfl
  have h4 : readAt [{ meshCell 0.25 0 with temp := t }, { meshCell 0.75 0 with temp := t }] ((1 : ℕ) : ℤ) =
      .ok { meshCell 0.75 0 with temp := t } := rfl
  rw [h3, ok_bind, h4]
  have h5 : ∀ x d, coord (meshCell x d).pos meshLine.axis = .ok x := fun _ _ => rfl
  rw [h5, ok_bind, if_pos hk, add_colden_eq _ (by norm_num) (by simp), ok_bind, ok_bind, h5, ok_bind,
    if_pos hk, add_colden_eq _ (by norm_num) (by simp), ok_bind]
  exact ⟨_, rfl⟩

theorem mesh_value (sp : Species) (hT : TempRead false sp) (rs : List Raw) (t : ℝ)
    (h : partsOf (meshConfig sp) false rs = [{ meshCell 0.25 0 with temp := t }, { meshCell 0.75 0 with temp := t }]) :
    ∃ a, compute_spectra_mesh (meshConfig sp) false [rs] = .value a := by
  obtain ⟨r, hr⟩ := mesh_colden_ok t
  refine ⟨r, ?_⟩
  rw [compute_spectra_mesh_eq (good_axes (meshConfig_good sp)) false hT _ (by simp)]
  simp only [List.flatten_cons, List.flatten_nil, List.append_nil, h]
  rw [if_neg (by simp)]
  have : interpolate (meshConfig sp) false [{ meshCell 0.25 0 with temp := t }, { meshCell 0.75 0 with temp := t }] = .ok r := hr
  rw [this]

theorem mesh_near' (sp : Species) {x : ℝ} (h0 : 0 ≤ x) (h1 : x < 1) (f : ℝ) : Near (meshConfig sp) (meshRaw x f) :=
  near_of_some (meshConfig_good sp) (meshRaw_near sp h0 h1 f)

theorem toPart_mesh (sp : Species) (x f t : ℝ) : toPart (meshConfig sp) (meshRaw x f) 1 t = { meshCell x 0 with temp := t } := by
  simp [toPart, meshConfig, meshRaw, meshCell]

/-- Witness for `mesh_species_partial`: two equal cells. -/
theorem mesh_all_value : ∃ a, compute_spectra_mesh (meshConfig .all) false [[meshRaw 0.25 1, meshRaw 0.75 1]] = .value a := by
  refine mesh_value .all trivial _ 0 ?_
  have h1 := mesh_near' .all (x := 0.25) (by norm_num) (by norm_num) 1
  have h2 := mesh_near' .all (x := 0.75) (by norm_num) (by norm_num) 1
  have p : ∀ x, prep (meshConfig .all) false (meshRaw x 1) = some { meshCell x 0 with temp := 0 } := by
    intro x
    rw [← toPart_mesh .all x 1]
    simp [prep, meshConfig, elemDen, meshRaw]
  simp [partsOf, h1, h2, p]

example : ∃ a, compute_spectra_mesh (meshConfig .all) false [[meshRaw 0.25 1, meshRaw 0.75 1]] = .value a ∧
    (1 / 2 : ℝ) * 1 ≤ (lineSpectrum a 4 0).sum ∧ (lineSpectrum a 4 0).sum ≤ 2 * 1 := by
  obtain ⟨a, ha⟩ := mesh_all_value
  refine ⟨a, ha, ?_⟩
  have h := mesh_species_partial (lo := 1 / 2) (hi := 2) (meshConfig_good .all) (Or.inl rfl) (by simp)
    ⟨meshRaw 0.25 1, by simp, meshRaw_near _ (by norm_num) (by norm_num) 1⟩ (by
      intro r hr
      simp only [List.flatten_cons, List.flatten_nil, List.append_nil, List.mem_cons, List.not_mem_nil, or_false] at hr
      rcases hr with rfl | rfl <;> norm_num [cellDen, meshConfig, meshRaw]) ha (i := 0) (by simp [meshConfig])
  exact h

/-- Witness for `mesh_ion_fills`: between the two cells lies one without the element, which is left out; the column is that of three
cells with it. -/
example (table : ℝ → ℝ → ℝ) (ht : table 1 1e4 = 1) : ∃ a,
    compute_spectra_mesh (meshConfig (.ion table)) false [[meshRaw 0.25 1, meshRaw 0.5 0, meshRaw 0.75 1]] = .value a ∧
    (lineSpectrum a 4 0).sum = 1 * 1 := by
  have hft : fixTemp 1e4 = 1e4 := if_neg (by norm_num)
  have e1 : ∀ x, elemDen (meshConfig (.ion table)) (meshRaw x 1) = 1 := by intro x; simp [elemDen, meshConfig, meshRaw]
  have e0 : ∀ x, elemDen (meshConfig (.ion table)) (meshRaw x 0) = 0 := by intro x; simp [elemDen, meshConfig, meshRaw]
  have hv : ∃ a, compute_spectra_mesh (meshConfig (.ion table)) false [[meshRaw 0.25 1, meshRaw 0.5 0, meshRaw 0.75 1]] = .value a := by
    refine mesh_value (.ion table) trivial _ 1e4 ?_
    have h1 := mesh_near' (.ion table) (x := 0.25) (by norm_num) (by norm_num) 1
    have h2 := mesh_near' (.ion table) (x := 0.75) (by norm_num) (by norm_num) 1
    have h3 := mesh_near' (.ion table) (x := 0.5) (by norm_num) (by norm_num) 0
    have p : ∀ x, prep (meshConfig (.ion table)) false (meshRaw x 1) = some { meshCell x 0 with temp := 1e4 } := by
      intro x
      have : prep (meshConfig (.ion table)) false (meshRaw x 1) = some (toPart (meshConfig (.ion table)) (meshRaw x 1)
        (elemDen (meshConfig (.ion table)) (meshRaw x 1) * table 1 (fixTemp 1e4)) (fixTemp 1e4)) :=
        if_pos (by rw [e1]; norm_num)
      rw [this, e1, hft, ht, mul_one, toPart_mesh]
    have p0 : ∀ x, prep (meshConfig (.ion table)) false (meshRaw x 0) = none := by
      intro x
      exact if_neg (by rw [e0]; norm_num)
    simp [partsOf, h1, h2, h3, p, p0]
  obtain ⟨a, ha⟩ := hv
  refine ⟨a, ha, ?_⟩
  refine mesh_ion_fills (meshConfig_good _) rfl (by simp)
    ⟨meshRaw 0.25 1, by simp, meshRaw_near _ (by norm_num) (by norm_num) 1, by rw [e1]; norm_num⟩ ?_ ha (i := 0) (by simp [meshConfig])
  intro r hr h0
  simp only [List.flatten_cons, List.flatten_nil, List.append_nil, List.mem_cons, List.not_mem_nil, or_false] at hr
  rcases hr with rfl | rfl | rfl
  · rw [e1]
    change 1 * table 1 (fixTemp 1e4) / 1 = 1
    rw [hft, ht]; norm_num
  · rw [e0] at h0; exact absurd h0 (lt_irrefl _)
  · rw [e1]
    change 1 * table 1 (fixTemp 1e4) / 1 = 1
    rw [hft, ht]; norm_num

/-- Witness for `mesh_ranks_multiply`: two processes with two cells each give twice the column. -/
example : ∃ a, compute_spectra_mesh_mpi (meshConfig .all) false
    [[[meshRaw 0.25 1, meshRaw 0.75 1]], [[meshRaw 0.25 1, meshRaw 0.75 1]]] = .value a ∧
    (lineSpectrum a 4 0).sum = 2 * (1 * 1) := by
  obtain ⟨b, hb⟩ := mesh_all_value
  have hv : ∃ a, compute_spectra_mesh_mpi (meshConfig .all) false
      [[[meshRaw 0.25 1, meshRaw 0.75 1]], [[meshRaw 0.25 1, meshRaw 0.75 1]]] = .value a := by
    simp only [compute_spectra_mesh_mpi, hb]
    exact ⟨_, rfl⟩
  obtain ⟨a, ha⟩ := hv
  refine ⟨a, ha, ?_⟩
  have := mesh_ranks_multiply (rho := 1) (meshConfig_good .all) (Or.inl rfl) (by simp) (by
      intro s hs
      simp only [List.mem_cons, List.not_mem_nil, or_false, or_self] at hs
      subst hs
      exact ⟨meshRaw 0.25 1, by simp, meshRaw_near _ (by norm_num) (by norm_num) 1⟩) (by
      intro s hs r hr
      simp only [List.mem_cons, List.not_mem_nil, or_false, or_self] at hs
      subst hs
      simp only [List.flatten_cons, List.flatten_nil, List.append_nil, List.mem_cons, List.not_mem_nil, or_false] at hr
      rcases hr with rfl | rfl <;> norm_num [cellDen, meshConfig, meshRaw]) ha (i := 0) (by simp [meshConfig])
  simpa [meshConfig] using this

/-- Witness for `mesh_ion_fails`: two sightlines, of which the second passes a cell without the element only. -/
example (table : ℝ → ℝ → ℝ) (a : List ℝ) : compute_spectra_mesh
    { meshConfig (.ion table) with lines := [meshLine, ⟨1, ![0, 0.01, 0.01]⟩] } false
      [[meshRaw 0.25 1, ⟨![0.5, 0.01, 0.01], ![0, 0, 0], 0.1, 1, 0, 1e4, 1⟩]] ≠ .value a := by
  have hg : MeshConfig { meshConfig (.ion table) with lines := [meshLine, ⟨1, ![0, 0.01, 0.01]⟩] } := by
    refine ⟨rfl, (meshConfig_good (.ion table)).abs, by norm_num [meshConfig], by norm_num [meshConfig], by norm_num [meshConfig, meshAbs], ?_⟩
    intro l hl
    simp only [List.mem_cons, List.not_mem_nil, or_false] at hl
    rcases hl with rfl | rfl
    · exact meshLine_good
    · refine ⟨by simp, fun i => ?_⟩
      fin_cases i <;> norm_num [meshConfig]
  have e1 : ∀ x, elemDen { meshConfig (.ion table) with lines := [meshLine, ⟨1, ![0, 0.01, 0.01]⟩] } (meshRaw x 1) = 1 := by
    intro x; simp [elemDen, meshConfig, meshRaw]
  refine mesh_ion_fails hg rfl false (by simp) ?_ ⟨meshRaw 0.25 1, by simp, ?_, by rw [e1]; norm_num⟩ (i := 1) (l := ⟨1, ![0, 0.01, 0.01]⟩) rfl ?_ a
  · intro r hr
    simp only [List.flatten_cons, List.flatten_nil, List.append_nil, List.mem_cons, List.not_mem_nil, or_false] at hr
    rcases hr with rfl | rfl
    · intro i; fin_cases i <;> norm_num [meshRaw, meshConfig]
    · intro i; fin_cases i <;> norm_num [meshConfig]
  · obtain ⟨h1, l, hl, h2⟩ := meshRaw_near (.ion table) (x := 0.25) (by norm_num) (by norm_num) 1
    simp only [meshConfig, List.mem_singleton] at hl
    subst hl
    exact ⟨h1, meshLine, by simp, h2⟩
  · intro r hr h0
    simp only [List.flatten_cons, List.flatten_nil, List.append_nil, List.mem_cons, List.not_mem_nil, or_false] at hr
    rcases hr with rfl | rfl
    · have hr : round (49 / 100 : ℝ) = 0 := by rw [round_eq, Int.floor_eq_iff]; norm_num
      have h1 : (![0.25, 0.5 + 0, 0.5] : Fin 3 → ℝ) 1 - (![0, 0.01, 0.01] : Fin 3 → ℝ) 1 = 49 / 100 := by simp; norm_num
      have h2 : (![0.25, 0.5 + 0, 0.5] : Fin 3 → ℝ) 2 - (![0, 0.01, 0.01] : Fin 3 → ℝ) 2 = 49 / 100 := by simp; norm_num
      unfold Spec.transDist2 Spec.perDist
      rw [Fin.sum_univ_three]
      simp only [meshRaw, meshConfig, h1, h2, div_one, hr]
      norm_num
    · norm_num [elemDen, meshConfig] at h0

/-- C93 is false of BigFile snapshots: the number of segments is asked for without saying of which particles, which such a snapshot
does not answer; so there is never a spectrum. For HDF5 snapshots nothing changes. -/
theorem mesh_bigfile_fails (c : Config) (get_tau : Bool) (own : List (List Raw)) :
    (∃ e, WeightMean.meshFrom .bigfile c get_tau own = .raised e) ∧
    (∀ seg segs, own = seg :: segs → (∃ p, read_particle_data c get_tau seg = .ok p) →
      WeightMean.meshFrom .bigfile c get_tau own = .raised .typeError) ∧
    WeightMean.meshFrom .hdf5 c get_tau own = compute_spectra_mesh c get_tau own := by
  unfold WeightMean.meshFrom
  cases own with
  | nil => exact ⟨⟨_, rfl⟩, by simp, rfl⟩
  | cons seg segs =>
    dsimp only
    cases hr : read_particle_data c get_tau seg with
    | error e =>
      refine ⟨⟨e, rfl⟩, ?_, ?_⟩
      · rintro s t h ⟨p, hp⟩
        cases h
        rw [hr] at hp
        cases hp
      · have : compute_spectra_mesh c get_tau (seg :: segs) = .raised e := by
          unfold compute_spectra_mesh
          dsimp only
          rw [hr]
          rfl
        rw [this]
    | ok p =>
      refine ⟨⟨_, rfl⟩, fun _ _ _ _ => rfl, ?_⟩
      unfold WeightMean.countSegments
      dsimp only
      rw [List.take_length]

end Verif.Props.MeshSpecies
