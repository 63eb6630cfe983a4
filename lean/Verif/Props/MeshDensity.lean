import Verif.Props.DensityRounding
import Verif.Props.MeshSpecies

/-!
C126 for the Voronoi mesh: the division of a sightline among cells does not depend on densities.
-/

namespace Verif.Props.DensityRounding
open Verif Verif.Spec Verif.Props Verif.PartInt Verif.IndexTable Verif.Absorption Verif.ComputeSpectra Verif.Rounding
open Verif.Props.CellRounding (Single roundTo_single)

/-! ### Specification -/

/-- Both computations give arrays that agree up to a fraction `e`, or both fail in the same way. -/
def SameOutcome (e : ℝ) : Outcome (List ℝ) → Outcome (List ℝ) → Prop
  | .value a', .value a => List.Forall₂ (fun single exact => |single - exact| ≤ e * exact) a' a
  | .raised x', .raised x => x' = x
  | .crashed x', .crashed x => x' = x
  | _, _ => False

/-! ### Proofs -/

/-- Arrays of `N` elements that agree up to ten roundings. -/
def Sim (N : ℕ) (a' a : List ℝ) : Prop := a'.length = N ∧ a.length = N ∧ ∀ j : ℕ, Within (10 * unit) (a'.getD j 0) (a.getD j 0)

/-- The same failure, or such arrays. -/
def SimRes (N : ℕ) : CRes (List ℝ) → CRes (List ℝ) → Prop
  | .ok a', .ok a => Sim N a' a
  | .error x', .error x => x' = x
  | _, _ => False

theorem simRes_foldlM {β : Type} {N : ℕ} {g' g : List ℝ → β → CRes (List ℝ)} (xs : List β)
    (h : ∀ b ∈ xs, ∀ a' a, Sim N a' a → SimRes N (g' a' b) (g a b)) {a' a : List ℝ} (ha : Sim N a' a) :
    SimRes N (xs.foldlM g' a') (xs.foldlM g a) := by
  induction xs generalizing a' a with
  | nil => exact ha
  | cons b xs ih =>
    have h1 := h b (by simp) a' a ha
    rw [List.foldlM_cons, List.foldlM_cons]
    cases e' : g' a' b with
    | error x' =>
      cases e : g a b with
      | error x => rw [e', e] at h1; exact h1
      | ok c => rw [e', e] at h1; exact h1.elim
    | ok c' =>
      cases e : g a b with
      | error x => rw [e', e] at h1; exact h1.elim
      | ok c =>
        rw [e', e] at h1
        exact ih (fun b hb => h b (by simp [hb])) h1

theorem simRes_bind {α : Type} {N : ℕ} (x : CRes α) {g' g : α → CRes (List ℝ)} (h : ∀ a, x = .ok a → SimRes N (g' a) (g a)) :
    SimRes N (x >>= g') (x >>= g) := by
  cases x with
  | error e => exact rfl
  | ok a => exact h a rfl

theorem coldenF_close (L : LineAbsorption) (off nbins : ℕ) {dr2 dens' dens pos h : ℝ} (hd : Within (10 * unit) dens' dens)
    (hh : L.kernel = VORONOI_MESH ∨ 0 ≤ h) (m : ℕ) :
    Within (10 * unit) (coldenF L off nbins dr2 dens' pos h m) (coldenF L off nbins dr2 dens pos h m) := by
  have hnn : 0 ≤ coldenF L off nbins dr2 dens pos h m := by
    rcases hh with hk | hh
    · unfold coldenF
      have : ∀ a b, 0 ≤ dens * get_kern_frac L.kernel a b h dr2 ((h - dr2) / 2) := by
        intro a b
        refine mul_nonneg hd.1 ?_
        rw [hk]
        unfold get_kern_frac
        rw [if_neg (by decide), if_neg (by decide), if_pos rfl]
        unfold arepo_kern_frac
        exact le_max_left _ _
      split_ifs
      · exact le_rfl
      · exact le_rfl
      · exact pixelSum_nonneg (fun z _ => this _ _) m
    · exact WeightMean.coldenF_nonneg _ _ _ hd.1 hh m
  refine ⟨hnn, ?_⟩
  obtain ⟨hd0, hd⟩ := hd
  rcases hd0.eq_or_lt with h0 | h0
  · have hz : dens' = dens := by
      rw [← h0] at hd ⊢
      simpa using hd
    rw [hz, sub_self, abs_zero]
    exact mul_nonneg (mul_nonneg (by norm_num) unit_pos.le) hnn
  · have e1 : dens' = dens' / dens * dens := by field_simp
    rw [e1, WeightMean.coldenF_scale]
    have e : dens' / dens * coldenF L off nbins dr2 dens pos h m - coldenF L off nbins dr2 dens pos h m =
        (dens' - dens) / dens * coldenF L off nbins dr2 dens pos h m := by field_simp
    rw [e, abs_mul, abs_div, abs_of_pos h0, abs_of_nonneg hnn]
    refine mul_le_mul_of_nonneg_right ?_ hnn
    rwa [div_le_iff₀ h0]

theorem Sim.add {N : ℕ} {a' a : List ℝ} (h : Sim N a' a) {f' f : ℕ → ℝ} (hf : ∀ m, Within (10 * unit) (f' m) (f m)) : Sim N (arrAdd a' f') (arrAdd a f) := by
  obtain ⟨h1, h2, h3⟩ := h
  refine ⟨by simpa using h1, by simpa using h2, fun j => ?_⟩
  have h3 := h3 j
  simp only [List.getD_eq_getElem?_getD, arrAdd_getElem?] at h3 ⊢
  by_cases hj : j < N
  · rw [List.getElem?_eq_getElem (by omega), List.getElem?_eq_getElem (by omega)] at h3 ⊢
    simp only [Option.map_some, Option.getD_some] at h3 ⊢
    refine ⟨add_nonneg h3.1 (hf j).1, ?_⟩
    rw [add_sub_add_comm, mul_add]
    exact (abs_add_le _ _).trans (add_le_add h3.2 (hf j).2)
  · rw [List.getElem?_eq_none (by omega), List.getElem?_eq_none (by omega)]
    exact ⟨le_rfl, by simp⟩

theorem readAt_map {α β : Type} (f : α → β) (xs : List α) (i : ℤ) : readAt (xs.map f) i = (readAt xs i).map f := by
  unfold readAt
  split
  · rw [List.getElem?_map]
    cases xs[i.toNat]? <;> rfl
  · rfl

theorem mapM_readAt {α β : Type} (f : α → β) (xs : List α) (ns : StdMap ℝ) :
    ns.mapM (fun it => readAt (xs.map f) it.1) = (ns.mapM (fun it => readAt xs it.1)).map (List.map f) := by
  induction ns with
  | nil => rfl
  | cons n ns ih =>
    rw [List.mapM_cons, List.mapM_cons, ih, readAt_map]
    cases readAt xs n.1 with
    | error e => rfl
    | ok x =>
      cases ns.mapM (fun it => readAt xs it.1) with
      | error e => rfl
      | ok ys => rfl

theorem mapM_comp {α β γ : Type} (f : α → β) (g : β → CRes γ) (xs : List α) : (xs.map f).mapM g = xs.mapM (fun x => g (f x)) := by
  induction xs with
  | nil => rfl
  | cons x xs ih => rw [List.map_cons, List.mapM_cons, List.mapM_cons, ih]

/-- The limits of cells depend on positions alone. -/
theorem assign_positions {α : Type} {f' f : α → Part} (hpos : ∀ r, (f' r).pos = (f r).pos) (box : ℝ) (line : Line) (xs : List α) (ns : StdMap ℝ) :
    assign_cells box line (xs.map f') ns = assign_cells box line (xs.map f) ns := by
  unfold assign_cells
  rw [mapM_readAt, mapM_readAt]
  cases ns.mapM (fun it => readAt xs it.1) with
  | error e => rfl
  | ok ys =>
    have hb : ∀ {β γ : Type} (x : β) (g : β → CRes γ), (Except.ok x >>= g) = g x := fun _ _ => rfl
    simp only [Except.map, hb, mapM_comp, hpos, List.length_map, List.zip_map_left, List.map_map, Function.comp_def, Prod.map]

theorem colden_any {α : Type} {f' f : α → Part} (hcl : ∀ r, Close (f' r) (f r)) (L : LineAbsorption) {nbins : ℕ} (hn : 0 < nbins) (box : ℝ)
    (lines : List Line) (xs : List α) {a' a : List ℝ} (ha : Sim (lines.length * nbins) a' a) :
    SimRes (lines.length * nbins) (compute_colden L nbins box lines (xs.map f') a') (compute_colden L nbins box lines (xs.map f) a) := by
  have hph : posH (xs.map f') = posH (xs.map f) := by
    unfold posH
    rw [List.map_map, List.map_map]
    refine List.map_congr_left fun r _ => ?_
    simp only [Function.comp, (hcl r).1, (hcl r).2.1]
  unfold compute_colden overLines
  rw [hph]
  refine simRes_foldlM _ (fun i _ a' a ha => ?_) ha
  refine simRes_bind _ fun nearby _ => simRes_bind _ fun line hline => ?_
  have hi : i < lines.length := by
    by_contra hc
    unfold readAt at hline
    rw [if_pos (by omega), List.getElem?_eq_none (by simp; omega)] at hline
    cases hline
  have hle : i * nbins + nbins ≤ lines.length * nbins := slice_le hi
  have hent : lineEntries L.kernel box line (xs.map f') nearby = lineEntries L.kernel box line (xs.map f) nearby := by
    unfold lineEntries
    rw [assign_positions fun r => (hcl r).1]
  rw [hent]
  refine simRes_bind _ fun entries _ => ?_
  unfold coldenLine
  refine simRes_foldlM _ (fun e _ a' a ha => ?_) ha
  simp only [readAt_map]
  cases readAt xs e.1.1 with
  | error x => exact rfl
  | ok r =>
    obtain ⟨h1, h2, h3, h4⟩ := hcl r
    change SimRes _ (coord (f' r).pos line.axis >>= _) (coord (f r).pos line.axis >>= _)
    rw [h1]
    refine simRes_bind _ fun ppos _ => ?_
    have l1 : i * nbins + nbins ≤ a'.length := by rw [ha.1]; exact hle
    have l2 : i * nbins + nbins ≤ a.length := by rw [ha.2.1]; exact hle
    split
    · rename_i hk
      rw [add_colden_eq L hn l1, add_colden_eq L hn l2]
      exact ha.add fun m => coldenF_close _ _ _ h4 (Or.inl hk) m
    · rw [add_colden_eq L hn l1, add_colden_eq L hn l2, h2]
      exact ha.add fun m => coldenF_close _ _ _ h4 (Or.inr h3) m

/-- Lists of close particles as one list of pairs. -/
theorem close_pairs {ps' ps : List Part} (h : List.Forall₂ Close ps' ps) :
    ∃ xs : List {q : Part × Part // Close q.1 q.2}, ps' = xs.map (fun q => q.1.1) ∧ ps = xs.map (fun q => q.1.2) := by
  induction h with
  | nil => exact ⟨[], rfl, rfl⟩
  | cons h _ ih =>
    obtain ⟨xs, rfl, rfl⟩ := ih
    exact ⟨⟨(_, _), h⟩ :: xs, rfl, rfl⟩

theorem sim_forall {N : ℕ} {a' a : List ℝ} (h : Sim N a' a) : List.Forall₂ (fun single exact => |single - exact| ≤ 10 * (2 : ℝ)⁻¹ ^ 24 * exact) a' a := by
  obtain ⟨h1, h2, h3⟩ := h
  rw [List.forall₂_iff_get]
  refine ⟨by omega, fun j j1 j2 => ?_⟩
  have := (h3 j).2
  rw [List.getD_eq_getElem?_getD, List.getD_eq_getElem?_getD, List.getElem?_eq_getElem j1, List.getElem?_eq_getElem j2] at this
  exact this

/-- What has been loaded so far. -/
def Loaded : Option (List Part) → Option (List Part) → Prop
  | none, none => True
  | some ps', some ps => List.Forall₂ Close ps' ps
  | _, _ => False

theorem read_loaded {fl : ℝ → ℝ} (hf : Single fl) (h1 : fl 1 = 1) {c : Config} (hc : GoodAxes c) (hr : 0 ≤ c.rscale) (ha : 0 < c.amumass)
    (hs : GoodSpecies c.sp) {seg : List Raw} (hg : ∀ r ∈ seg, GoodGas r) :
    ∃ o' o, DensityRounding.read_particle_data fl c false seg = .ok o' ∧ ComputeSpectra.read_particle_data (tableSingle fl c) false seg = .ok o ∧ Loaded o' o := by
  rcases density_single hf h1 hc hr ha hs hg with ⟨e1, e2⟩ | ⟨sel, f, f', e1, e2, hcl⟩
  · exact ⟨none, none, e2, e1, trivial⟩
  · refine ⟨_, _, e2, e1, ?_⟩
    change List.Forall₂ Close _ _
    rw [List.forall₂_map_left_iff, List.forall₂_map_right_iff, List.forall₂_same]
    exact hcl

theorem rest_loaded {fl : ℝ → ℝ} (hf : Single fl) (h1 : fl 1 = 1) {c : Config} (hc : GoodAxes c) (hr : 0 ≤ c.rscale) (ha : 0 < c.amumass)
    (hs : GoodSpecies c.sp) {segs : List (List Raw)} (hg : ∀ seg ∈ segs, ∀ r ∈ seg, GoodGas r) {o' o : Option (List Part)} (ho : Loaded o' o) :
    ∃ p' p, DensityRounding.loadRest fl c false o' segs = .ok p' ∧ ComputeSpectra.loadRest (tableSingle fl c) false o segs = .ok p ∧ Loaded p' p := by
  have hb : ∀ (x : Option (List Part)) (f : Option (List Part) → Py (Option (List Part))), (Except.ok x >>= f) = f x := fun _ _ => rfl
  induction segs generalizing o' o with
  | nil => exact ⟨o', o, rfl, rfl, ho⟩
  | cons seg segs ih =>
    obtain ⟨q', q, e1, e2, hq⟩ := read_loaded hf h1 hc hr ha hs (hg seg (by simp))
    have ih := fun {o' o : Option (List Part)} (ho : Loaded o' o) => ih (fun s hs => hg s (by simp [hs])) ho
    rw [DensityRounding.loadRest, ComputeSpectra.loadRest, e1, e2, hb, hb]
    match q', q, hq, o', o, ho with
    | none, none, _, _, _, ho => exact ih ho
    | some ps', some ps, hq, none, none, _ => exact ih (o' := some ps') (o := some ps) hq
    | some ps', some ps, hq, some qs', some qs, ho => exact ih (o' := some (qs' ++ ps')) (o := some (qs ++ ps)) (List.rel_append ho hq)

/-- C126 for all kernels, when all segments are loaded first, as for the Voronoi mesh: the column densities of exact arithmetic up to ten roundings, or the
same failure. -/
theorem mesh_column_single {fl : ℝ → ℝ} (hf : Single fl) (h1 : fl 1 = 1) {c : Config} (hc : GoodAxes c) (hn : 0 < c.nbins)
    (hr : 0 ≤ c.rscale) (ha : 0 < c.amumass) (hs : GoodSpecies c.sp) {segs : List (List Raw)} (hg : ∀ seg ∈ segs, ∀ r ∈ seg, GoodGas r) :
    SameOutcome (10 * (2 : ℝ)⁻¹ ^ 24) (DensityRounding.compute_spectra_mesh fl c false segs)
      (ComputeSpectra.compute_spectra_mesh (tableSingle fl c) false segs) := by
  have hb : ∀ (x : Option (List Part)) (f : Option (List Part) → Py (Option (List Part))), (Except.ok x >>= f) = f x := fun _ _ => rfl
  have hz : zeros (tableSingle fl c) = zeros c := by
    unfold tableSingle
    split <;> rfl
  have hint : interpolate (tableSingle fl c) = interpolate c := by
    unfold tableSingle
    split <;> rfl
  have hz0 : Sim (c.lines.length * c.nbins) (zeros c) (zeros c) := by
    refine ⟨by simp [zeros], by simp [zeros], fun j => ?_⟩
    have : (zeros c).getD j 0 = 0 := by
      unfold zeros
      rw [List.getD_eq_getElem?_getD, List.getElem?_replicate]
      split <;> rfl
    rw [this]
    exact ⟨le_rfl, by simp⟩
  cases segs with
  | nil => exact rfl
  | cons seg segs =>
    obtain ⟨o', o, e1, e2, ho⟩ := read_loaded hf h1 hc hr ha hs (hg seg (by simp))
    obtain ⟨p', p, e3, e4, hp⟩ := rest_loaded hf h1 hc hr ha hs (segs := segs) (fun s hm => hg s (List.mem_cons_of_mem _ hm)) ho
    unfold DensityRounding.compute_spectra_mesh ComputeSpectra.compute_spectra_mesh
    simp only [e1, e2, hb, e3, e4]
    match p', p, hp with
    | none, none, _ =>
      rw [hz]
      exact sim_forall hz0
    | some ps', some ps, hp =>
      obtain ⟨xs, rfl, rfl⟩ := close_pairs hp
      have h := colden_any (fun q : {q : Part × Part // Close q.1 q.2} => q.2) c.L hn c.box c.lines xs hz0
      have hi : ∀ parts, interpolate c false parts = compute_colden c.L c.nbins c.box c.lines parts (zeros c) := fun _ => rfl
      simp only [hint, hi]
      revert h
      cases compute_colden c.L c.nbins c.box c.lines (xs.map (fun q => q.1.1)) (zeros c) <;>
        cases compute_colden c.L c.nbins c.box c.lines (xs.map (fun q => q.1.2)) (zeros c) <;> intro h
      · exact h
      · exact h.elim
      · exact h.elim
      · exact sim_forall h

/-! ### The hypotheses are met -/

open Verif.Props.MeshSpecies

/-- Two cells of a mesh, for which there is a value. -/
example : ∃ r r', ComputeSpectra.compute_spectra_mesh (meshConfig .all) false [[meshRaw 0.25 1, meshRaw 0.75 1]] = .value r ∧
    DensityRounding.compute_spectra_mesh (roundTo 24) (meshConfig .all) false [[meshRaw 0.25 1, meshRaw 0.75 1]] = .value r' ∧
    List.Forall₂ (fun single exact => |single - exact| ≤ 10 * (2 : ℝ)⁻¹ ^ 24 * exact) r' r := by
  obtain ⟨r, hr⟩ := mesh_all_value
  have h := mesh_column_single roundTo_single roundTo_one (c := meshConfig .all) (good_axes (meshConfig_good _)) (by norm_num [meshConfig])
    (by norm_num [meshConfig]) (by norm_num [meshConfig]) trivial (segs := [[meshRaw 0.25 1, meshRaw 0.75 1]]) (by
      intro seg hs r hr
      have : ∃ x, r = meshRaw x 1 := by
        rw [List.mem_singleton.1 hs] at hr
        simp only [List.mem_cons, List.not_mem_nil, or_false] at hr
        rcases hr with rfl | rfl <;> exact ⟨_, rfl⟩
      obtain ⟨x, rfl⟩ := this
      exact ⟨by norm_num [meshRaw], by norm_num [meshRaw], by norm_num [meshRaw], by norm_num [meshRaw]⟩)
  rw [no_table (roundTo 24) (c := meshConfig .all) (Or.inr rfl), hr] at h
  cases e : DensityRounding.compute_spectra_mesh (roundTo 24) (meshConfig .all) false [[meshRaw 0.25 1, meshRaw 0.75 1]] with
  | value r' => rw [e] at h; exact ⟨r, r', hr, rfl, h⟩
  | raised x => rw [e] at h; exact h.elim
  | crashed x => rw [e] at h; exact h.elim

end Verif.Props.DensityRounding
