import Verif.Lemmas.ComputeSpectra
import Verif.Props.NearLines

/-!
C06: spectra are additive over particles.
-/

namespace Verif.Props

open Verif PartInt IndexTable Absorption ComputeSpectra

/-- Elementwise sum of arrays, starting from `start`. -/
noncomputable def sumArrays (start : List ℝ) (xs : List (List ℝ)) : List ℝ := xs.foldl addArr start

theorem sumArrays_arrAdd {α : Type} (z : List ℝ) (hz : ∀ x ∈ z, x = 0) (xs : List α) (f : α → ℕ → ℝ)
    (start : List ℝ) (hs : start.length = z.length) :
    sumArrays start (xs.map (fun x => arrAdd z (f x))) =
      arrAdd start (fun m => (xs.map (fun x => f x m)).sum) := by
  induction xs generalizing start with
  | nil => simp [sumArrays, arrAdd_zero]
  | cons x xs ih =>
    have h1 : addArr start (arrAdd z (f x)) = arrAdd start (f x) := by
      apply List.ext_getElem?
      intro m
      unfold addArr
      rw [List.getElem?_zipWith, arrAdd_getElem?, arrAdd_getElem?]
      by_cases hm : m < start.length
      · have h2 : m < z.length := by omega
        rw [List.getElem?_eq_getElem hm, List.getElem?_eq_getElem h2, hz _ (List.getElem_mem h2)]
        simp
      · rw [List.getElem?_eq_none (by omega)]; simp
    unfold sumArrays at ih ⊢
    rw [List.map_cons, List.foldl_cons, h1, ih _ (by simpa using hs), arrAdd_arrAdd]
    simp

/-- `run` is additive: run on a list of particles it adds to the output array the sum of the arrays
it computes for each particle alone. -/
def AdditiveOver (run : List Part → List ℝ → CRes (List ℝ)) (size : ℕ) : Prop :=
  ∃ spectrum : Part → List ℝ,
    (∀ p, run [p] (List.replicate size 0) = .ok (spectrum p)) ∧
    ∀ parts out, out.length = size → run parts out = .ok (sumArrays out (parts.map spectrum))

theorem additive_of_eq {run : List Part → List ℝ → CRes (List ℝ)} {size : ℕ} (F : Part → ℕ → ℝ)
    (h : ∀ parts out, out.length = size → run parts out = .ok (arrAdd out (fun m =>
      (parts.map (fun p => F p m)).sum))) : AdditiveOver run size := by
  refine ⟨fun p => arrAdd (List.replicate size 0) (F p), ?_, ?_⟩
  · intro p
    rw [h _ _ (by simp)]; simp
  · intro parts out ho
    rw [h _ _ ho, sumArrays_arrAdd (List.replicate size 0) (by simp) parts F out (by simpa using ho)]

/-- C06, column density: the interpolated array is the sum of single-particle arrays. -/
theorem colden_additive (L : LineAbsorption) (hk : L.kernel ≠ VORONOI_MESH) {nbins : ℕ} (hn : 0 < nbins)
    (box : ℝ) (lines : List Line) (hax : ∀ l ∈ lines, l.axis = 1 ∨ l.axis = 2 ∨ l.axis = 3) :
    AdditiveOver (compute_colden L nbins box lines) (lines.length * nbins) :=
  additive_of_eq _ (fun parts out ho => compute_colden_eq L hk hn box lines hax parts out ho)

/-- C06, optical depth: the interpolated array is the sum of single-particle arrays. -/
theorem tau_additive (L : LineAbsorption) (hk : L.kernel ≠ VORONOI_MESH) {nbins : ℕ} (hn : 0 < nbins)
    (box : ℝ) (lines : List Line) (hax : ∀ l ∈ lines, l.axis = 1 ∨ l.axis = 2 ∨ l.axis = 3) :
    AdditiveOver (compute_tau L nbins box lines) (lines.length * nbins) :=
  additive_of_eq _ (fun parts out ho => compute_tau_eq L hk hn box lines hax parts out ho)

/-- C06: in either mode the order of the particles handed to the interpolator is irrelevant, and
running it on two batches one after the other into the same array is running it once. -/
theorem interpolation_order_batches (L : LineAbsorption) (hk : L.kernel ≠ VORONOI_MESH) {nbins : ℕ}
    (hn : 0 < nbins) (box : ℝ) (lines : List Line)
    (hax : ∀ l ∈ lines, l.axis = 1 ∨ l.axis = 2 ∨ l.axis = 3)
    (run : List Part → List ℝ → CRes (List ℝ))
    (hrun : run = compute_colden L nbins box lines ∨ run = compute_tau L nbins box lines)
    (out : List ℝ) (ho : out.length = lines.length * nbins) :
    (∀ ps qs, ps.Perm qs → run ps out = run qs out) ∧
    (∀ ps qs, run (ps ++ qs) out = run ps out >>= run qs) := by
  obtain ⟨F, hF⟩ : ∃ F : Part → ℕ → ℝ, ∀ parts out, out.length = lines.length * nbins →
      run parts out = .ok (arrAdd out (fun m => (parts.map (fun p => F p m)).sum)) := by
    rcases hrun with rfl | rfl
    · exact ⟨_, fun parts out ho => compute_colden_eq L hk hn box lines hax parts out ho⟩
    · exact ⟨_, fun parts out ho => compute_tau_eq L hk hn box lines hax parts out ho⟩
  constructor
  · intro ps qs hp
    rw [hF _ _ ho, hF _ _ ho]
    congr 2
    funext m
    exact (hp.map _).sum_eq
  · intro ps qs
    rw [hF _ _ ho, hF _ _ ho, ok_bind, hF _ _ (by simpa using ho), arrAdd_arrAdd]
    simp

/-- C06, whole computation: for every division of the snapshot into segments the spectrum is the sum
over all the gas particles of the spectrum of a snapshot holding that particle alone. -/
theorem snapshot_additive {c : Config} (hc : GoodConfig c) (get_tau : Bool)
    (hsp : TempRead get_tau c.sp) :
    ∃ spectrum : Raw → List ℝ,
      (∀ r, compute_spectra c get_tau [[r]] = .value (spectrum r)) ∧
      ∀ segs, segs ≠ [] →
        compute_spectra c get_tau segs = .value (sumArrays (zeros c) (segs.flatten.map spectrum)) := by
  refine ⟨fun r => arrAdd (zeros c) (contrib c get_tau r), ?_, ?_⟩
  · intro r
    rw [compute_spectra_eq hc get_tau hsp _ (by simp)]; simp
  · intro segs hne
    rw [compute_spectra_eq hc get_tau hsp _ hne,
      sumArrays_arrAdd (zeros c) (by simp [zeros]) segs.flatten _ _ rfl]

/-- C06: two divisions of the same particles into segments, in any order, give the same spectrum. -/
theorem segments_irrelevant {c : Config} (hc : GoodConfig c) (get_tau : Bool)
    (hsp : TempRead get_tau c.sp) {segs segs' : List (List Raw)} (h : segs ≠ []) (h' : segs' ≠ [])
    (hp : segs.flatten.Perm segs'.flatten) :
    compute_spectra c get_tau segs = compute_spectra c get_tau segs' := by
  rw [compute_spectra_eq hc get_tau hsp _ h, compute_spectra_eq hc get_tau hsp _ h']
  congr 2
  funext m
  exact (hp.map _).sum_eq

/-- C06: distributing the segments over any number of MPI ranks, each with at least one, gives the
spectrum computed by a single process from the same particles. -/
theorem ranks_irrelevant {c : Config} (hc : GoodConfig c) (get_tau : Bool)
    (hsp : TempRead get_tau c.sp) {segs : List (List Raw)} {ranks : List (List (List Raw))}
    (h : segs ≠ []) (h' : ∀ r ∈ ranks, r ≠ []) (hp : ranks.flatten.flatten.Perm segs.flatten) :
    compute_spectra_mpi c get_tau ranks = compute_spectra c get_tau segs := by
  rw [compute_spectra_eq hc get_tau hsp _ h, compute_spectra_mpi_eq hc get_tau hsp _ h']
  congr 2
  funext m
  exact (hp.map _).sum_eq

/-- C06: dropping particles that are not near any sightline does not change the spectrum. -/
theorem far_particles_irrelevant {c : Config} (hc : GoodConfig c) (get_tau : Bool)
    (hsp : TempRead get_tau c.sp) (seg : List Raw) (far : List Raw)
    (hfar : ∀ r ∈ far, near_lines c.box [(r.pos, r.h)] c.lines = []) :
    compute_spectra c get_tau [seg ++ far] = compute_spectra c get_tau [seg] := by
  rw [compute_spectra_eq hc get_tau hsp _ (by simp), compute_spectra_eq hc get_tau hsp _ (by simp)]
  congr 2
  funext m
  simp only [List.flatten_cons, List.flatten_nil, List.append_nil, List.map_append, List.sum_append]
  have : (far.map (fun r => contrib c get_tau r m)).sum = 0 := by
    apply List.sum_eq_zero
    intro x hx
    obtain ⟨r, hr, rfl⟩ := List.mem_map.1 hx
    apply contrib_of_far
    intro hn
    have h0 : (0 : ℕ) ∈ near_lines c.box [(r.pos, r.h)] c.lines :=
      (mem_near_lines_sched _ _ _ _ _).2 ⟨by simp, _, rfl, hn⟩
    rw [hfar r hr] at h0
    cases h0
  rw [this, add_zero]

/-- C06: the selection of particles made in Python is harmless: interpolating all the particles of a
segment, near or not, gives the same array (neutral hydrogen or a whole element). -/
theorem preselection_harmless {c : Config} (hc : GoodConfig c) (get_tau : Bool)
    (hsp : c.sp = .HI ∨ c.sp = .all) (seg : List Raw) :
    ∃ a, interpolate_single_file c get_tau seg = .value a ∧
      interpolate c get_tau (seg.map (fun r => toPart c r
        (elemDen c r * (match c.sp with | .HI => r.nHI | _ => 1))
        (if get_tau then fixTemp r.temp else 0))) = .ok a := by
  have hT : TempRead get_tau c.sp := by rcases hsp with h | h <;> rw [h] <;> trivial
  refine ⟨_, interpolate_single_file_eq hc get_tau hT seg, ?_⟩
  rw [interpolate_eq hc]
  congr 2
  funext m
  rw [List.map_map]
  congr 1
  apply List.map_congr_left
  intro r _
  unfold contrib prep
  rcases hsp with h | h <;> simp [h]

/-- C06, moving mesh on one process: the division into segments is irrelevant. -/
theorem mesh_segments_irrelevant {c : Config} (hc : GoodAxes c) (get_tau : Bool)
    (hsp : TempRead get_tau c.sp) {segs segs' : List (List Raw)} (h : segs ≠ []) (h' : segs' ≠ [])
    (hp : segs.flatten = segs'.flatten) :
    compute_spectra_mesh c get_tau segs = compute_spectra_mesh c get_tau segs' := by
  rw [compute_spectra_mesh_eq hc get_tau hsp _ h, compute_spectra_mesh_eq hc get_tau hsp _ h', hp]

/-! ### Concrete cases -/

/-- One sightline along the third axis at (5,5) in a box of 10, four pixels, top-hat kernel. -/
noncomputable def exConfig (sp : Species) : Config where
  L := ⟨fun _ _ => 1, 0, 1, 1, 1, 1, 10, 0⟩
  nbins := 4
  box := 10
  lines := [⟨3, ![5, 5, 0]⟩]
  rscale := 1
  amumass := 1
  sp := sp

theorem exConfig_good (sp : Species) : GoodConfig (exConfig sp) :=
  ⟨by norm_num [exConfig], by simp [exConfig], by
    change (0 : ℤ) ≠ 2; decide⟩

/-- A particle of unit density on that sightline. -/
noncomputable def exRaw (z : ℝ) : Raw := ⟨![5, 5, z], ![0, 0, 0], 1, 1, 1, 1e4, 1⟩

/-- Witness: two particles read as one segment, as two segments, or by two ranks. -/
example : compute_spectra (exConfig .HI) false [[exRaw 2, exRaw 9]] =
      compute_spectra (exConfig .HI) false [[exRaw 9], [exRaw 2]] ∧
    compute_spectra_mpi (exConfig .HI) false [[[exRaw 2]], [[exRaw 9]]] =
      compute_spectra (exConfig .HI) false [[exRaw 2, exRaw 9]] :=
  ⟨segments_irrelevant (c := exConfig .HI) (exConfig_good _) _ trivial (by simp) (by simp) (List.Perm.swap _ _ _),
   ranks_irrelevant (c := exConfig .HI) (exConfig_good _) _ trivial (by simp) (by simp) (List.Perm.refl _)⟩

theorem exNear (sp : Species) {z : ℝ} (h0 : 0 ≤ z) (h1 : z < 10) : Near (exConfig sp) (exRaw z) := by
  have hl : ∀ l ∈ (exConfig sp).lines, GoodLine 10 l := by
    intro l hl
    simp only [exConfig, List.mem_singleton] at hl
    subst hl
    refine ⟨by simp, ?_⟩
    intro i; fin_cases i <;> norm_num
  have hp : GoodPart 10 ((exRaw z).pos, (exRaw z).h) := by
    refine ⟨?_, by norm_num [exRaw], by norm_num [exRaw]⟩
    intro i; fin_cases i <;> norm_num [exRaw, h0, h1.le]
  have hd : Spec.transDist2 10 3 (exRaw z).pos ![5, 5, 0] < (exRaw z).h ^ 2 := by
    unfold Spec.transDist2 Spec.perDist
    rw [Fin.sum_univ_three]
    norm_num [exRaw]
  intro hc
  have := near_line_found (by norm_num) hl hp (k := 0) (l := ⟨3, ![5, 5, 0]⟩) rfl hd
  change StdMap.find? (get_near_lines (build (exConfig sp).lines (exConfig sp).box) _ _) 0 = _ at this
  simp only at this
  rw [hc] at this
  cases this

/-- Witnesses for the other theorems of C06: two particles on the sightline, and one far from it. -/
example := colden_additive (exConfig .HI).L (by change (0 : ℤ) ≠ 2; decide) (nbins := 4) (by norm_num) 10 [⟨3, ![5, 5, 0]⟩] (by simp)

example := tau_additive (exConfig .HI).L (by change (0 : ℤ) ≠ 2; decide) (nbins := 4) (by norm_num) 10 [⟨3, ![5, 5, 0]⟩] (by simp)

example := interpolation_order_batches (exConfig .HI).L (by change (0 : ℤ) ≠ 2; decide) (nbins := 4) (by norm_num) 10
  [⟨3, ![5, 5, 0]⟩] (by simp) _ (Or.inr rfl) [0, 0, 0, 0] (by simp)

example := snapshot_additive (exConfig_good .HI) true trivial

example := preselection_harmless (exConfig_good .HI) true (Or.inl rfl) [exRaw 2, exRaw 9]

example := mesh_segments_irrelevant (c := exConfig .HI) (by simp [GoodAxes, exConfig]) true trivial
  (segs := [[exRaw 2, exRaw 9]]) (segs' := [[exRaw 2], [exRaw 9]]) (by simp) (by simp) (by simp)

/-- C56, partial (missing: ions of hydrogen other than the neutral atom, see
`ionised_hydrogen_fails`): a query for neutral hydrogen, a whole element or an ion of another element
always gives an array with one entry per pixel of each sightline. -/
theorem species_query_partial {c : Config} (hc : GoodConfig c) (get_tau : Bool)
    (hsp : ∀ table, c.sp = .Hion table → get_tau = true) {segs : List (List Raw)} (hne : segs ≠ []) :
    ∃ a, compute_spectra c get_tau segs = .value a ∧ a.length = c.lines.length * c.nbins := by
  have hT : TempRead get_tau c.sp := by
    cases h : c.sp with
    | Hion table => exact hsp table h
    | _ => trivial
  exact ⟨_, compute_spectra_eq hc get_tau hT segs hne, by simp [zeros]⟩

/-- Witness for `species_query_partial`. -/
example : ∃ a, compute_spectra (exConfig (.ion fun _ _ => 1)) true [[exRaw 2], [exRaw 9]] = .value a ∧
    a.length = 4 := species_query_partial (exConfig_good _) true (by simp [exConfig]) (by simp)

/-- Disagreement with the expectation that every ion has a column density: for an ion of hydrogen
other than the neutral atom (for instance ionised hydrogen) the temperatures are not read, and with
more than one particle near the sightlines the column density query fails with an IndexError. -/
theorem ionised_hydrogen_fails (table : ℝ → ℝ → ℝ) :
    compute_spectra (exConfig (.Hion table)) false [[exRaw 2, exRaw 9]] = .raised .indexError := by
  classical
  have h2 := exNear (.Hion table) (z := 2) (by norm_num) (by norm_num)
  have h9 := exNear (.Hion table) (z := 9) (by norm_num) (by norm_num)
  have hsel := selected_eq (exConfig (.Hion table)) [exRaw 2, exRaw 9]
  simp only [List.filter_cons, h2, h9, decide_true, if_true, List.filter_nil] at hsel
  have hr : read_particle_data (exConfig (.Hion table)) false [exRaw 2, exRaw 9] = .error .indexError := by
    unfold read_particle_data
    rw [particles_near_lines_eq (exConfig_good _).axes]
    have hb : ∀ (x : List ℕ) (f : List ℕ → Py (Option (List Part))), (Except.ok x >>= f) = f x :=
      fun _ _ => rfl
    rw [hb, hsel, if_neg]
    · simp [exConfig, elemDen, exRaw]
    · intro he
      rw [List.isEmpty_iff] at he
      rw [he] at hsel
      cases hsel
  simp only [compute_spectra, interpolate_single_file]
  rw [hr]

end Verif.Props
