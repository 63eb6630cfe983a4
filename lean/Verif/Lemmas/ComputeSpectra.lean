import Verif.Model.ComputeSpectra
import Verif.Lemmas.PartInt

/-! Segment by segment interpolation as a sum over the particles of the snapshot. -/

namespace Verif
namespace ComputeSpectra

open PartInt IndexTable Absorption

theorem filterMap_filter_range {α : Type} (xs : List α) (P : α → Bool) :
    ((List.range xs.length).filter (fun i => (xs[i]?).elim false P)).filterMap (fun i => xs[i]?) =
      xs.filter P := by
  induction xs using List.reverseRecOn with
  | nil => rfl
  | append_singleton xs x ih =>
    rw [List.length_append, List.length_singleton, List.range_succ, List.filter_append,
      List.filterMap_append, List.filter_append]
    congr 1
    · rw [← ih]
      have h1 : (List.range xs.length).filter (fun i => ((xs ++ [x])[i]?).elim false P) =
          (List.range xs.length).filter (fun i => (xs[i]?).elim false P) := by
        apply List.filter_congr
        intro i hi
        rw [List.getElem?_append_left (List.mem_range.1 hi)]
      rw [h1]
      apply List.filterMap_congr
      intro i hi
      rw [List.getElem?_append_left (List.mem_range.1 (List.mem_filter.1 hi).1)]
    · have e : (xs ++ [x])[xs.length]? = some x := by
        rw [List.getElem?_append_right le_rfl]; simp
      cases hP : P x <;> simp [e, hP]

/-- A particle within its radius of some sightline. -/
def Near (c : Config) (r : Raw) : Prop := get_near_lines (build c.lines c.box) r.pos r.h ≠ []

open Classical in
theorem near_lines_eq (c : Config) (seg : List Raw) :
    near_lines c.box (seg.map (fun r => (r.pos, r.h))) c.lines =
      (List.range seg.length).filter (fun i => (seg[i]?).elim false (fun r => decide (Near c r))) := by
  refine StdSet.ext_of_mem (near_lines_sched_sorted _ _ _ _) ?_ ?_
  · exact List.pairwise_lt_range.filter _
  · intro i
    rw [near_lines, mem_near_lines_sched, List.mem_filter, List.length_map]
    constructor
    · rintro ⟨h1, p, h2, h3⟩
      refine ⟨h1, ?_⟩
      rw [List.getElem?_map, Option.map_eq_some_iff] at h2
      obtain ⟨r, hr, rfl⟩ := h2
      rw [hr]
      simp only [Option.elim_some, decide_eq_true_eq]
      exact h3
    · rintro ⟨h1, h2⟩
      refine ⟨h1, ?_⟩
      cases hr : seg[i]? with
      | none => rw [hr] at h2; simp at h2
      | some r =>
        rw [hr] at h2
        exact ⟨(r.pos, r.h), by rw [List.getElem?_map, hr]; rfl, by
          simp only [Option.elim_some, decide_eq_true_eq] at h2; exact h2⟩

open Classical in
theorem selected_eq (c : Config) (seg : List Raw) :
    (near_lines c.box (seg.map (fun r => (r.pos, r.h))) c.lines).filterMap (fun i => seg[i]?) =
      seg.filter (fun r => decide (Near c r)) := by
  rw [near_lines_eq]; exact filterMap_filter_range seg _

/-- What is passed to the interpolator for one particle. -/
noncomputable def prep (c : Config) (get_tau : Bool) (r : Raw) : Option Part :=
  match c.sp with
  | .HI => some (toPart c r (elemDen c r * r.nHI) (if get_tau then fixTemp r.temp else 0))
  | .all => some (toPart c r (elemDen c r) (if get_tau then fixTemp r.temp else 0))
  | .ion table => if 0 < elemDen c r then
      some (toPart c r (elemDen c r * table r.den (fixTemp r.temp)) (fixTemp r.temp)) else none
  | .Hion table => if 0 < elemDen c r then
      some (toPart c r (elemDen c r * table r.den (fixTemp r.temp)) (fixTemp r.temp)) else none

/-- The Python level never indexes the dummy temperature array. -/
def TempRead (get_tau : Bool) : Species → Prop
  | .Hion _ => get_tau = true
  | _ => True

/-- Contribution of one gas particle. -/
noncomputable def contrib (c : Config) (get_tau : Bool) (r : Raw) (m : ℕ) : ℝ :=
  (prep c get_tau r).elim 0 (fun p => single (build c.lines c.box) c.lines
    (if get_tau then tauOn c.L c.nbins else coldenOn c.L c.nbins) p m)

theorem prep_pos {c : Config} {get_tau : Bool} {r : Raw} {p : Part} (h : prep c get_tau r = some p) :
    p.pos = r.pos ∧ p.h = r.h := by
  unfold prep at h
  split at h
  · simp only [Option.some.injEq] at h; subst h; exact ⟨rfl, rfl⟩
  · simp only [Option.some.injEq] at h; subst h; exact ⟨rfl, rfl⟩
  · split at h
    · simp only [Option.some.injEq] at h; subst h; exact ⟨rfl, rfl⟩
    · cases h
  · split at h
    · simp only [Option.some.injEq] at h; subst h; exact ⟨rfl, rfl⟩
    · cases h

theorem contrib_of_far {c : Config} {get_tau : Bool} {r : Raw} (h : ¬ Near c r) (m : ℕ) :
    contrib c get_tau r m = 0 := by
  unfold contrib
  cases hp : prep c get_tau r with
  | none => rfl
  | some p =>
    obtain ⟨h1, h2⟩ := prep_pos hp
    simp only [Option.elim_some]
    apply single_of_far
    rw [h1, h2]
    by_contra hc
    exact h hc

theorem sum_filter_zero {α : Type} (xs : List α) (P : α → Prop) [DecidablePred P] (f : α → ℝ)
    (h : ∀ x ∈ xs, ¬ P x → f x = 0) : ((xs.filter (fun x => decide (P x))).map f).sum = (xs.map f).sum := by
  induction xs with
  | nil => rfl
  | cons x xs ih =>
    by_cases hx : P x
    · simp [hx, ih (fun y hy => h y (by simp [hy]))]
    · simp [hx, ih (fun y hy => h y (by simp [hy])), h x (by simp) hx]

/-- A configuration for which the interpolator runs: at least one pixel, sightlines along coordinate
axes, a smoothing kernel. -/
structure GoodConfig (c : Config) : Prop where
  nbins : 0 < c.nbins
  axes : ∀ l ∈ c.lines, l.axis = 1 ∨ l.axis = 2 ∨ l.axis = 3
  kernel : c.L.kernel ≠ VORONOI_MESH

/-- Sightlines run along coordinate axes. -/
def GoodAxes (c : Config) : Prop := ∀ l ∈ c.lines, l.axis = 1 ∨ l.axis = 2 ∨ l.axis = 3

theorem interpolate_eq {c : Config} (hc : GoodConfig c) (get_tau : Bool) (parts : List Part) :
    interpolate c get_tau parts = .ok (arrAdd (zeros c) (fun m => (parts.map (fun p =>
      single (build c.lines c.box) c.lines
        (if get_tau then tauOn c.L c.nbins else coldenOn c.L c.nbins) p m)).sum)) := by
  unfold interpolate
  cases get_tau
  · simp only [Bool.false_eq_true, if_false]
    exact compute_colden_eq c.L hc.kernel hc.nbins c.box c.lines hc.axes parts _ (by simp [zeros])
  · simp only [if_true]
    exact compute_tau_eq c.L hc.kernel hc.nbins c.box c.lines hc.axes parts _ (by simp [zeros])

theorem particles_near_lines_eq {c : Config} (hc : GoodAxes c) (seg : List Raw) :
    particles_near_lines c seg = .ok (near_lines c.box (seg.map (fun r => (r.pos, r.h))) c.lines) := by
  unfold particles_near_lines
  rw [if_pos]
  rw [List.all_eq_true]
  intro l hl
  rw [decide_eq_true_eq]
  rcases hc l hl with h | h | h <;> rw [h] <;> norm_num

theorem filterMap_if {α β : Type} (xs : List α) (P : α → Prop) [DecidablePred P] (f : α → β) :
    xs.filterMap (fun x => if P x then some (f x) else none) =
      (xs.filter (fun x => decide (P x))).map f := by
  induction xs with
  | nil => rfl
  | cons x xs ih => by_cases h : P x <;> simp [h, ih]

open Classical in
theorem read_particle_data_eq {c : Config} (hc : GoodAxes c) (get_tau : Bool)
    (hsp : TempRead get_tau c.sp) (seg : List Raw) :
    ∃ o, read_particle_data c get_tau seg = .ok o ∧
      (o = none ∧ (seg.filter (fun r => decide (Near c r))).filterMap (prep c get_tau) = [] ∨
       o = some ((seg.filter (fun r => decide (Near c r))).filterMap (prep c get_tau)) ∧
        (seg.filter (fun r => decide (Near c r))).filterMap (prep c get_tau) ≠ []) := by
  unfold read_particle_data
  rw [particles_near_lines_eq hc]
  have hb : ∀ (x : List ℕ) (f : List ℕ → Py (Option (List Part))), (Except.ok x >>= f) = f x :=
    fun _ _ => rfl
  rw [hb, selected_eq]
  generalize hsel : seg.filter (fun r => decide (Near c r)) = sel
  split
  · refine ⟨none, rfl, Or.inl ⟨rfl, ?_⟩⟩
    have : near_lines c.box (seg.map (fun r => (r.pos, r.h))) c.lines = [] := by
      rwa [List.isEmpty_iff] at *
    have h2 := selected_eq c seg
    rw [this, hsel] at h2
    rw [← h2]; rfl
  · rename_i hind
    have hne : sel ≠ [] := by
      intro he
      apply hind
      rw [List.isEmpty_iff, List.eq_nil_iff_forall_not_mem]
      intro i hi
      obtain ⟨-, p, h2, h3⟩ := (mem_near_lines_sched _ _ _ _ _).1 hi
      rw [List.getElem?_map, Option.map_eq_some_iff] at h2
      obtain ⟨r, hr, rfl⟩ := h2
      have : r ∈ sel := by
        rw [← hsel, List.mem_filter]
        exact ⟨List.mem_of_getElem? hr, by rw [decide_eq_true_eq]; exact h3⟩
      rw [he] at this; cases this
    simp only
    unfold prep
    unfold TempRead at hsp
    cases hs : c.sp with
    | HI => exact ⟨_, rfl, Or.inr (by simpa [List.filterMap_eq_map'] using hne)⟩
    | all => exact ⟨_, rfl, Or.inr (by simpa [List.filterMap_eq_map'] using hne)⟩
    | ion table =>
      simp only
      rw [filterMap_if sel (fun r => 0 < elemDen c r)]
      split
      · rename_i he
        refine ⟨none, rfl, Or.inl ⟨rfl, ?_⟩⟩
        rw [List.isEmpty_iff] at he
        rw [he]; rfl
      · rename_i he
        rw [List.isEmpty_iff] at he
        exact ⟨_, rfl, Or.inr ⟨rfl, by simpa using he⟩⟩
    | Hion table =>
      rw [hs] at hsp
      simp only at hsp
      simp only [hsp, if_true]
      rw [filterMap_if sel (fun r => 0 < elemDen c r)]
      split
      · rename_i he
        refine ⟨none, rfl, Or.inl ⟨rfl, ?_⟩⟩
        rw [List.isEmpty_iff] at he
        rw [he]; rfl
      · rename_i he
        rw [List.isEmpty_iff] at he
        exact ⟨_, rfl, Or.inr ⟨rfl, by simpa using he⟩⟩

theorem filterMap_sum {α β : Type} (xs : List α) (f : α → Option β) (g : β → ℝ) :
    ((xs.filterMap f).map g).sum = (xs.map (fun x => (f x).elim 0 g)).sum := by
  induction xs with
  | nil => rfl
  | cons x xs ih => cases h : f x <;> simp [h, ih]

theorem interpolate_single_file_eq {c : Config} (hc : GoodConfig c) (get_tau : Bool)
    (hsp : TempRead get_tau c.sp) (seg : List Raw) :
    interpolate_single_file c get_tau seg =
      .value (arrAdd (zeros c) (fun m => (seg.map (fun r => contrib c get_tau r m)).sum)) := by
  classical
  obtain ⟨o, ho, h⟩ := read_particle_data_eq hc.axes get_tau hsp seg
  have hsum : ∀ m, (((seg.filter (fun r => decide (Near c r))).filterMap (prep c get_tau)).map (fun p =>
      single (build c.lines c.box) c.lines
        (if get_tau then tauOn c.L c.nbins else coldenOn c.L c.nbins) p m)).sum =
      (seg.map (fun r => contrib c get_tau r m)).sum := by
    intro m
    rw [filterMap_sum]
    exact sum_filter_zero seg (Near c) (fun r => contrib c get_tau r m)
      (fun r _ hr => contrib_of_far hr m)
  unfold interpolate_single_file
  rw [ho]
  rcases h with ⟨rfl, h⟩ | ⟨rfl, -⟩
  · simp only
    have : (fun m => (seg.map (fun r => contrib c get_tau r m)).sum) = fun _ => 0 := by
      funext m
      rw [← hsum m, h]; rfl
    rw [this, arrAdd_zero]
  · simp only
    rw [interpolate_eq hc]
    simp only
    congr 2
    funext m
    exact hsum m

/-- The particle list of a segment that is handed to the interpolator. -/
noncomputable def partsOf (c : Config) (get_tau : Bool) (seg : List Raw) : List Part := by
  classical exact (seg.filter (fun r => decide (Near c r))).filterMap (prep c get_tau)

theorem partsOf_append (c : Config) (get_tau : Bool) (s t : List Raw) :
    partsOf c get_tau (s ++ t) = partsOf c get_tau s ++ partsOf c get_tau t := by
  simp [partsOf]

/-- `o` stands for the particle list `ps`; `none` is only used for an empty list. -/
def Stands (o : Option (List Part)) (ps : List Part) : Prop :=
  o = none ∧ ps = [] ∨ o = some ps ∧ ps ≠ []

theorem loadRest_eq {c : Config} (hc : GoodAxes c) (get_tau : Bool) (hsp : TempRead get_tau c.sp)
    (segs : List (List Raw)) (acc : Option (List Part)) (ps : List Part) (h : Stands acc ps) :
    ∃ o, loadRest c get_tau acc segs = .ok o ∧ Stands o (ps ++ partsOf c get_tau segs.flatten) := by
  have hb : ∀ (x : Option (List Part)) (f : Option (List Part) → Py (Option (List Part))),
      (Except.ok x >>= f) = f x := fun _ _ => rfl
  induction segs generalizing acc ps with
  | nil => exact ⟨acc, rfl, by simpa [partsOf] using h⟩
  | cons seg segs ih =>
    obtain ⟨r, hr, hst⟩ := read_particle_data_eq hc get_tau hsp seg
    change Stands r (partsOf c get_tau seg) at hst
    unfold loadRest
    rw [hr, hb, List.flatten_cons, partsOf_append, ← List.append_assoc]
    rcases hst with ⟨rfl, he⟩ | ⟨rfl, hn⟩
    · simp only
      rw [he, List.append_nil]
      exact ih acc ps h
    · rcases h with ⟨rfl, rfl⟩ | ⟨rfl, hp⟩
      · exact ih _ _ (Or.inr ⟨rfl, by simpa using hn⟩)
      · exact ih _ _ (Or.inr ⟨rfl, by simp [hp]⟩)

theorem compute_spectra_mesh_eq {c : Config} (hc : GoodAxes c) (get_tau : Bool)
    (hsp : TempRead get_tau c.sp) (segs : List (List Raw)) (hne : segs ≠ []) :
    compute_spectra_mesh c get_tau segs =
      if partsOf c get_tau segs.flatten = [] then .value (zeros c) else
      match interpolate c get_tau (partsOf c get_tau segs.flatten) with
      | .error e => .crashed e
      | .ok a => .value a := by
  cases segs with
  | nil => exact absurd rfl hne
  | cons seg segs =>
    have hb : ∀ (x : Option (List Part)) (f : Option (List Part) → Py (Option (List Part))),
      (Except.ok x >>= f) = f x := fun _ _ => rfl
    obtain ⟨r, hr, hst⟩ := read_particle_data_eq hc get_tau hsp seg
    obtain ⟨o, ho, hst2⟩ := loadRest_eq hc get_tau hsp segs r _ hst
    change Stands o (partsOf c get_tau seg ++ partsOf c get_tau segs.flatten) at hst2
    rw [← partsOf_append, ← List.flatten_cons] at hst2
    unfold compute_spectra_mesh
    simp only
    rw [hr, hb, ho]
    rcases hst2 with ⟨rfl, he⟩ | ⟨rfl, he⟩
    · rw [if_pos he]
    · rw [if_neg he]; rfl

theorem addArr_arrAdd (a : List ℝ) (c : Config) (ha : a.length = (zeros c).length) (f : ℕ → ℝ) :
    addArr a (arrAdd (zeros c) f) = arrAdd a f := by
  apply List.ext_getElem?
  intro m
  unfold addArr
  rw [List.getElem?_zipWith, arrAdd_getElem?, arrAdd_getElem?]
  by_cases hm : m < a.length
  · have h2 : m < (zeros c).length := by omega
    rw [List.getElem?_eq_getElem hm, List.getElem?_eq_getElem h2]
    simp [zeros]
  · rw [List.getElem?_eq_none (by omega)]
    simp

theorem addSegments_eq {c : Config} (hc : GoodConfig c) (get_tau : Bool)
    (hsp : TempRead get_tau c.sp) (segs : List (List Raw)) (a : List ℝ) (ha : a.length = (zeros c).length) :
    addSegments c get_tau a segs =
      .value (arrAdd a (fun m => (segs.flatten.map (fun r => contrib c get_tau r m)).sum)) := by
  induction segs generalizing a with
  | nil => simp [addSegments, arrAdd_zero]
  | cons seg segs ih =>
    unfold addSegments
    rw [interpolate_single_file_eq hc get_tau hsp]
    simp only
    rw [addArr_arrAdd a c ha, ih _ (by simpa using ha), arrAdd_arrAdd]
    simp

theorem compute_spectra_eq {c : Config} (hc : GoodConfig c) (get_tau : Bool)
    (hsp : TempRead get_tau c.sp) (segs : List (List Raw)) (hne : segs ≠ []) :
    compute_spectra c get_tau segs =
      .value (arrAdd (zeros c) (fun m => (segs.flatten.map (fun r => contrib c get_tau r m)).sum)) := by
  cases segs with
  | nil => exact absurd rfl hne
  | cons seg segs =>
    unfold compute_spectra
    simp only
    rw [interpolate_single_file_eq hc get_tau hsp]
    simp only
    rw [addSegments_eq hc get_tau hsp _ _ (by simp), arrAdd_arrAdd]
    simp

theorem compute_spectra_mpi_eq {c : Config} (hc : GoodConfig c) (get_tau : Bool)
    (hsp : TempRead get_tau c.sp) (ranks : List (List (List Raw))) (hne : ∀ r ∈ ranks, r ≠ []) :
    compute_spectra_mpi c get_tau ranks =
      .value (arrAdd (zeros c) (fun m =>
        (ranks.flatten.flatten.map (fun r => contrib c get_tau r m)).sum)) := by
  induction ranks with
  | nil => simp [compute_spectra_mpi, arrAdd_zero]
  | cons rank ranks ih =>
    unfold compute_spectra_mpi
    rw [compute_spectra_eq hc get_tau hsp rank (hne rank (by simp)), ih (fun r hr => hne r (by simp [hr]))]
    simp only
    rw [addArr_arrAdd _ c (by simp), arrAdd_arrAdd]
    simp

end ComputeSpectra
end Verif
