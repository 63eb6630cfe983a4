import Verif.Model.PartInt
import Verif.Lemmas.Absorption
import Verif.Lemmas.NearParticles

/-! The interpolator as a sum over particles. -/

namespace Verif
namespace PartInt

open Absorption IndexTable

theorem coord_ok {axis : ℤ} (h : axis = 1 ∨ axis = 2 ∨ axis = 3) (v : Vec3) :
    ∃ x, ∀ w : Vec3, coord w axis = .ok (w x) := by
  rcases h with rfl | rfl | rfl
  · exact ⟨0, fun w => by simp [coord]⟩
  · exact ⟨1, fun w => by simp [coord]⟩
  · exact ⟨2, fun w => by simp [coord]⟩

/-- Component of a vector along an axis 1, 2, 3. -/
def along (v : Vec3) (axis : ℤ) : ℝ := if axis = 1 then v 0 else if axis = 2 then v 1 else v 2

theorem coord_eq {axis : ℤ} (h : axis = 1 ∨ axis = 2 ∨ axis = 3) (v : Vec3) :
    coord v axis = .ok (along v axis) := by
  rcases h with rfl | rfl | rfl <;> simp [coord, along]

/-- Contribution of one particle to element `m`, summed over the sightlines that find it; `F` is the
contribution to a single line. -/
noncomputable def single (t : Table) (lines : List Line) (F : ℕ → Line → Part → ℝ → ℕ → ℝ) (p : Part)
    (m : ℕ) : ℝ :=
  ((List.range lines.length).map (fun i => (lines[i]?).elim 0 (fun l =>
    (StdMap.find? (get_near_lines t p.pos p.h) i).elim 0 (fun d => F i l p d m)))).sum

theorem nearList_sum (t : Table) (parts : List Part) (i : ℕ) (g : Part → ℝ → ℝ) :
    ((nearList t (posH parts) i).map (fun e => (parts[e.1]?).elim 0 (fun p => g p e.2))).sum =
    (parts.map (fun p => (StdMap.find? (get_near_lines t p.pos p.h) i).elim 0 (g p))).sum := by
  generalize hG : (fun p : Part => (StdMap.find? (get_near_lines t p.pos p.h) i).elim 0 (g p)) = G
  unfold nearList
  rw [show (posH parts).length = parts.length by simp [posH]]
  induction parts using List.reverseRecOn with
  | nil => simp
  | append_singleton ps p ih =>
    rw [List.length_append, List.length_singleton, List.range_succ, List.filterMap_append,
      List.map_append (l₁ := List.filterMap _ _), List.sum_append, List.map_append, List.sum_append]
    congr 1
    · rw [← ih]
      congr 1
      have hfm : (List.range ps.length).filterMap (fun i_1 =>
          ((posH (ps ++ [p]))[i_1]?).bind fun p =>
            (StdMap.find? (get_near_lines t p.1 p.2) i).map fun d => (i_1, d)) =
          (List.range ps.length).filterMap (fun i_1 =>
          ((posH ps)[i_1]?).bind fun p =>
            (StdMap.find? (get_near_lines t p.1 p.2) i).map fun d => (i_1, d)) := by
        apply List.filterMap_congr
        intro j hj
        rw [List.mem_range] at hj
        unfold posH
        rw [List.map_append, List.getElem?_append_left (by simpa using hj)]
      rw [hfm]
      apply List.map_congr_left
      intro e he
      obtain ⟨j, hj, he⟩ := List.mem_filterMap.1 he
      rw [List.mem_range] at hj
      simp only [Option.bind_eq_some_iff, Option.map_eq_some_iff] at he
      obtain ⟨_, _, _, _, rfl⟩ := he
      simp only
      rw [List.getElem?_append_left hj]
    · have e1 : (posH (ps ++ [p]))[ps.length]? = some (p.pos, p.h) := by
        unfold posH
        rw [List.map_append, List.getElem?_append_right (by simp)]; simp
      have e2 : (ps ++ [p])[ps.length]? = some p := by
        rw [List.getElem?_append_right (by simp)]; simp
      simp only [List.filterMap_cons, List.filterMap_nil, e1, Option.bind_some, List.map_cons,
        List.map_nil, List.sum_cons, List.sum_nil, add_zero]
      rw [← hG]
      cases hd : StdMap.find? (get_near_lines t p.pos p.h) i with
      | none => simp [hd]
      | some d => simp [e2, hd]

theorem list_sum_comm {α β : Type} (xs : List α) (ys : List β) (f : α → β → ℝ) :
    (xs.map (fun x => (ys.map (f x)).sum)).sum = (ys.map (fun y => (xs.map (fun x => f x y)).sum)).sum := by
  induction xs with
  | nil => simp
  | cons x xs ih => simp only [List.map_cons, List.sum_cons, ih, List.sum_map_add]

/-- A sightline loop whose per-particle body adds a fixed function, for kernels other than Voronoi. -/
theorem overLines_eq (F : ℕ → Line → Part → ℝ → ℕ → ℝ) (kernel : ℤ) (hk : kernel ≠ VORONOI_MESH)
    (box : ℝ) (lines : List Line) (parts : List Part)
    (body : ℕ → Line → List ((ℕ × ℝ) × (ℝ × ℝ)) → List ℝ → CRes (List ℝ)) (n : ℕ)
    (hbody : ∀ i l, lines[i]? = some l → ∀ es : StdMap ℝ,
      (∀ e ∈ es, ∃ p, parts[e.1]? = some p) → ∀ a : List ℝ, a.length = n →
      body i l (es.map (fun e => (e, ((0 : ℝ), (0 : ℝ))))) a = .ok (arrAdd a (fun m =>
        (es.map (fun e => (parts[e.1]?).elim 0 (fun p => F i l p e.2 m))).sum)))
    (out : List ℝ) (hout : out.length = n) :
    overLines body kernel box lines parts out = .ok (arrAdd out (fun m =>
      (parts.map (fun p => single (build lines box) lines F p m)).sum)) := by
  unfold overLines
  simp only
  have hnp : get_near_particles (build lines box) (posH parts) =
      (List.range lines.length).map (nearList (build lines box) (posH parts)) := by
    unfold get_near_particles
    rw [get_near_particles_sched_eq _ _ _ (List.Perm.refl _), build_lines]
  rw [hnp, List.length_map, List.length_range]
  rw [foldlM_arrAdd _ (fun (i : ℕ) (m : ℕ) => (parts.map (fun (p : Part) =>
    (lines[i]?).elim 0 (fun l =>
      (StdMap.find? (get_near_lines (build lines box) p.pos p.h) i).elim 0
        (fun d => F i l p d m)))).sum) n]
  · congr 2
    funext m
    rw [list_sum_comm]
    rfl
  · intro i hi a ha
    rw [List.mem_range] at hi
    obtain ⟨l, hl⟩ : ∃ l, lines[i]? = some l := ⟨lines[i], List.getElem?_eq_getElem hi⟩
    have h1 : readAt ((List.range lines.length).map (nearList (build lines box) (posH parts))) (i : ℤ) =
        .ok (nearList (build lines box) (posH parts) i) := by
      apply readAt_eq
      rw [List.getElem?_map, List.getElem?_range hi]; rfl
    rw [h1, ok_bind, readAt_eq hl, ok_bind]
    unfold lineEntries
    rw [if_neg hk, ok_bind, hbody i l hl _ _ a ha]
    · congr 2
      funext m
      simp only [hl, Option.elim_some]
      exact nearList_sum _ _ _ (fun p d => F i l p d m)
    · intro e he
      unfold nearList at he
      obtain ⟨j, hj, he⟩ := List.mem_filterMap.1 he
      simp only [Option.bind_eq_some_iff, Option.map_eq_some_iff] at he
      obtain ⟨q, hq, _, _, rfl⟩ := he
      unfold posH at hq
      rw [List.getElem?_map, Option.map_eq_some_iff] at hq
      obtain ⟨p, hp, -⟩ := hq
      exact ⟨p, hp⟩
  · exact hout

/-- Column density of one particle on line `i`. -/
noncomputable def coldenOn (L : LineAbsorption) (nbins : ℕ) (i : ℕ) (l : Line) (p : Part) (d : ℝ) (m : ℕ) : ℝ :=
  coldenF L (i * nbins) nbins d p.dens (along p.pos l.axis) p.h m

/-- Optical depth of one particle on line `i`. -/
noncomputable def tauOn (L : LineAbsorption) (nbins : ℕ) (i : ℕ) (l : Line) (p : Part) (d : ℝ) (m : ℕ) : ℝ :=
  tauF L (i * nbins) nbins d p.dens (along p.pos l.axis) (along p.vel l.axis) p.temp p.h m

theorem slice_le {i nlines nbins : ℕ} (h : i < nlines) : i * nbins + nbins ≤ nlines * nbins := by
  calc i * nbins + nbins = (i + 1) * nbins := by ring
    _ ≤ nlines * nbins := Nat.mul_le_mul_right _ h

theorem compute_colden_eq (L : LineAbsorption) (hk : L.kernel ≠ VORONOI_MESH) {nbins : ℕ} (hn : 0 < nbins)
    (box : ℝ) (lines : List Line) (hax : ∀ l ∈ lines, l.axis = 1 ∨ l.axis = 2 ∨ l.axis = 3)
    (parts : List Part) (out : List ℝ) (hout : out.length = lines.length * nbins) :
    compute_colden L nbins box lines parts out = .ok (arrAdd out (fun m =>
      (parts.map (fun p => single (build lines box) lines (coldenOn L nbins) p m)).sum)) := by
  unfold compute_colden
  refine overLines_eq (coldenOn L nbins) _ hk box lines parts _ (lines.length * nbins) ?_ out hout
  intro i l hl es hes a ha
  unfold coldenLine
  have hi : i < lines.length := by
    by_contra hc; rw [List.getElem?_eq_none (by omega)] at hl; cases hl
  rw [foldlM_arrAdd _ (fun e m => (parts[e.1.1]?).elim 0 (fun p => coldenOn L nbins i l p e.1.2 m)) (lines.length * nbins)]
  · congr 2; funext m; rw [List.map_map]; rfl
  · intro e he b hb
    obtain ⟨e', he', rfl⟩ := List.mem_map.1 he
    obtain ⟨p, hp⟩ := hes e' he'
    simp only
    rw [readAt_eq hp, ok_bind, coord_eq (hax l (List.mem_of_getElem? hl)), ok_bind, if_neg hk, hp]
    exact add_colden_eq L hn (by rw [hb]; exact slice_le hi) _ _ _ _
  · exact ha

theorem compute_tau_eq (L : LineAbsorption) (hk : L.kernel ≠ VORONOI_MESH) {nbins : ℕ} (hn : 0 < nbins)
    (box : ℝ) (lines : List Line) (hax : ∀ l ∈ lines, l.axis = 1 ∨ l.axis = 2 ∨ l.axis = 3)
    (parts : List Part) (out : List ℝ) (hout : out.length = lines.length * nbins) :
    compute_tau L nbins box lines parts out = .ok (arrAdd out (fun m =>
      (parts.map (fun p => single (build lines box) lines (tauOn L nbins) p m)).sum)) := by
  unfold compute_tau
  refine overLines_eq (tauOn L nbins) _ hk box lines parts _ (lines.length * nbins) ?_ out hout
  intro i l hl es hes a ha
  unfold tauLine
  have hi : i < lines.length := by
    by_contra hc; rw [List.getElem?_eq_none (by omega)] at hl; cases hl
  rw [foldlM_arrAdd _ (fun e m => (parts[e.1.1]?).elim 0 (fun p => tauOn L nbins i l p e.1.2 m)) (lines.length * nbins)]
  · congr 2; funext m; rw [List.map_map]; rfl
  · intro e he b hb
    obtain ⟨e', he', rfl⟩ := List.mem_map.1 he
    obtain ⟨p, hp⟩ := hes e' he'
    simp only
    have hax' := hax l (List.mem_of_getElem? hl)
    rw [readAt_eq hp, ok_bind, coord_eq hax', ok_bind, coord_eq hax', ok_bind, if_neg hk, hp]
    exact add_tau_eq L hn (by rw [hb]; exact slice_le hi) _ _ _ _ _ _
  · exact ha

/-- A particle that finds no line contributes nothing. -/
theorem single_of_far (lines : List Line) (box : ℝ) (F : ℕ → Line → Part → ℝ → ℕ → ℝ) (p : Part) (m : ℕ)
    (h : get_near_lines (build lines box) p.pos p.h = []) :
    single (build lines box) lines F p m = 0 := by
  unfold single
  rw [h]
  apply List.sum_eq_zero
  intro x hx
  obtain ⟨i, -, rfl⟩ := List.mem_map.1 hx
  cases lines[i]? <;> simp [StdMap.find?]

end PartInt
end Verif
