import Verif.Lemmas.NearRounding
import Verif.Lemmas.PartInt

/-! Helper lemmas on the spectra from a search in single precision: those of `Verif.Lemmas.PartInt`, with rounded limits. -/

namespace Verif.NearRounding
open Verif Verif.IndexTable Verif.PartInt Verif.Absorption

variable {fl : ℝ → ℝ}

/-- Contribution of one particle to element `m`, summed over the sightlines that find it; `F` is the
contribution to a single fl line. -/
noncomputable def single (fl : ℝ → ℝ) (t : Table) (lines : List Line) (F : ℕ → Line → Part → ℝ → ℕ → ℝ) (p : Part)
    (m : ℕ) : ℝ :=
  ((List.range lines.length).map (fun i => (lines[i]?).elim 0 (fun l =>
    (StdMap.find? (get_near_lines fl t p.pos p.h) i).elim 0 (fun d => F i l p d m)))).sum

theorem nearList_sum (t : Table) (parts : List Part) (i : ℕ) (g : Part → ℝ → ℝ) :
    ((nearList fl t (posH parts) i).map (fun e => (parts[e.1]?).elim 0 (fun p => g p e.2))).sum =
    (parts.map (fun p => (StdMap.find? (get_near_lines fl t p.pos p.h) i).elim 0 (g p))).sum := by
  generalize hG : (fun p : Part => (StdMap.find? (get_near_lines fl t p.pos p.h) i).elim 0 (g p)) = G
  unfold nearList
  rw [show (posH parts).length = parts.length by simp [posH]]
  induction parts using List.reverseRecOn with
  | nil => simp
  | append_singleton ps p ih =>
    rw [List.length_append, List.length_singleton, List.range_succ, List.filterMap_append,
      List.map_append (l₁ := List.filterMap _ _), List.sum_append, List.map_append, List.sum_append]
    congr 1
    · rw [← ih]
      congr 1
      have hfm : (List.range ps.length).filterMap (fun i_1 =>
          ((posH (ps ++ [p]))[i_1]?).bind fun p =>
            (StdMap.find? (get_near_lines fl t p.1 p.2) i).map fun d => (i_1, d)) =
          (List.range ps.length).filterMap (fun i_1 =>
          ((posH ps)[i_1]?).bind fun p =>
            (StdMap.find? (get_near_lines fl t p.1 p.2) i).map fun d => (i_1, d)) := by
        apply List.filterMap_congr
        intro j hj
        rw [List.mem_range] at hj
        unfold posH
        rw [List.map_append, List.getElem?_append_left (by simpa using hj)]
      rw [hfm]
      apply List.map_congr_left
      intro e he
      obtain ⟨j, hj, he⟩ := List.mem_filterMap.1 he
      rw [List.mem_range] at hj
      simp only [Option.bind_eq_some_iff, Option.map_eq_some_iff] at he
      obtain ⟨_, _, _, _, rfl⟩ := he
      simp only
      rw [List.getElem?_append_left hj]
    · have e1 : (posH (ps ++ [p]))[ps.length]? = some (p.pos, p.h) := by
        unfold posH
        rw [List.map_append, List.getElem?_append_right (by simp)]; simp
      have e2 : (ps ++ [p])[ps.length]? = some p := by
        rw [List.getElem?_append_right (by simp)]; simp
      simp only [List.filterMap_cons, List.filterMap_nil, e1, Option.bind_some, List.map_cons,
        List.map_nil, List.sum_cons, List.sum_nil, add_zero]
      rw [← hG]
      cases hd : StdMap.find? (get_near_lines fl t p.pos p.h) i with
      | none => simp [hd]
      | some d => simp [e2, hd]

/-- A sightline loop whose per-particle body adds a fixed function, for kernels other than Voronoi. -/
theorem overLines_eq (F : ℕ → Line → Part → ℝ → ℕ → ℝ) (kernel : ℤ) (hk : kernel ≠ VORONOI_MESH)
    (box : ℝ) (lines : List Line) (parts : List Part)
    (body : ℕ → Line → List ((ℕ × ℝ) × (ℝ × ℝ)) → List ℝ → CRes (List ℝ)) (n : ℕ)
    (hbody : ∀ i l, lines[i]? = some l → ∀ es : StdMap ℝ,
      (∀ e ∈ es, ∃ p, parts[e.1]? = some p) → ∀ a : List ℝ, a.length = n →
      body i l (es.map (fun e => (e, ((0 : ℝ), (0 : ℝ))))) a = .ok (arrAdd a (fun m =>
        (es.map (fun e => (parts[e.1]?).elim 0 (fun p => F i l p e.2 m))).sum)))
    {sched : List ℕ} (hs : sched.Perm (List.range parts.length)) (out : List ℝ) (hout : out.length = n) :
    overLines fl body kernel box lines parts sched out = .ok (arrAdd out (fun m =>
      (parts.map (fun p => single fl (build lines box) lines F p m)).sum)) := by
  unfold overLines
  simp only
  have hnp : get_near_particles_sched fl (build lines box) (posH parts) sched =
      (List.range lines.length).map (nearList fl (build lines box) (posH parts)) := by
    rw [get_near_particles_sched_eq _ _ _ (by simpa [posH] using hs), build_lines]
  rw [hnp, List.length_map, List.length_range]
  rw [foldlM_arrAdd _ (fun (i : ℕ) (m : ℕ) => (parts.map (fun (p : Part) =>
    (lines[i]?).elim 0 (fun l =>
      (StdMap.find? (get_near_lines fl (build lines box) p.pos p.h) i).elim 0
        (fun d => F i l p d m)))).sum) n]
  · congr 2
    funext m
    rw [list_sum_comm]
    rfl
  · intro i hi a ha
    rw [List.mem_range] at hi
    obtain ⟨l, hl⟩ : ∃ l, lines[i]? = some l := ⟨lines[i], List.getElem?_eq_getElem hi⟩
    have h1 : readAt ((List.range lines.length).map (nearList fl (build lines box) (posH parts))) (i : ℤ) =
        .ok (nearList fl (build lines box) (posH parts) i) := by
      apply readAt_eq
      rw [List.getElem?_map, List.getElem?_range hi]; rfl
    rw [h1, ok_bind, readAt_eq hl, ok_bind]
    unfold lineEntries
    rw [if_neg hk, ok_bind, hbody i l hl _ _ a ha]
    · congr 2
      funext m
      simp only [hl, Option.elim_some]
      exact nearList_sum _ _ _ (fun p d => F i l p d m)
    · intro e he
      unfold nearList at he
      obtain ⟨j, hj, he⟩ := List.mem_filterMap.1 he
      simp only [Option.bind_eq_some_iff, Option.map_eq_some_iff] at he
      obtain ⟨q, hq, _, _, rfl⟩ := he
      unfold posH at hq
      rw [List.getElem?_map, Option.map_eq_some_iff] at hq
      obtain ⟨p, hp, -⟩ := hq
      exact ⟨p, hp⟩
  · exact hout

theorem compute_colden_eq (L : LineAbsorption) (hk : L.kernel ≠ VORONOI_MESH) {nbins : ℕ} (hn : 0 < nbins)
    (box : ℝ) (lines : List Line) (hax : ∀ l ∈ lines, l.axis = 1 ∨ l.axis = 2 ∨ l.axis = 3)
    (parts : List Part) {sched : List ℕ} (hs : sched.Perm (List.range parts.length)) (out : List ℝ) (hout : out.length = lines.length * nbins) :
    compute_colden fl L nbins box lines parts sched out = .ok (arrAdd out (fun m =>
      (parts.map (fun p => single fl (build lines box) lines (coldenOn L nbins) p m)).sum)) := by
  unfold compute_colden
  refine overLines_eq (coldenOn L nbins) _ hk box lines parts _ (lines.length * nbins) ?_ hs out hout
  intro i l hl es hes a ha
  unfold coldenLine
  have hi : i < lines.length := by
    by_contra hc; rw [List.getElem?_eq_none (by omega)] at hl; cases hl
  rw [foldlM_arrAdd _ (fun e m => (parts[e.1.1]?).elim 0 (fun p => coldenOn L nbins i l p e.1.2 m)) (lines.length * nbins)]
  · congr 2; funext m; rw [List.map_map]; rfl
  · intro e he b hb
    obtain ⟨e', he', rfl⟩ := List.mem_map.1 he
    obtain ⟨p, hp⟩ := hes e' he'
    simp only
    rw [readAt_eq hp, ok_bind, coord_eq (hax l (List.mem_of_getElem? hl)), ok_bind, if_neg hk, hp]
    exact add_colden_eq L hn (by rw [hb]; exact slice_le hi) _ _ _ _
  · exact ha

theorem compute_tau_eq (L : LineAbsorption) (hk : L.kernel ≠ VORONOI_MESH) {nbins : ℕ} (hn : 0 < nbins)
    (box : ℝ) (lines : List Line) (hax : ∀ l ∈ lines, l.axis = 1 ∨ l.axis = 2 ∨ l.axis = 3)
    (parts : List Part) {sched : List ℕ} (hs : sched.Perm (List.range parts.length)) (out : List ℝ) (hout : out.length = lines.length * nbins) :
    compute_tau fl L nbins box lines parts sched out = .ok (arrAdd out (fun m =>
      (parts.map (fun p => single fl (build lines box) lines (tauOn L nbins) p m)).sum)) := by
  unfold compute_tau
  refine overLines_eq (tauOn L nbins) _ hk box lines parts _ (lines.length * nbins) ?_ hs out hout
  intro i l hl es hes a ha
  unfold tauLine
  have hi : i < lines.length := by
    by_contra hc; rw [List.getElem?_eq_none (by omega)] at hl; cases hl
  rw [foldlM_arrAdd _ (fun e m => (parts[e.1.1]?).elim 0 (fun p => tauOn L nbins i l p e.1.2 m)) (lines.length * nbins)]
  · congr 2; funext m; rw [List.map_map]; rfl
  · intro e he b hb
    obtain ⟨e', he', rfl⟩ := List.mem_map.1 he
    obtain ⟨p, hp⟩ := hes e' he'
    simp only
    have hax' := hax l (List.mem_of_getElem? hl)
    rw [readAt_eq hp, ok_bind, coord_eq hax', ok_bind, coord_eq hax', ok_bind, if_neg hk, hp]
    exact add_tau_eq L hn (by rw [hb]; exact slice_le hi) _ _ _ _ _ _
  · exact ha

end Verif.NearRounding
