import Verif.Props.VoigtSystems

/-!
C67: column densities and b parameters of many spectra.
-/

namespace Verif.Props
open Verif Verif.Np Verif.Voigt

/-- What a fit of a spectrum of length `W` looks like: one width, position and amplitude for each of at least one component,
at different positions in the spectrum. -/
structure ProperFit (W : ℝ) (f : Fit) : Prop where
  ne : f.means ≠ []
  ls : f.stddev.length = f.means.length
  la : f.amplitudes.length = f.means.length
  range : ∀ m ∈ f.means, 0 ≤ m ∧ m < W
  nodup : f.means.Nodup

theorem sort_triples {pos xs ys : List ℝ} (hx : xs.length = pos.length) (hy : ys.length = pos.length) (hnd : pos.Nodup) :
    ∃ T : List (ℝ × (ℝ × ℝ)), T.Perm (pos.zip (xs.zip ys)) ∧ T.Pairwise (fun a b => a.1 < b.1) ∧ sortBy pos xs = T.map (fun t => t.2.1) ∧
      sortBy pos ys = T.map (fun t => t.2.2) := by
  set T := (pos.zip (xs.zip ys)).mergeSort (fun a b => decide (a.1 ≤ b.1)) with hT
  have hperm : T.Perm (pos.zip (xs.zip ys)) := List.mergeSort_perm _ _
  have hle : T.Pairwise (fun a b => a.1 ≤ b.1) := by
    refine (List.pairwise_mergeSort ?_ ?_ _).imp (fun h => of_decide_eq_true h)
    · intro a b c h1 h2
      simp only [decide_eq_true_eq] at *
      linarith
    · intro a b
      simp only [Bool.or_eq_true, decide_eq_true_eq]
      exact le_total _ _
  have hfst : (T.map Prod.fst).Nodup := by
    rw [(hperm.map Prod.fst).nodup_iff, List.map_fst_zip (by simp [hx, hy])]
    exact hnd
  have hlt : T.Pairwise (fun a b => a.1 < b.1) := by
    rw [List.Nodup, List.pairwise_map] at hfst
    exact (List.Pairwise.and hle hfst).imp (fun h => lt_of_le_of_ne h.1 h.2)
  have hmap1 : (pos.zip (xs.zip ys)).map (fun t => (t.1, t.2.1)) = pos.zip xs := by
    have : (fun t : ℝ × (ℝ × ℝ) => (t.1, t.2.1)) = Prod.map id Prod.fst := by funext t; rfl
    rw [this, ← List.zip_map_right, List.map_fst_zip (by omega)]
  have hmap2 : (pos.zip (xs.zip ys)).map (fun t => (t.1, t.2.2)) = pos.zip ys := by
    have : (fun t : ℝ × (ℝ × ℝ) => (t.1, t.2.2)) = Prod.map id Prod.snd := by funext t; rfl
    rw [this, ← List.zip_map_right, List.map_snd_zip (by omega)]
  refine ⟨T, hperm, hlt, ?_, ?_⟩
  · rw [sortBy_comps (comps := T.map (fun t => (t.1, t.2.1))) (by rw [← hmap1]; exact hperm.map _)
      (by rw [List.pairwise_map]; exact hlt), List.map_map]
    rfl
  · rw [sortBy_comps (comps := T.map (fun t => (t.1, t.2.2))) (by rw [← hmap2]; exact hperm.map _)
      (by rw [List.pairwise_map]; exact hlt), List.map_map]
    rfl

theorem single_aligned {N : ℝ → ℝ → ℝ} {W close : ℝ} {f : Fit} (hc : close ≤ 0) (hf : ProperFit W f) {fuel : ℕ}
    (hfuel : f.means.length < fuel) : ∃ ns bs, singleProfile N W close fuel f = some (.ok (ns, bs)) ∧ ns.length = bs.length ∧
      (bs.zip ns).Perm (f.b.zip (columnDensities N f)) := by
  have hcd : (columnDensities N f).length = f.means.length := by
    unfold columnDensities; simp [hf.ls, hf.la]
  obtain ⟨T, h1, h2, h3, h4⟩ := sort_triples hf.ls hcd hf.nodup
  set comps := T.map (fun t => (t.1, t.2.2)) with hcomps
  have hlenT : T.length = f.means.length := by rw [h1.length_eq]; simp [hf.ls, hcd]
  have hperm : comps.Perm (f.means.zip (columnDensities N f)) := by
    have hmap2 : (f.means.zip (f.stddev.zip (columnDensities N f))).map (fun t => (t.1, t.2.2)) = f.means.zip (columnDensities N f) := by
      have : (fun t : ℝ × (ℝ × ℝ) => (t.1, t.2.2)) = Prod.map id Prod.snd := by funext t; rfl
      rw [this, ← List.zip_map_right, List.map_snd_zip (by rw [hcd, hf.ls])]
    rw [← hmap2]
    exact h1.map _
  have hsort : comps.Pairwise (fun a b => a.1 < b.1) := by rw [hcomps, List.pairwise_map]; exact h2
  have hrange : ∀ c ∈ comps, 0 ≤ c.1 ∧ c.1 < W := by
    intro c hc
    have := hperm.subset hc
    exact hf.range _ (List.of_mem_zip (show (c.1, c.2) ∈ _ from this)).1
  have hlenC : comps.length = f.means.length := by rw [hcomps, List.length_map, hlenT]
  have hne : comps ≠ [] := by
    intro h
    rw [h] at hlenC
    exact hf.ne (List.length_eq_zero_iff.1 hlenC.symm)
  obtain ⟨-, -, -, -, -, -, hgap⟩ := start_spec (W := W) (colden := []) (pos := comps.map Prod.fst)
    (by rw [List.pairwise_map]; exact hsort) (by
      intro p hp
      obtain ⟨c, hc, rfl⟩ := List.mem_map.1 hp
      exact hrange c hc) (by simpa using hne)
  have hsys := get_systems_apart (N := N) (W := W) (close := close) (f := f) (comps := comps) hcd.symm hperm hsort hrange hne
    (fun i hi => le_trans hc (le_of_lt (hgap i (by simpa using hi)))) (fuel := fuel) (by omega)
  refine ⟨comps.map Prod.snd, (sortBy f.means f.stddev).map (|·|), ?_, ?_, ?_⟩
  · unfold singleProfile
    rw [hsys]
    rfl
  · rw [h3]; simp [hlenC, hlenT]
  · rw [h3, hcomps, List.map_map, List.map_map]
    have h5 : (f.b.zip (columnDensities N f)) = (f.means.zip (f.stddev.zip (columnDensities N f))).map (fun t => (|t.2.1|, t.2.2)) := by
      have : (fun t : ℝ × (ℝ × ℝ) => (|t.2.1|, t.2.2)) = (Prod.map (|·|) id) ∘ Prod.snd := by funext t; rfl
      rw [this, ← List.map_map, List.map_snd_zip (by simp [hf.ls, hcd]), ← List.zip_map_left]
      rfl
    rw [h5]
    have h6 : (T.map ((fun x => |x|) ∘ fun t => t.2.1)).zip (T.map (Prod.snd ∘ fun t => (t.1, t.2.2))) =
        T.map (fun t => (|t.2.1|, t.2.2)) := by
      rw [List.zip_map']
      rfl
    rw [h6]
    exact h1.map _

/-- C67, for the default `close` (components are not merged): one column density and one b parameter per component of all the
spectra, and the two arrays belong together: their pairs are the pairs of the components. -/
theorem fit_params_partial {N : ℝ → ℝ → ℝ} {W close : ℝ} (hc : close ≤ 0) {fits : List Fit} (hne : fits ≠ [])
    (hf : ∀ f ∈ fits, ProperFit W f) {fuel : ℕ} (hfuel : ∀ f ∈ fits, f.means.length < fuel) :
    ∃ ns bs, get_voigt_systems N W close fuel fits = some (.ok (ns, bs)) ∧ ns.length = bs.length ∧
      (bs.zip ns).Perm (fits.map (fun f => f.b.zip (columnDensities N f))).flatten := by
  have key : ∀ fs : List Fit, (∀ f ∈ fs, ProperFit W f) → (∀ f ∈ fs, f.means.length < fuel) →
      ∃ rs, mapProfiles N W close fuel fs = some (.ok rs) ∧ rs.length = fs.length ∧
        (rs.map Prod.fst).flatten.length = (rs.map Prod.snd).flatten.length ∧
        ((rs.map Prod.snd).flatten.zip (rs.map Prod.fst).flatten).Perm (fs.map (fun f => f.b.zip (columnDensities N f))).flatten := by
    intro fs
    induction fs with
    | nil => intro _ _; exact ⟨[], rfl, rfl, rfl, List.Perm.refl _⟩
    | cons f fs ih =>
      intro h1 h2
      obtain ⟨ns, bs, a1, a2, a3⟩ := single_aligned (N := N) hc (h1 f List.mem_cons_self) (h2 f List.mem_cons_self)
      obtain ⟨rs, b1, b2, b3, b4⟩ := ih (fun g hg => h1 g (List.mem_cons_of_mem _ hg)) (fun g hg => h2 g (List.mem_cons_of_mem _ hg))
      refine ⟨(ns, bs) :: rs, ?_, by simp [b2], ?_, ?_⟩
      · unfold mapProfiles
        rw [a1, b1]
        rfl
      · simp only [List.map_cons, List.flatten_cons, List.length_append, a2, b3]
      · simp only [List.map_cons, List.flatten_cons]
        rw [List.zip_append a2.symm]
        exact a3.append b4
  obtain ⟨rs, h1, h2, h3, h4⟩ := key fits hf hfuel
  refine ⟨_, _, ?_, h3, h4⟩
  unfold get_voigt_systems
  rw [h1]
  simp only [Run.andThen]
  rw [if_neg]
  intro h
  rw [h] at h2
  exact hne (List.length_eq_zero_iff.1 h2.symm)

/-- C67 is false for no spectra. -/
theorem fit_params_empty {N : ℝ → ℝ → ℝ} {W close : ℝ} {fuel : ℕ} : get_voigt_systems N W close fuel [] = some (.error .valueError) := by
  unfold get_voigt_systems mapProfiles
  simp [Run.andThen]

/-- Two neighbouring components closer than the linking length make the arrays differ: fewer systems than components. -/
theorem systems_fewer {W close : ℝ} {comps : List (ℝ × ℝ)} {out : List ℝ} (h : AreSystems W close comps out) (h2 : 2 ≤ comps.length)
    {i : ℕ} (hi : i < comps.length) (hg : gapAfter W (comps.map Prod.fst) i < close) : out.length < comps.length := by
  have hle := (systems_sum h).2.2
  obtain ⟨groups, r, h1, hne, rfl, h3⟩ := h
  rw [List.length_map] at hle ⊢
  refine lt_of_le_of_ne hle ?_
  intro heq
  have hsum : (groups.map List.length).sum = comps.length := by
    have := congrArg List.length h1
    rwa [List.length_rotate, List.length_range, List.length_flatten] at this
  have hall : ∀ gs : List (List ℕ), (∀ g ∈ gs, g ≠ []) → (gs.map List.length).sum ≤ gs.length → ∀ g ∈ gs, g.length = 1 := by
    intro gs
    induction gs with
    | nil => intro _ _ g hg; simp at hg
    | cons g0 gs ih =>
      intro a b g hg
      have hlow : ∀ gs : List (List ℕ), (∀ g ∈ gs, g ≠ []) → gs.length ≤ (gs.map List.length).sum := by
        intro gs
        induction gs with
        | nil => simp
        | cons g gs ih =>
          intro hg
          have h1 := ih (fun g' hg' => hg g' (List.mem_cons_of_mem _ hg'))
          have h2 := List.length_pos_iff.2 (hg g List.mem_cons_self)
          simp only [List.length_cons, List.map_cons, List.sum_cons]
          omega
      have l1 := hlow gs (fun g' hg' => a g' (List.mem_cons_of_mem _ hg'))
      have l0 := List.length_pos_iff.2 (a g0 List.mem_cons_self)
      simp only [List.map_cons, List.sum_cons, List.length_cons] at b
      rcases List.mem_cons.1 hg with rfl | hg
      · omega
      · exact ih (fun g' hg' => a g' (List.mem_cons_of_mem _ hg')) (by omega) g hg
  have hmem : i ∈ groups.flatten := by
    rw [h1, List.mem_rotate]; exact List.mem_range.2 hi
  obtain ⟨g, hgm, hig⟩ := List.mem_flatten.1 hmem
  have hg1 := hall groups (fun g hg => (h3 g hg).1) (by omega) g hgm
  obtain ⟨x, rfl⟩ := List.length_eq_one_iff.1 hg1
  rw [List.mem_singleton] at hig
  subst hig
  have := (h3 _ hgm).2.2 (by omega) i (by simp)
  linarith

/-- C67 is false when components are merged: the b parameters are still those of all components, so that the two arrays have
different lengths. -/
theorem fit_params_misaligned {N : ℝ → ℝ → ℝ} {W close : ℝ} {f : Fit} {comps : List (ℝ × ℝ)}
    (hlen : f.means.length = (columnDensities N f).length) (hls : f.stddev.length = f.means.length)
    (hp : comps.Perm (f.means.zip (columnDensities N f))) (hs : comps.Pairwise (fun a b => a.1 < b.1)) (hr : ∀ c ∈ comps, 0 ≤ c.1 ∧ c.1 < W)
    (h2 : 2 ≤ comps.length) {i : ℕ} (hi : i < comps.length) (hg : gapAfter W (comps.map Prod.fst) i < close) {fuel : ℕ}
    (hf : comps.length < fuel) : ∃ ns bs, get_voigt_systems N W close fuel [f] = some (.ok (ns, bs)) ∧ ns.length < bs.length := by
  have hne : comps ≠ [] := by intro h; rw [h] at h2; simp at h2
  obtain ⟨out, pos, f', e1, e2, -⟩ := get_systems_partial (close := close) hlen hp hs hr hne (by omega) hf
  have hl : comps.length = f.means.length := by rw [hp.length_eq, List.length_zip]; omega
  have hf' : f' = { f with stddev := sortBy f.means f.stddev } := by
    unfold get_systems at e1
    simp only [Run.andThen] at e1
    split at e1
    · cases e1
    · cases e1
    · split at e1
      · cases e1
      · cases e1
      · simp only [Option.some.injEq, Except.ok.injEq, Prod.mk.injEq] at e1
        exact e1.2.symm
  refine ⟨out, f'.b, ?_, ?_⟩
  · unfold get_voigt_systems mapProfiles mapProfiles singleProfile
    simp [e1, Run.andThen]
  · have := systems_fewer e2 h2 hi hg
    have hb : f'.b.length = f.means.length := by
      rw [hf']
      unfold Fit.b sortBy
      simp [hls]
    omega

example : ProperFit 10 ⟨[1, 2], [3, 1], [1, 4]⟩ := ⟨by simp, rfl, rfl, by simp; norm_num, by simp⟩

example := fit_params_partial (N := fun b a => b * a) (W := 10) (close := 0) (le_refl _) (fits := [⟨[1, 2], [3, 1], [1, 4]⟩, ⟨[1], [5], [2]⟩]) (by simp)
  (by
    intro f hf
    simp only [List.mem_cons, List.not_mem_nil, or_false] at hf
    rcases hf with rfl | rfl
    · exact ⟨by simp, rfl, rfl, by simp; norm_num, by simp⟩
    · exact ⟨by simp, rfl, rfl, by simp; norm_num, by simp⟩) (fuel := 3) (by simp)

end Verif.Props
