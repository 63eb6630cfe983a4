import Verif.Props.Regions
import Verif.Props.SpecTools

/-!
C29: absorbers and the halos they belong to.
-/

namespace Verif.Props
open Verif Verif.Np Verif.HaloAssigned Verif.SpecTools

/-- The column density of pixel `i` of a periodic spectrum. -/
def pix (row : List ℝ) (i : ℤ) : ℝ := row.getD (i % row.length).toNat 0

/-- The limit of what counts as absorption: `thresh` when it is reached, otherwise a fraction of the maximum. -/
noncomputable def cutOf (thresh relthresh m : ℝ) : ℝ := if m > thresh then thresh else relthresh * m

/-- `x` is the position of the stretch of absorption that begins in pixel `a` and has `L` pixels: all its pixels are above the
limit, and `x` is the mean of their positions weighted by column density, moved into the box. -/
def IsPosition (row : List ℝ) (box cut : ℝ) (arc : ℤ × ℕ) (x : Option ℝ) : Prop :=
  ∃ z : ℝ, x = some z ∧ 0 ≤ z ∧ z < box ∧ 1 ≤ arc.2 ∧ arc.2 ≤ row.length ∧
    (∀ j < arc.2, cut < pix row (arc.1 + j)) ∧
    ∃ w : ℝ, (arc.1 : ℝ) ≤ w ∧ w ≤ arc.1 + (arc.2 - 1 : ℕ) ∧
      w * ∑ j ∈ Finset.range arc.2, pix row (arc.1 + j) =
        ∑ j ∈ Finset.range arc.2, pix row (arc.1 + j) * ((arc.1 : ℝ) + j) ∧
      ∃ q : ℤ, z * row.length / box + q * row.length = w

/-- A weighted mean lies between the smallest and largest value. -/
theorem weighted_mean {L : ℕ} {v x : ℕ → ℝ} {lo hi : ℝ} (hv : ∀ j < L, 0 ≤ v j) (hx : ∀ j < L, lo ≤ x j ∧ x j ≤ hi)
    (hs : 0 < ∑ j ∈ Finset.range L, v j) :
    lo ≤ (∑ j ∈ Finset.range L, v j * x j) / ∑ j ∈ Finset.range L, v j ∧
    (∑ j ∈ Finset.range L, v j * x j) / ∑ j ∈ Finset.range L, v j ≤ hi := by
  constructor
  · rw [le_div_iff₀ hs, Finset.mul_sum]
    apply Finset.sum_le_sum
    intro j hj
    have hj := Finset.mem_range.1 hj
    rw [mul_comm]
    exact mul_le_mul_of_nonneg_left (hx j hj).1 (hv j hj)
  · rw [div_le_iff₀ hs, Finset.mul_sum]
    apply Finset.sum_le_sum
    intro j hj
    have hj := Finset.mem_range.1 hj
    rw [mul_comm hi]
    exact mul_le_mul_of_nonneg_left (hx j hj).2 (hv j hj)

theorem regionPos_spec {row out : List ℝ} {r : ℤ} (hc : Centred row out r) {box : ℝ} (hb : 0 < box) {cut : ℝ} (hcut : 0 ≤ cut)
    {s e : ℕ} (hse : s < e) (he : e ≤ row.length) (hin : ∀ i, s ≤ i → i < e → ∃ v, out[i]? = some v ∧ cut < v) :
    IsPosition row box cut ((s : ℤ) - r, e - s) (regionPos out r row.length box (s, e)) := by
  obtain ⟨hlen, hroll, -⟩ := hc
  have hn : 0 < row.length := by omega
  have hnr : (0 : ℝ) < row.length := by exact_mod_cast hn
  have hpix : ∀ j < e - s, out[s + j]? = some (pix row ((s : ℤ) - r + j)) := by
    intro j hj
    rw [hroll (s + j) (by omega)]
    have e1 : (((s + j : ℕ) : ℤ) - r) = (s : ℤ) - r + j := by push_cast; ring
    rw [e1]
    have h2 : (((s : ℤ) - r + j) % row.length).toNat < row.length := by
      have h3 := Int.emod_lt_of_pos ((s : ℤ) - r + j) (by exact_mod_cast hn : (0 : ℤ) < row.length)
      have h4 := Int.emod_nonneg ((s : ℤ) - r + j) (by omega : (row.length : ℤ) ≠ 0)
      omega
    unfold pix
    rw [List.getD_eq_getElem?_getD, List.getElem?_eq_getElem h2]
    rfl
  have hsl : slice out s e = (List.range (e - s)).map (fun j : ℕ => pix row ((s : ℤ) - r + j)) := by
    apply List.ext_getElem?
    intro j
    by_cases hj : j < e - s
    · rw [slice_get out (by omega) (by omega), hpix j hj]
      simp [hj]
    · rw [List.getElem?_eq_none (by rw [slice_length out (by omega)]; omega), List.getElem?_eq_none (by simp; omega)]
  have hnn : (slice (List.range row.length) s e).map (fun n : ℕ => (((n : ℤ) - r : ℤ) : ℝ)) =
      (List.range (e - s)).map (fun j : ℕ => (((s : ℤ) - r : ℤ) : ℝ) + j) := by
    apply List.ext_getElem?
    intro j
    by_cases hj : j < e - s
    · rw [List.getElem?_map, slice_get _ (by simpa using he) (by omega)]
      have : s + j < row.length := by omega
      simp only [List.getElem?_map, List.getElem?_range this, List.getElem?_range hj, Option.map_some]
      push_cast
      congr 1; ring
    · rw [List.getElem?_eq_none (by rw [List.length_map, slice_length _ (by simpa using he)]; omega),
        List.getElem?_eq_none (by simp; omega)]
  have hpos : ∀ j < e - s, cut < pix row ((s : ℤ) - r + j) := by
    intro j hj
    obtain ⟨v, h1, h2⟩ := hin (s + j) (by omega) (by omega)
    rw [hpix j hj] at h1
    rw [Option.some.inj h1]
    exact h2
  have hsum : 0 < ∑ j ∈ Finset.range (e - s), pix row ((s : ℤ) - r + j) := by
    apply Finset.sum_pos
    · intro j hj
      exact lt_of_le_of_lt hcut (hpos j (Finset.mem_range.1 hj))
    · exact ⟨0, by simp; omega⟩
  set S := ∑ j ∈ Finset.range (e - s), pix row ((s : ℤ) - r + j) with hS
  set W := ∑ j ∈ Finset.range (e - s), pix row ((s : ℤ) - r + j) * ((((s : ℤ) - r : ℤ) : ℝ) + j) with hW
  have hval : regionPos out r row.length box (s, e) = some (fmod (W / S) row.length * (1 * box / row.length)) := by
    unfold regionPos
    simp only
    rw [hsl, hnn, List.zipWith_map, List.zipWith_self, sum_map_range, sum_map_range, ← hS, ← hW, if_neg hsum.ne']
  rw [hval]
  have hwm := weighted_mean (L := e - s) (v := fun j => pix row ((s : ℤ) - r + j))
    (x := fun j => (((s : ℤ) - r : ℤ) : ℝ) + j) (lo := (((s : ℤ) - r : ℤ) : ℝ))
    (hi := (((s : ℤ) - r : ℤ) : ℝ) + ((e - s - 1 : ℕ) : ℝ))
    (fun j hj => (lt_of_le_of_lt hcut (hpos j hj)).le) (by
      intro j hj
      have h1 : (0 : ℝ) ≤ j := by positivity
      have h2 : (j : ℝ) ≤ ((e - s - 1 : ℕ) : ℝ) := by exact_mod_cast (by omega : j ≤ e - s - 1)
      constructor <;> linarith) hsum
  have hf0 : 0 ≤ fmod (W / S) row.length := by
    unfold fmod
    have := Int.floor_le (W / S / row.length)
    rw [le_div_iff₀ hnr] at this
    linarith
  have hf1 : fmod (W / S) row.length < row.length := by
    unfold fmod
    have := Int.lt_floor_add_one (W / S / row.length)
    rw [div_lt_iff₀ hnr] at this
    linarith
  refine ⟨_, rfl, ?_, ?_, by simp; omega, by simp; omega, hpos, W / S, hwm.1, hwm.2, ?_, ⌊W / S / row.length⌋, ?_⟩
  · positivity
  · rw [one_mul, ← mul_div_assoc, div_lt_iff₀ hnr, mul_comm box]
    exact mul_lt_mul_of_pos_right hf1 hb
  · rw [div_mul_cancel₀ _ hsum.ne']
  · have e1 : fmod (W / S) row.length * (1 * box / row.length) * row.length / box = fmod (W / S) row.length := by
      field_simp
    rw [e1]
    unfold fmod
    ring

/-- What the code reports for one sightline: stretches of absorption that contain all pixels above the limit, and their
positions. -/
def RowSpec (box thresh relthresh : ℝ) (row : List ℝ) (zs : List (Option ℝ)) : Prop :=
  ∃ m, m ∈ row ∧ (∀ y ∈ row, y ≤ m) ∧ ∃ arcs : List (ℤ × ℕ),
    List.Forall₂ (IsPosition row box (cutOf thresh relthresh m)) arcs zs ∧
    ∀ i < row.length, cutOf thresh relthresh m < pix row i →
      ∃ arc ∈ arcs, ∃ j < arc.2, (i : ℤ) ≡ arc.1 + j [ZMOD row.length]

/-- C29: the reported positions of absorption, for column densities that are nowhere negative. -/
theorem contiguous_positions {box thresh relthresh : ℝ} (hb : 0 < box) (ht : 0 ≤ thresh) (hr : 0 ≤ relthresh) {nbins : ℕ}
    (hn : 0 < nbins) {den : List (List ℝ)} (hne : den ≠ []) (hrows : ∀ row ∈ den, row.length = nbins ∧ ∀ x ∈ row, 0 ≤ x) :
    ∃ out, get_contiguous_regions nbins box den thresh relthresh = .ok out ∧ List.Forall₂ (RowSpec box thresh relthresh) den out := by
  obtain ⟨rolls, rolled, h1, h2, h3, h4⟩ := rolled_spectra hne (by
    intro row hrow hc
    have := (hrows row hrow).1
    rw [hc] at this
    simp at this
    omega)
  have hrow : ∀ row ∈ den, ∀ r o, Centred row o r →
      ∃ zs, rowRegions nbins box thresh relthresh r o = .ok zs ∧ RowSpec box thresh relthresh row zs := by
    intro row hrow r o hc
    obtain ⟨hl, hnn⟩ := hrows row hrow
    have hlen : o.length = row.length := hc.1
    have hmem : ∀ x, x ∈ o ↔ x ∈ row := fun x => hc.2.2.2.2.mem_iff
    have hone : o ≠ [] := by intro hx; rw [hx] at hlen; simp at hlen; omega
    obtain ⟨m, hm1, hm2, hm3⟩ := maxOf_spec hone
    set cut := cutOf thresh relthresh m with hcut
    have hcut0 : 0 ≤ cut := by
      rw [hcut]; unfold cutOf
      split
      · exact ht
      · exact mul_nonneg hr (hnn m ((hmem m).1 hm2))
    obtain ⟨regs, out, hmr, hcr, hz, -⟩ := combine_regions_spec (c := o.map (fun x => decide (x > cut))) (by simpa using hone) 0
    rw [hz rfl] at hcr
    have hin : ∀ reg ∈ regs, reg.1 < reg.2 ∧ reg.2 ≤ row.length ∧
        ∀ i, reg.1 ≤ i → i < reg.2 → ∃ v, o[i]? = some v ∧ cut < v := by
      intro reg hreg
      obtain ⟨g1, g2, g3⟩ := hmr.inside reg hreg
      refine ⟨g1, by simpa [hlen] using g2, ?_⟩
      intro i i1 i2
      have := g3 i i1 i2
      rw [List.getElem?_map] at this
      cases hoi : o[i]? with
      | none => rw [hoi] at this; simp at this
      | some v => rw [hoi] at this; exact ⟨v, rfl, by simpa using this⟩
    refine ⟨regs.map (regionPos o r nbins box), ?_, m, (hmem m).1 hm2, fun y hy => hm3 y ((hmem y).2 hy),
      regs.map (fun reg => ((reg.1 : ℤ) - r, reg.2 - reg.1)), ?_, ?_⟩
    · unfold rowRegions
      simp only [hm1, bind, Except.bind]
      rw [show (if m > thresh then thresh else relthresh * m) = cut from rfl]
      simp only [Nat.cast_zero] at hcr
      rw [hcr]
      rfl
    · rw [List.forall₂_map_left_iff, List.forall₂_map_right_iff, List.forall₂_same]
      intro reg hreg
      obtain ⟨g1, g2, g3⟩ := hin reg hreg
      rw [← hl]
      exact regionPos_spec hc hb hcut0 g1 g2 g3
    · intro i hi hlt
      have hnz : (0 : ℤ) < row.length := by exact_mod_cast (by omega : 0 < row.length)
      have hrow_i := hc.2.2.2.1 i hi
      set k := (((i : ℤ) + r) % row.length).toNat with hk
      have hk' : (k : ℤ) = ((i : ℤ) + r) % row.length := by
        rw [hk, Int.toNat_of_nonneg (Int.emod_nonneg _ hnz.ne')]
      have hpix : row[i]? = some (pix row i) := by
        unfold pix
        rw [Int.emod_eq_of_lt (by omega) (by exact_mod_cast hi), Int.toNat_natCast, List.getD_eq_getElem?_getD,
          List.getElem?_eq_getElem hi]
        rfl
      obtain ⟨reg, hreg, k1, k2⟩ := hmr.all k (by
        rw [List.getElem?_map, ← hrow_i, hpix]
        simpa using hlt)
      refine ⟨_, List.mem_map.2 ⟨reg, hreg, rfl⟩, k - reg.1, by simp; omega, ?_⟩
      have : (reg.1 : ℤ) - r + ((k - reg.1 : ℕ) : ℤ) = k - r := by
        rw [Nat.cast_sub k1]; ring
      simp only [this, hk']
      unfold Int.ModEq
      rw [Int.emod_sub_emod]
      congr 1; ring
  have hzip : ∀ p ∈ (rolls.zip rolled), True := fun _ _ => trivial
  have hlen2 : (rolls.zip rolled).length = den.length := by simp [h2, h3]
  obtain ⟨out, hout, hall⟩ := mapM_ok (f := fun p : ℤ × List ℝ => rowRegions nbins box thresh relthresh p.1 p.2)
    (P := fun p zs => ∀ row ∈ den, Centred row p.2 p.1 → RowSpec box thresh relthresh row zs) (l := rolls.zip rolled) (by
      intro p hp
      obtain ⟨k, hk, hkp⟩ := List.getElem_of_mem hp
      have hkd : k < den.length := by omega
      obtain ⟨r, o, g1, g2, g3⟩ := h4 k den[k] (List.getElem?_eq_getElem hkd)
      have hpe : p = (r, o) := by
        rw [← hkp, List.getElem_zip]
        rw [List.getElem?_eq_getElem (by omega)] at g1 g2
        rw [Option.some.inj g1, Option.some.inj g2]
      subst hpe
      obtain ⟨zs, z1, z2⟩ := hrow den[k] (List.getElem_mem hkd) r o g3
      refine ⟨zs, z1, ?_⟩
      intro row hrowm hcen
      obtain ⟨zs', z1', z2'⟩ := hrow row hrowm r o hcen
      have : (Except.ok zs : Py _) = .ok zs' := by rw [← z1, ← z1']
      cases this
      exact z2')
  refine ⟨out, ?_, ?_⟩
  · unfold get_contiguous_regions
    simp only [h1, bind, Except.bind]
    exact hout
  · rw [List.forall₂_iff_get]
    refine ⟨by rw [← hall.length_eq, hlen2], ?_⟩
    intro k hkd hko
    have hkz : k < (rolls.zip rolled).length := by omega
    have := List.forall₂_iff_get.1 hall |>.2 k hkz hko
    obtain ⟨r, o, g1, g2, g3⟩ := h4 k den[k] (List.getElem?_eq_getElem hkd)
    refine this den[k] (List.getElem_mem hkd) ?_
    simp only [List.get_eq_getElem, List.getElem_zip]
    rw [List.getElem?_eq_getElem (by omega)] at g1 g2
    rw [Option.some.inj g1, Option.some.inj g2]
    exact g3

/-- C29: a sightline with any column density at all has absorption at its maximum, a sightline without has none. -/
theorem absorption_found {box thresh relthresh : ℝ} (hr1 : relthresh < 1) {row : List ℝ} {zs : List (Option ℝ)} (hne : row ≠ [])
    (h : RowSpec box thresh relthresh row zs) {y : ℝ} (hy : y ∈ row) (hpos : 0 < y) : zs ≠ [] := by
  obtain ⟨m, hm, hmax, arcs, hall, hcov⟩ := h
  have hm0 : 0 < m := lt_of_lt_of_le hpos (hmax y hy)
  obtain ⟨i, hi, him⟩ := List.getElem_of_mem hm
  have hp : pix row i = m := by
    unfold pix
    rw [Int.emod_eq_of_lt (by omega) (by exact_mod_cast hi), Int.toNat_natCast, List.getD_eq_getElem?_getD,
      List.getElem?_eq_getElem hi]
    exact him
  obtain ⟨arc, harc, -⟩ := hcov i hi (by
    rw [hp]; unfold cutOf
    split
    · assumption
    · nlinarith)
  intro hz
  rw [hz] at hall
  cases hall
  simp at harc

/-- Distance in space (not periodic). -/
noncomputable def distance (a b : Pos3) : ℝ := √((a.x - b.x) ^ 2 + (a.y - b.y) ^ 2 + (a.z - b.z) ^ 2)

/-- The point of a sightline at position `z` along it. -/
def onSightline (cofm : Pos3) (axis : ℤ) (z : ℝ) : Pos3 :=
  if axis = 1 then { cofm with x := z } else if axis = 2 then { cofm with y := z } else { cofm with z := z }

/-- Halo `k` at distance `d` is the first of the catalogue that contains the point. -/
def FirstHalo (halos : List Halo) (p : Pos3) (k : ℕ) (d : ℝ) : Prop :=
  (∃ h, halos[k]? = some h ∧ d = distance h.pos p ∧ d < h.radius) ∧
  ∀ j < k, ∀ h, halos[j]? = some h → h.radius ≤ distance h.pos p

theorem distance_lt {a b : Pos3} {r : ℝ} (hr : 0 ≤ r) : dist2 a b < r ^ 2 ↔ distance a b < r := by
  unfold distance dist2
  constructor
  · intro h
    have := Real.sqrt_lt_sqrt (by positivity) h
    rwa [Real.sqrt_sq hr] at this
  · exact Real.lt_sq_of_sqrt_lt

theorem haloAt_spec {halos : List Halo} (hr : ∀ h ∈ halos, 0 ≤ h.radius) (p : Pos3) :
    (haloAt halos p = none → ∀ h ∈ halos, h.radius ≤ distance h.pos p) ∧
    ∀ k d, haloAt halos p = some (k, d) → FirstHalo halos p k d := by
  have hp : ∀ h ∈ halos, (decide (dist2 h.pos p < h.radius ^ 2) = true) ↔ distance h.pos p < h.radius := by
    intro h hh
    rw [decide_eq_true_iff]
    exact distance_lt (hr h hh)
  unfold haloAt
  simp only
  set i := halos.findIdx (fun h => decide (dist2 h.pos p < h.radius ^ 2)) with hi
  have hbefore : ∀ j < i, ∀ h, halos[j]? = some h → h.radius ≤ distance h.pos p := by
    intro j hj h hh
    obtain ⟨hjl, hje⟩ := List.getElem?_eq_some_iff.1 hh
    have := List.not_of_lt_findIdx (p := fun h : Halo => decide (dist2 h.pos p < h.radius ^ 2)) hj
    rw [hje] at this
    by_contra hc
    exact absurd ((hp h (List.mem_of_getElem? hh)).2 (not_le.1 hc)) (by simpa using this)
  cases hg : halos[i]? with
  | none =>
    refine ⟨fun _ h hh => ?_, by simp⟩
    obtain ⟨j, hj, hje⟩ := List.getElem_of_mem hh
    have hil : halos.length ≤ i := List.getElem?_eq_none_iff.1 hg
    exact hbefore j (by omega) h (by rw [List.getElem?_eq_getElem hj, hje])
  | some h =>
    refine ⟨by simp, ?_⟩
    intro k d hkd
    simp only [Option.some.injEq, Prod.mk.injEq] at hkd
    obtain ⟨rfl, rfl⟩ := hkd
    obtain ⟨hil, hie⟩ := List.getElem?_eq_some_iff.1 hg
    have hsat : decide (dist2 h.pos p < h.radius ^ 2) = true := by
      have := List.findIdx_getElem (p := fun h : Halo => decide (dist2 h.pos p < h.radius ^ 2)) (w := hil)
      rwa [hie] at this
    exact ⟨⟨h, hg, rfl, (hp h (List.mem_of_getElem? hg)).1 hsat⟩, hbefore⟩

/-- The halos reported for one sightline. -/
def AssignSpec (halos : List Halo) (cofm : Pos3) (axis : ℤ) (zs : List ℝ) (out : List (ℕ × ℝ)) : Prop :=
  ∃ g : ℝ → Option (ℕ × ℝ), out = zs.filterMap g ∧ ∀ z ∈ zs,
    (g z = none → ∀ h ∈ halos, h.radius ≤ distance h.pos (onSightline cofm axis z)) ∧
    ∀ k d, g z = some (k, d) → FirstHalo halos (onSightline cofm axis z) k d

theorem setAxis_eq {cofm : Pos3} {axis : ℤ} (ha : axis = 1 ∨ axis = 2 ∨ axis = 3) (z : ℝ) :
    setAxis cofm (axis - 1) z = .ok (onSightline cofm axis z) := by
  rcases ha with rfl | rfl | rfl <;> simp [setAxis, onSightline]

theorem mapM_pure {α β : Type} {f : α → Py β} {g : α → β} (l : List α) (h : ∀ a ∈ l, f a = .ok (g a)) :
    l.mapM f = .ok (l.map g) := by
  induction l with
  | nil => rfl
  | cons a l ih =>
    rw [List.mapM_cons, h a (by simp), ih (fun b hb => h b (by simp [hb]))]
    rfl

/-- C29 in part: every absorber that lies in a halo is given the first halo of the catalogue that contains it, with its
distance from the centre; one outside all halos is given none and leaves no entry. What is missing: the halo need not be the
nearest one (`assign_not_nearest`), and distances are not periodic (`assign_not_periodic`). -/
theorem assign_spec_partial {cofm : List Pos3} {axis : List ℤ} {zpos : List (List ℝ)} {halos : List Halo}
    (hr : ∀ h ∈ halos, 0 ≤ h.radius) (ha : ∀ a ∈ axis, a = 1 ∨ a = 2 ∨ a = 3) (hc : zpos.length ≤ cofm.length)
    (hx : zpos.length ≤ axis.length) :
    ∃ out, assign_to_halo cofm axis zpos halos = .ok out ∧ out.length = zpos.length ∧
      ∀ (i : ℕ) zs c a, zpos[i]? = some zs → cofm[i]? = some c → axis[i]? = some a →
        ∃ o, out[i]? = some o ∧ AssignSpec halos c a zs o := by
  obtain ⟨out, h1, h2⟩ := mapM_ok (l := zpos.zipIdx) (f := fun zi => do
      let c ← get cofm zi.2
      let a ← get axis zi.2
      assignRow halos c a zi.1)
    (P := fun zi o => ∀ c a, cofm[zi.2]? = some c → axis[zi.2]? = some a → AssignSpec halos c a zi.1 o) (by
      rintro ⟨zs, i⟩ hm
      have hi : i < zpos.length := by
        have := List.snd_lt_of_mem_zipIdx hm
        simpa using this
      have hgc : get cofm (i : ℤ) = .ok cofm[i] :=
        get_eq (by rw [index_nonneg (by omega) (by omega)]; rfl) (List.getElem?_eq_getElem (by omega))
      have hga : get axis (i : ℤ) = .ok axis[i] :=
        get_eq (by rw [index_nonneg (by omega) (by omega)]; rfl) (List.getElem?_eq_getElem (by omega))
      have hax := ha axis[i] (List.getElem_mem (by omega))
      refine ⟨(zs.map (onSightline cofm[i] axis[i])).filterMap (haloAt halos), ?_, ?_⟩
      · simp only [hgc, hga, bind, Except.bind]
        unfold assignRow
        rw [mapM_pure zs (fun z _ => setAxis_eq hax z)]
        rfl
      · intro c a hcc haa
        simp only at hcc haa
        rw [List.getElem?_eq_getElem (by omega)] at hcc haa
        rw [← Option.some.inj hcc, ← Option.some.inj haa]
        refine ⟨fun z => haloAt halos (onSightline cofm[i] axis[i] z), ?_, fun z _ => haloAt_spec hr _⟩
        rw [List.filterMap_map]
        rfl)
  have hlen : out.length = zpos.length := by rw [← h2.length_eq]; simp
  refine ⟨out, h1, hlen, ?_⟩
  intro i zs c a hz hcc haa
  have hi : i < zpos.length := (List.getElem?_eq_some_iff.1 hz).1
  have hio : i < out.length := by omega
  refine ⟨out[i], List.getElem?_eq_getElem hio, ?_⟩
  have := List.forall₂_iff_get.1 h2 |>.2 i (by simpa using hi) hio
  simp only [List.get_eq_getElem, List.getElem_zipIdx, Nat.zero_add] at this
  have h3 := this c a hcc haa
  rw [List.getElem?_eq_getElem hi] at hz
  rwa [Option.some.inj hz] at h3

/-- The nearest halo is chosen whenever no two halos of the catalogue overlap at the absorber. -/
theorem assign_nearest_partial {halos : List Halo} {p : Pos3} {k : ℕ} {d : ℝ} (h : FirstHalo halos p k d)
    (honly : ∀ (i j : ℕ) a b, halos[i]? = some a → halos[j]? = some b → distance a.pos p < a.radius →
      distance b.pos p < b.radius → i = j) (j : ℕ) (b : Halo) (hb : halos[j]? = some b) (hin : distance b.pos p < b.radius) :
    d ≤ distance b.pos p := by
  obtain ⟨⟨a, ha, rfl, had⟩, -⟩ := h
  have := honly k j a b ha hb had hin
  subst this
  rw [ha] at hb
  cases hb
  exact le_refl _

/-- C29 is false of the code: of two halos that contain the absorber at `x = 5`, the first of the catalogue is taken although
the centre of the second is nearer. -/
theorem assign_not_nearest : ∃ (halos : List Halo) (p : Pos3), FirstHalo halos p 0 2 ∧
    haloAt halos p = some (0, 2) ∧ ∃ b, halos[1]? = some b ∧ distance b.pos p = 1 ∧ distance b.pos p < b.radius := by
  have hs4 : √(4 : ℝ) = 2 := by rw [show (4 : ℝ) = 2 ^ 2 by norm_num, Real.sqrt_sq (by norm_num)]
  have hval : haloAt [⟨3, ⟨3, 0, 0⟩⟩, ⟨3, ⟨4, 0, 0⟩⟩] ⟨5, 0, 0⟩ = some (0, 2) := by
    unfold haloAt
    have : List.findIdx (fun h : Halo => decide (dist2 h.pos ⟨5, 0, 0⟩ < h.radius ^ 2)) [⟨3, ⟨3, 0, 0⟩⟩, ⟨3, ⟨4, 0, 0⟩⟩] = 0 := by
      rw [List.findIdx_cons]
      have : decide (dist2 (⟨3, 0, 0⟩ : Pos3) ⟨5, 0, 0⟩ < (3 : ℝ) ^ 2) = true := by
        rw [decide_eq_true_iff]; unfold dist2; norm_num
      simp only [this, cond_true]
    simp only [this]
    simp only [List.getElem?_cons_zero, Option.some.injEq, Prod.mk.injEq, true_and]
    unfold dist2
    norm_num [hs4]
  refine ⟨[⟨3, ⟨3, 0, 0⟩⟩, ⟨3, ⟨4, 0, 0⟩⟩], ⟨5, 0, 0⟩, ?_, hval, ⟨3, ⟨4, 0, 0⟩⟩, rfl, ?_, ?_⟩
  · refine (haloAt_spec ?_ _).2 0 2 hval
    intro h hh
    simp at hh
    rcases hh with rfl | rfl <;> norm_num
  · unfold distance; norm_num
  · unfold distance; norm_num

/-- C29: in a box of size 10, an absorber at 9.9 is 0.2 from a halo at 0.1 across the edge, but it is not assigned to it. -/
theorem assign_not_periodic : assign_to_halo [⟨0, 0, 0⟩] [1] [[9.9]] [⟨1, ⟨0.1, 0, 0⟩⟩] = .ok [[]] := by
  have h0 : ((0 : ℕ) : ℤ) = 0 := rfl
  have hval : haloAt [⟨1, ⟨0.1, 0, 0⟩⟩] ⟨9.9, 0, 0⟩ = none := by
    unfold haloAt
    have : List.findIdx (fun h : Halo => decide (dist2 h.pos ⟨9.9, 0, 0⟩ < h.radius ^ 2)) [⟨1, ⟨0.1, 0, 0⟩⟩] = 1 := by
      rw [List.findIdx_cons]
      have : decide (dist2 (⟨0.1, 0, 0⟩ : Pos3) ⟨9.9, 0, 0⟩ < (1 : ℝ) ^ 2) = false := by
        rw [decide_eq_false_iff_not]; unfold dist2; norm_num
      simp only [this, cond_false]
      rfl
    simp only [this]
    rfl
  unfold assign_to_halo assignRow
  simp [Np.get, index, setAxis, bind, Except.bind, pure, Except.pure, hval]

/-- C29: an absorber without halo leaves no entry, so entries and absorbers cannot be matched: of two absorbers, at 9 and 1,
only the second is in the halo, and its entry comes first. -/
theorem assign_unaligned : assign_to_halo [⟨0, 0, 0⟩] [1] [[9, 1]] [⟨1, ⟨1, 0, 0⟩⟩] = .ok [[(0, 0)]] := by
  have hval : haloAt [⟨1, ⟨1, 0, 0⟩⟩] ⟨9, 0, 0⟩ = none := by
    unfold haloAt
    have : List.findIdx (fun h : Halo => decide (dist2 h.pos ⟨9, 0, 0⟩ < h.radius ^ 2)) [⟨1, ⟨1, 0, 0⟩⟩] = 1 := by
      rw [List.findIdx_cons]
      have : decide (dist2 (⟨1, 0, 0⟩ : Pos3) ⟨9, 0, 0⟩ < (1 : ℝ) ^ 2) = false := by
        rw [decide_eq_false_iff_not]; unfold dist2; norm_num
      simp only [this, cond_false]
      rfl
    simp only [this]
    rfl
  have hval' : haloAt [⟨1, ⟨1, 0, 0⟩⟩] ⟨1, 0, 0⟩ = some (0, 0) := by
    unfold haloAt
    have : List.findIdx (fun h : Halo => decide (dist2 h.pos ⟨1, 0, 0⟩ < h.radius ^ 2)) [⟨1, ⟨1, 0, 0⟩⟩] = 0 := by
      rw [List.findIdx_cons]
      have : decide (dist2 (⟨1, 0, 0⟩ : Pos3) ⟨1, 0, 0⟩ < (1 : ℝ) ^ 2) = true := by
        rw [decide_eq_true_iff]; unfold dist2; norm_num
      simp only [this, cond_true]
    simp only [this]
    unfold dist2
    simp
  unfold assign_to_halo assignRow
  simp [Np.get, index, setAxis, bind, Except.bind, pure, Except.pure, hval, hval']

/-- C29: the host of a sightline is one of the halos found for it, directly or by a subhalo, with the largest virial
velocity; without any it is -1. -/
theorem host_spec {order : List ℤ → List ℤ} (ho : ∀ l, (order l).Perm l) {virial : List ℝ} {halos parents : List ℤ}
    (hin : ∀ h ∈ parents ++ halos, 0 ≤ h ∧ h < virial.length) :
    (parents ++ halos = [] → hostHalo order virial halos parents = .ok (-1)) ∧
    (parents ++ halos ≠ [] → ∃ h v, hostHalo order virial halos parents = .ok h ∧ h ∈ parents ++ halos ∧
      virial[h.toNat]? = some v ∧ ∀ h' ∈ parents ++ halos, ∀ v', virial[h'.toNat]? = some v' → v' ≤ v) := by
  have hmem : ∀ x, x ∈ order (parents ++ halos).dedup ↔ x ∈ parents ++ halos := by
    intro x; rw [(ho _).mem_iff, List.mem_dedup]
  constructor
  · intro h
    have : order (parents ++ halos).dedup = [] := by
      rw [h, List.dedup_nil]; exact List.perm_nil.1 (ho _)
    unfold hostHalo
    simp only [this, if_true]
    rfl
  · intro h
    set both := order (parents ++ halos).dedup with hb
    have hne : both ≠ [] := by
      obtain ⟨x, hx⟩ := List.exists_mem_of_ne_nil _ h
      exact List.ne_nil_of_mem ((hmem x).2 hx)
    have hget : ∀ x ∈ both, get virial x = .ok (virial.getD x.toNat 0) := by
      intro x hx
      obtain ⟨h0, h1⟩ := hin x ((hmem x).1 hx)
      refine get_eq (index_nonneg h0 h1) ?_
      rw [List.getD_eq_getElem?_getD, List.getElem?_eq_getElem (by omega)]
      rfl
    have hvv := mapM_pure both hget
    set vv := both.map (fun x => virial.getD x.toNat 0) with hvvd
    obtain ⟨m, hm1, hm2, hm3⟩ := maxOf_spec (a := vv) (by simpa [hvvd] using hne)
    have hlt : vv.findIdx (fun v => decide (v = m)) < vv.length := List.findIdx_lt_length_of_exists ⟨m, hm2, by simp⟩
    have hsat := List.findIdx_getElem (p := fun v : ℝ => decide (v = m)) (w := hlt)
    set k := vv.findIdx (fun v => decide (v = m)) with hk
    have hkb : k < both.length := by simpa [hvvd] using hlt
    have hvk : virial.getD (both[k]).toNat 0 = m := by
      have h2 : vv[k]? = some m := by
        rw [List.getElem?_eq_getElem hlt]
        exact congrArg some (of_decide_eq_true hsat)
      have h3 : vv[k]? = some (virial.getD (both[k]).toNat 0) := by
        show (both.map (fun x => virial.getD x.toNat 0))[k]? = _
        rw [List.getElem?_map, List.getElem?_eq_getElem hkb]
        rfl
      rw [h2] at h3
      exact (Option.some.inj h3).symm
    obtain ⟨h0, h1⟩ := hin both[k] ((hmem _).1 (List.getElem_mem hkb))
    refine ⟨both[k], m, ?_, (hmem _).1 (List.getElem_mem hkb), ?_, ?_⟩
    · unfold hostHalo
      simp only
      rw [← hb, if_neg hne, hvv]
      simp only [bind, Except.bind, hm1]
      exact get_eq (k := k) (by rw [index_nonneg (by omega) (by exact_mod_cast hkb)]; rfl) (List.getElem?_eq_getElem hkb)
    · rw [← hvk, List.getD_eq_getElem?_getD, List.getElem?_eq_getElem (by omega)]
      rfl
    · intro h' hh' v' hv'
      refine hm3 v' (List.mem_map.2 ⟨h', (hmem h').2 hh', ?_⟩)
      rw [List.getD_eq_getElem?_getD, hv']
      rfl

/-- The virial velocity in cm/s, squared, of a halo with mass `m` in solar masses over h and radius `r` in comoving
kpc over h: `G M / R` with both in physical units. -/
noncomputable def virialSq (u : Units.UnitSystem) (hubble red m r : ℝ) : ℝ :=
  6.674e-8 * (m / hubble * (u.UnitMass_in_g / 1e10)) / (r / hubble / (1 + red) * u.UnitLength_in_cm)

/-- C29: virial velocities, in km/s, grow with mass and are never negative, and their square is `h` times `G M / R`: the
factor `h` of masses in solar masses over h is left out. -/
theorem virial_vel_spec {u : Units.UnitSystem} {hubble red m r : ℝ} (hu : 0 < u.UnitMass_in_g) (hl : 0 < u.UnitLength_in_cm)
    (hh : 0 < hubble) (hz : 0 < 1 + red) (hm : 0 ≤ m) (hr : 0 < r) :
    0 ≤ virial_vel u hubble red m r ∧ (virial_vel u hubble red m r * 1e5) ^ 2 = hubble * virialSq u hubble red m r ∧
    ∀ m', m ≤ m' → virial_vel u hubble red m r ≤ virial_vel u hubble red m' r := by
  have hform : ∀ m, virial_vel u hubble red m r =
      √(Units.gravcgs * (u.UnitMass_in_g / 1e10 / (u.UnitLength_in_cm / hubble / (1 + red))) * m / r) / 1e5 := by
    intro m
    unfold virial_vel
    simp only [if_neg hr.ne']
  have hg : 0 < Units.gravcgs := by unfold Units.gravcgs; norm_num
  refine ⟨?_, ?_, ?_⟩
  · rw [hform]; positivity
  · rw [hform, div_mul_cancel₀ _ (by norm_num), Real.sq_sqrt (by positivity)]
    unfold virialSq Units.gravcgs
    field_simp
  · intro m' hm'
    rw [hform, hform]
    gcongr

/-- C29: the comparison `halo > 0` with which the plots select sightlines that have a halo (field sightlines are -1) leaves
out those whose host is the first halo of the catalogue. -/
theorem first_halo_left_out (halo : List ℤ) (i : ℕ) (h : halo[i]? = some 0) : i ∉ sightlinesWithHalo halo := by
  unfold sightlinesWithHalo
  rw [List.mem_filter]
  rintro ⟨-, hc⟩
  rw [List.getD_eq_getElem?_getD, h] at hc
  simp at hc

/-- C29: the mass of the smallest resolved halo is the mass of `minpart` particles when the box holds `npart` of them at the
mean matter density (2.78e11 OmegaM solar masses h² per Mpc³, box in kpc/h). -/
theorem min_halo_mass_spec {OmegaM box npart minpart : ℝ} (hn : npart ≠ 0) :
    min_halo_mass OmegaM box npart minpart * 1e10 * npart = minpart * (2.78e11 * OmegaM * (box / 1000) ^ 3) := by
  unfold min_halo_mass
  field_simp
  norm_num
  ring

/-- Hypotheses of `contiguous_positions`: two sightlines, the second with absorption at both ends. -/
example : ∃ den : List (List ℝ), den ≠ [] ∧ ∀ row ∈ den, row.length = 3 ∧ ∀ x ∈ row, 0 ≤ x := by
  refine ⟨[[0, 3e20, 1], [1e21, 0, 2e21]], by simp, ?_⟩
  intro row hrow
  simp at hrow
  rcases hrow with rfl | rfl
  · exact ⟨rfl, by intro x hx; simp at hx; rcases hx with rfl | rfl | rfl <;> norm_num⟩
  · exact ⟨rfl, by intro x hx; simp at hx; rcases hx with rfl | rfl | rfl <;> norm_num⟩

/-- Hypotheses of `assign_spec_partial` and `host_spec`. -/
example : ∃ (halos : List Halo) (axis : List ℤ) (order : List ℤ → List ℤ), halos.length = 1 ∧ (∀ h ∈ halos, 0 ≤ h.radius) ∧
    (∀ a ∈ axis, a = 1 ∨ a = 2 ∨ a = 3) ∧ axis.length = 2 ∧ ∀ l, (order l).Perm l :=
  ⟨[⟨1, ⟨1, 0, 0⟩⟩], [1, 3], List.reverse, rfl, by simp, by simp, rfl, fun l => l.reverse_perm⟩

/-! The theorems at work on two sightlines of three pixels and one halo. -/

example : ∃ out, get_contiguous_regions 3 10 [[0, 3e20, 1], [1e21, 0, 2e21]] 1e20 1e-2 = .ok out ∧
    List.Forall₂ (RowSpec 10 1e20 1e-2) [[0, 3e20, 1], [1e21, 0, 2e21]] out ∧ ∀ zs ∈ out, zs ≠ [] := by
  obtain ⟨out, h1, h2⟩ := contiguous_positions (box := 10) (thresh := 1e20) (relthresh := 1e-2) (by norm_num) (by norm_num) (by norm_num)
    (nbins := 3) (by norm_num) (den := [[0, 3e20, 1], [1e21, 0, 2e21]]) (by simp) (by simp; norm_num)
  refine ⟨out, h1, h2, ?_⟩
  cases h2 with
  | cons h h2 =>
    cases h2 with
    | cons h' h2 =>
      cases h2
      intro zs hz
      simp only [List.mem_cons, List.not_mem_nil, or_false] at hz
      rcases hz with rfl | rfl
      · exact absorption_found (by norm_num) (by simp) h (y := 3e20) (by simp) (by norm_num)
      · exact absorption_found (by norm_num) (by simp) h' (y := 1e21) (by simp) (by norm_num)

example := assign_spec_partial (cofm := [⟨1, 0, 0⟩, ⟨5, 5, 5⟩]) (axis := [1, 3]) (zpos := [[1, 4], [2]]) (halos := [⟨1, ⟨1, 0, 0⟩⟩]) (by simp) (by simp)
  (by simp) (by simp)

example := host_spec (order := List.reverse) (fun l => l.reverse_perm) (virial := [100, 50, 20]) (halos := [0, 2]) (parents := [1]) (by simp)

example := virial_vel_spec (u := Units.gadget) (hubble := 0.7) (red := 3) (m := 1e12) (r := 200) (by norm_num [Units.gadget]) (by norm_num [Units.gadget])
  (by norm_num) (by norm_num) (by norm_num) (by norm_num)

example := first_halo_left_out [3, 0, -1] 1 rfl

end Verif.Props
