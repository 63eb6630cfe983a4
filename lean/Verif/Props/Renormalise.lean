import Verif.Model.SpecTools
import Verif.Lemmas.Numpy

/-!
C32: renormalised flux.
-/

namespace Verif.Props
open Verif Verif.Np Verif.SpecTools

theorem flatMap_range_length {α : Type} (f : ℕ → List α) {L : ℕ} (h : ∀ i, (f i).length = L) (N : ℕ) :
    ((List.range N).flatMap f).length = N * L := by
  induction N with
  | zero => simp
  | succ N ih => rw [List.range_succ, List.flatMap_append, List.length_append, ih]; simp [h]; ring

theorem flatMap_range_get {α : Type} (f : ℕ → List α) {L : ℕ} (h : ∀ i, (f i).length = L) {N i j : ℕ} (hi : i < N) (hj : j < L) :
    ((List.range N).flatMap f)[i * L + j]? = (f i)[j]? := by
  induction N with
  | zero => omega
  | succ N ih =>
    rw [List.range_succ, List.flatMap_append]
    rcases Nat.lt_or_ge i N with hlt | hge
    · have hidx : i * L + j < N * L := by
        calc i * L + j < i * L + L := by omega
          _ = (i + 1) * L := by ring
          _ ≤ N * L := Nat.mul_le_mul_right L hlt
      rw [List.getElem?_append_left (by rw [flatMap_range_length f h]; exact hidx)]
      exact ih hlt
    · have : i = N := by omega
      subst this
      rw [List.getElem?_append_right (by rw [flatMap_range_length f h]; omega), flatMap_range_length f h]
      simp

/-- The number of pixel steps in a section: as many as fit in `section_size`. -/
noncomputable def stepsPerSection (box section_size : ℝ) (npix : ℕ) : ℕ := ⌊section_size / box * ((npix : ℝ) - 1)⌋₊

/-- Section `i` of a sightline: pixels `i n` to `(i+1) n`, both included, divided by their maximum. -/
def IsSection (row : List ℝ) (n i : ℕ) (sec : List (Option ℝ)) : Prop :=
  sec.length = n + 1 ∧ ∃ m, (∃ p ≤ n, row[i * n + p]? = some m) ∧ 0 < m ∧
    ∀ p ≤ n, ∃ f, row[i * n + p]? = some f ∧ 0 < f ∧ f ≤ m ∧ sec[p]? = some (some (f / m))

theorem sectionOf_spec {row : List ℝ} {n i : ℕ} (hlen : (i + 1) * n + 1 ≤ row.length) (hpos : ∀ f ∈ row, 0 < f) :
    ∃ sec, sectionOf row n i = .ok sec ∧ IsSection row n i sec := by
  set s := slice row (i * n) ((i + 1) * n + 1) with hs
  have hmul : (i + 1) * n = i * n + n := by ring
  have hsl : s.length = n + 1 := by
    rw [hs]; unfold slice
    rw [List.length_drop, List.length_take, min_eq_left hlen]
    omega
  have hget : ∀ p ≤ n, s[p]? = row[i * n + p]? := fun p hp => slice_get row hlen (by omega)
  obtain ⟨m, hm, hmem, hmax⟩ := maxOf_spec (a := s) (by intro hc; rw [hc] at hsl; simp at hsl)
  have hsub : ∀ x ∈ s, x ∈ row := by
    intro x hx
    rw [hs] at hx
    exact List.mem_of_mem_take (List.mem_of_mem_drop hx)
  have hm0 : 0 < m := hpos m (hsub m hmem)
  refine ⟨s.map (fun f => if m = 0 then none else some (f / m)), ?_, by simp [hsl], m, ?_, hm0, ?_⟩
  · unfold sectionOf
    simp only
    rw [← hs, if_pos hsl]
    simp only [bind, Except.bind, pure, Except.pure, hm]
  · obtain ⟨p, hp, hpm⟩ := List.getElem_of_mem hmem
    refine ⟨p, by omega, ?_⟩
    rw [← hget p (by omega), List.getElem?_eq_getElem hp, hpm]
  · intro p hp
    have hp' : p < s.length := by omega
    refine ⟨s[p], ?_, hpos _ (hsub _ (List.getElem_mem hp')), hmax _ (List.getElem_mem hp'), ?_⟩
    · rw [← hget p hp, List.getElem?_eq_getElem hp']
    · rw [List.getElem?_map, List.getElem?_eq_getElem hp']
      simp [hm0.ne']

/-- C32: for flux that is positive everywhere and a section between a pixel and the box, there are `floor(box/section)`
sections of every sightline, first the first section of all sightlines, then the second, and so on. Each is the flux of
`n + 1` neighbouring pixels divided by their maximum; neighbouring sections share one pixel. -/
theorem renormalise_spec_partial {vmax velfac box : ℝ} (hv : 0 < velfac) (hb : 0 < box) (hvm : vmax = box * velfac) {npix : ℕ}
    (hn : 2 ≤ npix) {flux : List (List ℝ)} (hrows : ∀ row ∈ flux, row.length = npix ∧ ∀ f ∈ row, 0 < f) {section_size : ℝ}
    (hlo : box / ((npix : ℝ) - 1) ≤ section_size) (hhi : section_size ≤ box) :
    ∃ out, renormalize_flux vmax velfac box npix flux section_size = .ok out ∧
      1 ≤ stepsPerSection box section_size npix ∧ 1 ≤ ⌊box / section_size⌋₊ ∧
      out.length = ⌊box / section_size⌋₊ * flux.length ∧
      ∀ i < ⌊box / section_size⌋₊, ∀ (j : ℕ) row, flux[j]? = some row →
        ∃ sec, out[i * flux.length + j]? = some sec ∧ IsSection row (stepsPerSection box section_size npix) i sec := by
  have hn1 : (0 : ℝ) < (npix : ℝ) - 1 := by
    have : (2 : ℝ) ≤ npix := by exact_mod_cast hn
    linarith
  have hs : 0 < section_size := lt_of_lt_of_le (div_pos hb hn1) hlo
  have hsteps : vmax / (box / section_size * (vmax / ((npix : ℝ) - 1))) = section_size / box * ((npix : ℝ) - 1) := by
    rw [hvm]; field_simp
  have hone : 1 ≤ section_size / box * ((npix : ℝ) - 1) := by
    rw [div_mul_eq_mul_div, le_div_iff₀ hb, one_mul]
    rwa [div_le_iff₀ hn1] at hlo
  have h1 : 1 ≤ stepsPerSection box section_size npix := by
    unfold stepsPerSection; exact Nat.le_floor (by exact_mod_cast hone)
  have hN : 1 ≤ ⌊box / section_size⌋₊ := by
    apply Nat.le_floor
    rw [Nat.cast_one, le_div_iff₀ hs]
    linarith
  have hfit : ⌊box / section_size⌋₊ * stepsPerSection box section_size npix ≤ npix - 1 := by
    have e1 : (⌊box / section_size⌋₊ : ℝ) ≤ box / section_size := Nat.floor_le (by positivity)
    have e2 : (stepsPerSection box section_size npix : ℝ) ≤ section_size / box * ((npix : ℝ) - 1) :=
      Nat.floor_le (by linarith)
    have e3 : (⌊box / section_size⌋₊ : ℝ) * stepsPerSection box section_size npix ≤ (npix : ℝ) - 1 := by
      calc (⌊box / section_size⌋₊ : ℝ) * stepsPerSection box section_size npix
          ≤ box / section_size * (section_size / box * ((npix : ℝ) - 1)) := by gcongr
        _ = (npix : ℝ) - 1 := by field_simp
    have e4 : ((⌊box / section_size⌋₊ * stepsPerSection box section_size npix : ℕ) : ℝ) ≤ ((npix - 1 : ℕ) : ℝ) := by
      rw [Nat.cast_sub (by omega)]; push_cast; linarith
    exact_mod_cast e4
  set n := stepsPerSection box section_size npix with hnd
  set N := ⌊box / section_size⌋₊ with hNd
  set work := (List.range N).flatMap (fun i => flux.map (fun row => (row, i))) with hw
  obtain ⟨out, hout, hall⟩ := mapM_ok (f := fun p : List ℝ × ℕ => sectionOf p.1 n p.2)
    (P := fun p sec => IsSection p.1 n p.2 sec) (l := work) (by
      intro p hp
      rw [hw, List.mem_flatMap] at hp
      obtain ⟨i, hi, hp⟩ := hp
      obtain ⟨row, hrow, rfl⟩ := List.mem_map.1 hp
      have hi := List.mem_range.1 hi
      refine sectionOf_spec ?_ (hrows row hrow).2
      show (i + 1) * n + 1 ≤ row.length
      rw [(hrows row hrow).1]
      have : (i + 1) * n ≤ N * n := Nat.mul_le_mul_right n hi
      omega)
  have hlen : work.length = N * flux.length :=
    flatMap_range_length (fun i => flux.map (fun row => (row, i))) (fun i => by simp) N
  refine ⟨out, ?_, h1, hN, by rw [← hall.length_eq, hlen], ?_⟩
  · unfold renormalize_flux
    rw [if_neg hn1.ne']
    simp only
    have hvel : vmax / ((npix : ℝ) - 1) / velfac = box / ((npix : ℝ) - 1) := by rw [hvm]; field_simp
    rw [hvel, if_neg (by rintro (h | h) <;> linarith), hsteps]
    exact hout
  · intro i hi j row hj
    obtain ⟨hjl, hjr⟩ := List.getElem?_eq_some_iff.1 hj
    have hg : work[i * flux.length + j]? = some (row, i) := by
      rw [hw, flatMap_range_get (fun i => flux.map (fun row => (row, i))) (fun i => by simp) hi hjl]
      simp [hj]
    obtain ⟨hkl, hkr⟩ := List.getElem?_eq_some_iff.1 hg
    have hko : i * flux.length + j < out.length := by rw [← hall.length_eq]; exact hkl
    refine ⟨out[i * flux.length + j], List.getElem?_eq_getElem hko, ?_⟩
    have := List.forall₂_iff_get.1 hall |>.2 (i * flux.length + j) hkl hko
    simp only [List.get_eq_getElem, hkr] at this
    exact this

/-- C32: in every section all values are in (0,1] and one of them is one. -/
theorem section_range {row : List ℝ} {n i : ℕ} {sec : List (Option ℝ)} (h : IsSection row n i sec) :
    (∀ x ∈ sec, ∃ f, x = some f ∧ 0 < f ∧ f ≤ 1) ∧ some 1 ∈ sec := by
  obtain ⟨hlen, m, ⟨q, hq, hqm⟩, hm0, hp⟩ := h
  constructor
  · intro x hx
    obtain ⟨p, hpl, rfl⟩ := List.getElem_of_mem hx
    obtain ⟨f, -, h1, h2, h3⟩ := hp p (by omega)
    rw [List.getElem?_eq_getElem hpl] at h3
    exact ⟨f / m, Option.some.inj h3, by positivity, by rw [div_le_one hm0]; exact h2⟩
  · obtain ⟨f, h0, -, -, h3⟩ := hp q hq
    rw [hqm] at h0
    rw [← Option.some.inj h0, div_self hm0.ne'] at h3
    exact List.mem_of_getElem? h3

/-- C32 is false of the code as far as tiling goes: with sections of 0.6 boxes and 11 pixels there is one section of pixels 0
to 6, and the last four pixels are dropped. -/
theorem renormalise_drops : ⌊(1 : ℝ) / 0.6⌋₊ = 1 ∧ stepsPerSection 1 0.6 11 = 6 := by
  unfold stepsPerSection
  constructor
  · rw [Nat.floor_eq_iff (by norm_num)]; norm_num
  · rw [Nat.floor_eq_iff (by norm_num)]; norm_num

/-- C32: a section of the size of the box is the whole spectrum. -/
theorem renormalise_whole {box : ℝ} (hb : 0 < box) {npix : ℕ} (hn : 1 ≤ npix) :
    ⌊box / box⌋₊ = 1 ∧ stepsPerSection box box npix = npix - 1 := by
  unfold stepsPerSection
  rw [div_self hb.ne', one_mul, Nat.floor_one]
  refine ⟨rfl, ?_⟩
  rw [show (npix : ℝ) - 1 = ((npix - 1 : ℕ) : ℝ) by rw [Nat.cast_sub hn]; simp, Nat.floor_natCast]

/-- C32: sections smaller than a pixel or larger than the box are refused. -/
theorem renormalise_refuses {vmax velfac box : ℝ} (hv : 0 < velfac) (hvm : vmax = box * velfac) {npix : ℕ}
    (hn : 2 ≤ npix) (flux : List (List ℝ)) {section_size : ℝ}
    (h : section_size < box / ((npix : ℝ) - 1) ∨ box < section_size) :
    renormalize_flux vmax velfac box npix flux section_size = .error .runtimeError := by
  have hn1 : (0 : ℝ) < (npix : ℝ) - 1 := by
    have : (2 : ℝ) ≤ npix := by exact_mod_cast hn
    linarith
  unfold renormalize_flux
  rw [if_neg hn1.ne']
  simp only
  have hvel : vmax / ((npix : ℝ) - 1) / velfac = box / ((npix : ℝ) - 1) := by rw [hvm]; field_simp
  rw [hvel, if_pos h]

/-- The hypotheses are met by two sightlines of three pixels, in one section. -/
example : ∃ (flux : List (List ℝ)), (∀ row ∈ flux, row.length = 3 ∧ ∀ f ∈ row, 0 < f) ∧
    (10 : ℝ) / (((3 : ℕ) : ℝ) - 1) ≤ 10 ∧ flux.length = 2 := by
  refine ⟨[[1, 0.5, 0.25], [0.1, 0.2, 0.3]], ?_, by norm_num, rfl⟩
  intro row hrow
  simp at hrow
  rcases hrow with rfl | rfl
  · exact ⟨rfl, by intro f hf; simp at hf; rcases hf with rfl | rfl | rfl <;> norm_num⟩
  · exact ⟨rfl, by intro f hf; simp at hf; rcases hf with rfl | rfl | rfl <;> norm_num⟩

/-- Two sightlines of five pixels, in sections of half the box. -/
example : ∃ out, renormalize_flux 1000 100 10 5 [[1, 0.5, 0.25, 1, 1], [0.1, 0.2, 0.3, 0.4, 0.5]] 5 = .ok out ∧ out.length = 4 ∧
    ∀ sec, out[0]? = some sec → some 1 ∈ sec := by
  obtain ⟨out, h, -, -, hl, hs⟩ := renormalise_spec_partial (vmax := 1000) (velfac := 100) (box := 10) (by norm_num) (by norm_num) (by norm_num) (npix := 5)
    (by norm_num) (flux := [[1, 0.5, 0.25, 1, 1], [0.1, 0.2, 0.3, 0.4, 0.5]])
    (by
      intro row hr
      simp only [List.mem_cons, List.not_mem_nil, or_false] at hr
      rcases hr with rfl | rfl
      · exact ⟨rfl, by simp; norm_num⟩
      · exact ⟨rfl, by simp; norm_num⟩) (section_size := 5) (by norm_num) (by norm_num)
  have hf : ⌊(10 : ℝ) / 5⌋₊ = 2 := by norm_num
  rw [hf] at hl hs
  refine ⟨out, h, hl, fun sec hsec => ?_⟩
  obtain ⟨sec', h1, h2⟩ := hs 0 (by norm_num) 0 _ rfl
  have : out[0]? = some sec' := h1
  rw [hsec] at this
  cases this
  exact (section_range h2).2

example := renormalise_whole (box := 10) (by norm_num) (npix := 5) (by norm_num)

end Verif.Props
