import Verif.Lemmas.VoronoiNearest
import Verif.Props.EndToEnd

/-!
C09: moving-mesh cells cut a sightline into segments.
-/

namespace Verif.Props

open Verif Spec PartInt IndexTable Absorption

/-- Number of sample points on a sightline: one every 0.1 length units. -/
noncomputable def sampleCount (box : ℝ) : ℕ := ⌊box / 0.1⌋.toNat
/-- Spacing of the sample points. -/
noncomputable def sampleStep (box : ℝ) : ℝ := box / sampleCount box
/-- Sample point number `j`. -/
noncomputable def samplePoint (box : ℝ) (j : ℕ) : ℝ := (j + 1 / 2) * sampleStep box

/-- Squared periodic distance of a position from the point at coordinate `x` of a sightline. -/
noncomputable def pointDist2 (box : ℝ) (l : Line) (pos : Vec3) (x : ℝ) : ℝ :=
  perDist box (axisCoord pos l.axis - x) ^ 2 + transDist2 box l.axis pos l.cofm

/-- Segments beyond twice the box are ignored by the deposition routines. -/
def Used (box : ℝ) (seg : ℝ × ℝ) : Prop := seg.1 ≤ 2 * box ∧ seg.2 ≤ 2 * box

/-- The segment, half open and taken around the periodic box, contains the point at `x`. -/
def Covers (box : ℝ) (seg : ℝ × ℝ) (x : ℝ) : Prop :=
  Used box seg ∧ ∃ m : ℤ, seg.1 ≤ x + m * box ∧ x + m * box < seg.2

open Classical in
/-- Length of the sightline given to a cell. -/
noncomputable def usedLength (box : ℝ) (seg : ℝ × ℝ) : ℝ := if Used box seg then seg.2 - seg.1 else 0

/-- Cell `k` is at least distance from the point at `x`. -/
def IsNearest (box : ℝ) (l : Line) (cells : List Part) (k : ℕ) (x : ℝ) : Prop :=
  ∃ p, cells[k]? = some p ∧ ∀ q ∈ cells, pointDist2 box l p.pos x ≤ pointDist2 box l q.pos x

theorem sampleCount_pos {box : ℝ} (h : 0.1 ≤ box) : 0 < sampleCount box := by
  unfold sampleCount
  have h1 : (1 : ℝ) ≤ box / 0.1 := by rw [le_div_iff₀ (by norm_num)]; linarith
  have : (1 : ℤ) ≤ ⌊box / 0.1⌋ := by rw [Int.le_floor]; exact_mod_cast h1
  omega

theorem sampleStep_pos {box : ℝ} (h : 0.1 ≤ box) : 0 < sampleStep box := by
  have : (0 : ℝ) < sampleCount box := by exact_mod_cast sampleCount_pos h
  unfold sampleStep
  have : 0 < box := by norm_num at h; linarith
  positivity

theorem box_eq {box : ℝ} (h : 0.1 ≤ box) : box = sampleCount box * sampleStep box := by
  have : (0 : ℝ) < sampleCount box := by exact_mod_cast sampleCount_pos h
  unfold sampleStep; field_simp

/-- The widening of the segments by half a step at each end. -/
noncomputable def widen (reso : ℝ) (c : ℝ × ℝ) : ℝ × ℝ := (c.1 - 0.5 * reso, c.2 + 0.5 * reso)

section
variable {box reso : ℝ} (hr : 0 < reso) {N : ℕ} (hN : 0 < N) (hbox : box = N * reso)
include hr hN hbox

theorem covers_iff {o : ℕ → ℕ} {k : ℕ} {c : ℝ × ℝ} (hc : CellFin box reso o N k c) {x : ℝ} (hx0 : 0 ≤ x)
    (hx1 : x < box) : Covers box (widen reso c) x ↔ o ⌊x / reso⌋₊ = k := by
  set j := ⌊x / reso⌋₊ with hj
  have hN1 : (1 : ℝ) ≤ N := by exact_mod_cast hN
  have hj1 : (j : ℝ) * reso ≤ x := by
    have := Nat.floor_le (div_nonneg hx0 hr.le)
    rw [← hj, le_div_iff₀ hr] at this; exact this
  have hj2 : x < (j + 1) * reso := by
    have := Nat.lt_floor_add_one (x / reso)
    rw [← hj, div_lt_iff₀ hr] at this; exact this
  have hjN : j < N := by
    have : (j : ℝ) * reso < N * reso := by linarith
    have : (j : ℝ) < N := lt_of_mul_lt_mul_right this hr.le
    exact_mod_cast this
  have hcast : ∀ a : ℕ, (a : ℝ) * reso ≤ x ↔ a ≤ j := by
    intro a
    constructor
    · intro h
      have : (a : ℝ) * reso < (j + 1) * reso := by linarith
      have : (a : ℝ) < j + 1 := lt_of_mul_lt_mul_right this hr.le
      have : a < j + 1 := by exact_mod_cast this
      omega
    · intro h
      have : (a : ℝ) ≤ j := by exact_mod_cast h
      nlinarith
  have hcast2 : ∀ b : ℕ, x < ((b : ℝ) + 1) * reso ↔ j ≤ b := by
    intro b
    have := hcast (b + 1)
    push_cast at this
    rw [← not_le, this]; omega
  have hbpos : 0 < box := by rw [hbox]; positivity
  rcases hc with (⟨rfl, hno⟩ | ⟨a, b, hab, hbN, rfl, hown⟩) | ⟨i, b, hbi, hiN, rfl, hown⟩
  · constructor
    · rintro ⟨⟨h1, -⟩, -⟩
      simp only [widen] at h1
      nlinarith
    · intro h; exact absurd h (hno j hjN)
  · rw [hown j hjN]
    have e : widen reso (((a : ℝ) + 0.5) * reso, ((b : ℝ) + 0.5) * reso) =
        ((a : ℝ) * reso, ((b : ℝ) + 1) * reso) := by
      unfold widen; ext <;> simp only <;> ring
    rw [e]
    have hbN' : ((b : ℝ) + 1) * reso ≤ box := by
      rw [hbox]
      have : (b : ℝ) + 1 ≤ N := by exact_mod_cast hbN
      nlinarith
    have haN : (a : ℝ) * reso ≤ ((b : ℝ) + 1) * reso := by
      have : (a : ℝ) ≤ b := by exact_mod_cast hab
      nlinarith
    have ha0 : 0 ≤ (a : ℝ) * reso := by positivity
    constructor
    · rintro ⟨-, m, h1, h2⟩
      simp only at h1 h2
      have hm : m = 0 := by
        have m1 : (m : ℝ) < 1 := by by_contra hc; push Not at hc; nlinarith
        have m2 : (-1 : ℝ) < m := by by_contra hc; push Not at hc; nlinarith
        have : m < 1 := by exact_mod_cast m1
        have : -1 < m := by exact_mod_cast m2
        omega
      subst hm
      norm_num at h1 h2
      exact ⟨(hcast a).1 h1, (hcast2 b).1 h2⟩
    · rintro ⟨h1, h2⟩
      refine ⟨⟨by simp only; linarith, by simp only; linarith⟩, 0, ?_, ?_⟩
      · simp only; norm_num; exact (hcast a).2 h1
      · simp only; norm_num; exact (hcast2 b).2 h2
  · rw [hown j hjN]
    have e : widen reso (((i : ℝ) + 0.5) * reso, ((b : ℝ) + 0.5) * reso + box) =
        ((i : ℝ) * reso, ((b : ℝ) + 1) * reso + box) := by
      unfold widen; ext <;> simp only <;> ring
    rw [e]
    have hiN' : (i : ℝ) * reso ≤ box := by
      rw [hbox]
      have : (i : ℝ) ≤ N := by exact_mod_cast hiN.le
      nlinarith
    have hbi' : ((b : ℝ) + 1) * reso ≤ i * reso := by
      have : (b : ℝ) + 1 ≤ i := by exact_mod_cast hbi
      nlinarith
    have hi0 : 0 ≤ (i : ℝ) * reso := by positivity
    have hb0 : 0 ≤ ((b : ℝ) + 1) * reso := by positivity
    constructor
    · rintro ⟨-, m, h1, h2⟩
      simp only at h1 h2
      have hm : m = 0 ∨ m = 1 := by
        have m1 : (m : ℝ) < 2 := by by_contra hc; push Not at hc; nlinarith
        have m2 : (-1 : ℝ) < m := by by_contra hc; push Not at hc; nlinarith
        have : m < 2 := by exact_mod_cast m1
        have : -1 < m := by exact_mod_cast m2
        omega
      rcases hm with rfl | rfl
      · norm_num at h1
        exact .inr ((hcast i).1 h1)
      · norm_num at h2
        exact .inl ((hcast2 b).1 h2)
    · intro h
      refine ⟨⟨by simp only; linarith, by simp only; linarith⟩, ?_⟩
      rcases h with h | h
      · refine ⟨1, ?_, ?_⟩
        · simp only; norm_num; linarith
        · simp only; norm_num; exact (hcast2 b).2 h
      · refine ⟨0, ?_, ?_⟩
        · simp only; norm_num; exact (hcast i).2 h
        · simp only; norm_num; linarith

theorem usedLength_eq {o : ℕ → ℕ} {k : ℕ} {c : ℝ × ℝ} (hc : CellFin box reso o N k c) :
    usedLength box (widen reso c) = reso * ((Finset.range N).filter (fun j => o j = k)).card ∧
      (widen reso c).1 ≤ (widen reso c).2 := by
  have hN1 : (1 : ℝ) ≤ N := by exact_mod_cast hN
  have hbpos : 0 < box := by rw [hbox]; positivity
  unfold usedLength
  rcases hc with (⟨rfl, hno⟩ | ⟨a, b, hab, hbN, rfl, hown⟩) | ⟨i, b, hbi, hiN, rfl, hown⟩
  · have h1 : ¬ Used box (widen reso (3 * box, 3 * box)) := by
      rintro ⟨h, -⟩; simp only [widen] at h; nlinarith
    have h2 : (Finset.range N).filter (fun j => o j = k) = ∅ := by
      apply Finset.filter_eq_empty_iff.2
      intro j hj; exact hno j (Finset.mem_range.1 hj)
    rw [if_neg h1, h2]
    simp only [widen, Finset.card_empty, Nat.cast_zero, mul_zero, true_and]
    linarith
  · have h1 : Used box (widen reso (((a : ℝ) + 0.5) * reso, ((b : ℝ) + 0.5) * reso)) := by
      have : (b : ℝ) + 1 ≤ N := by exact_mod_cast hbN
      have : (a : ℝ) ≤ b := by exact_mod_cast hab
      constructor <;> simp only [widen] <;> nlinarith
    have h2 : (Finset.range N).filter (fun j => o j = k) = Finset.Ico a (b + 1) := by
      ext j
      rw [Finset.mem_filter, Finset.mem_range, Finset.mem_Ico]
      constructor
      · rintro ⟨h, h'⟩; have := (hown j h).1 h'; omega
      · intro h; exact ⟨by omega, (hown j (by omega)).2 (by omega)⟩
    rw [if_pos h1, h2, Nat.card_Ico, Nat.cast_sub (by omega)]
    simp only [widen]
    push_cast
    have : (a : ℝ) ≤ b := by exact_mod_cast hab
    exact ⟨by ring, by nlinarith⟩
  · have hiN' : (i : ℝ) + 1 ≤ N := by exact_mod_cast hiN
    have hbi' : (b : ℝ) + 1 ≤ i := by exact_mod_cast hbi
    have hb0 : (0 : ℝ) ≤ b := Nat.cast_nonneg b
    have h1 : Used box (widen reso (((i : ℝ) + 0.5) * reso, ((b : ℝ) + 0.5) * reso + box)) := by
      constructor <;> simp only [widen] <;> nlinarith
    have h2 : (Finset.range N).filter (fun j => o j = k) = Finset.range (b + 1) ∪ Finset.Ico i N := by
      ext j
      rw [Finset.mem_filter, Finset.mem_range, Finset.mem_union, Finset.mem_range, Finset.mem_Ico]
      constructor
      · rintro ⟨h, h'⟩; have := (hown j h).1 h'; omega
      · intro h; exact ⟨by omega, (hown j (by omega)).2 (by omega)⟩
    have h3 : Disjoint (Finset.range (b + 1)) (Finset.Ico i N) := by
      rw [Finset.disjoint_left]
      intro j h h'
      rw [Finset.mem_range] at h; rw [Finset.mem_Ico] at h'; omega
    rw [if_pos h1, h2, Finset.card_union_of_disjoint h3, Finset.card_range, Nat.card_Ico, Nat.cast_add,
      Nat.cast_sub (by omega)]
    simp only [widen]
    push_cast
    refine ⟨?_, by nlinarith⟩
    nth_rewrite 1 [hbox]; ring

theorem tile_of_fin {o : ℕ → ℕ} {out : List (ℝ × ℝ)} (hlt : ∀ j < N, o j < out.length)
    (hfin : ∀ k c, out[k]? = some c → CellFin box reso o N k c) :
    (∀ x, 0 ≤ x → x < box → ∃! k : ℕ, ∃ seg, (out.map (widen reso))[k]? = some seg ∧ Covers box seg x) ∧
    ((out.map (widen reso)).map (usedLength box)).sum = box ∧
    ∀ seg ∈ out.map (widen reso), seg.1 ≤ seg.2 := by
  refine ⟨?_, ?_, ?_⟩
  · intro x hx0 hx1
    have hjN : ⌊x / reso⌋₊ < N := by
      rw [Nat.floor_lt (div_nonneg hx0 hr.le), div_lt_iff₀ hr]; linarith
    have hl := hlt _ hjN
    refine ⟨o ⌊x / reso⌋₊, ⟨widen reso out[o ⌊x / reso⌋₊], ?_, ?_⟩, ?_⟩
    · rw [List.getElem?_map, List.getElem?_eq_getElem hl]; rfl
    · exact (covers_iff hr hN hbox (hfin _ _ (List.getElem?_eq_getElem hl)) hx0 hx1).2 rfl
    · rintro k ⟨seg, h1, h2⟩
      rw [List.getElem?_map, Option.map_eq_some_iff] at h1
      obtain ⟨c, hc, rfl⟩ := h1
      exact ((covers_iff hr hN hbox (hfin _ _ hc) hx0 hx1).1 h2).symm
  · rw [List.map_map, ← Fin.sum_univ_getElem]
    have : ∀ k : Fin (List.map (usedLength box ∘ widen reso) out).length,
        (List.map (usedLength box ∘ widen reso) out)[k.1] =
        reso * ((Finset.range N).filter (fun j => o j = k.1)).card := by
      intro k
      have hk : k.1 < out.length := by simpa using k.2
      rw [List.getElem_map]
      exact (usedLength_eq hr hN hbox (hfin _ _ (List.getElem?_eq_getElem hk))).1
    rw [Finset.sum_congr rfl (fun k _ => this k), ← Finset.mul_sum,
      Fin.sum_univ_eq_sum_range (fun k => (((Finset.range N).filter (fun j => o j = k)).card : ℝ)),
      ← Nat.cast_sum, List.length_map, ← Finset.card_eq_sum_card_fiberwise (f := o), Finset.card_range]
    · rw [hbox]; ring
    · intro j hj
      simp only [Finset.coe_range, Set.mem_Iio] at hj ⊢
      exact hlt j hj
  · intro seg hseg
    obtain ⟨c, hc, rfl⟩ := List.mem_map.1 hseg
    obtain ⟨k, hk⟩ := List.mem_iff_getElem?.1 hc
    exact (usedLength_eq hr hN hbox (hfin k c hk)).2

end

theorem mapM_ok_length {α β : Type} (f : α → CRes β) (xs : List α) (ys : List β)
    (h : xs.mapM f = .ok ys) : ys.length = xs.length := by
  induction xs generalizing ys with
  | nil => have : [] = ys := Except.ok.inj h; subst this; rfl
  | cons x xs ih =>
    rw [List.mapM_cons] at h
    cases hf : f x with
    | error e => rw [hf] at h; cases h
    | ok y =>
      rw [hf, ok_bind] at h
      cases hm : xs.mapM f with
      | error e => rw [hm] at h; cases h
      | ok zs =>
        rw [hm, ok_bind] at h
        have : y :: zs = ys := Except.ok.inj h
        subst this
        simp [ih zs hm]

theorem samplePoint_mem {box : ℝ} (hbox : 0.1 ≤ box) {j : ℕ} (hj : j < sampleCount box) :
    0 ≤ samplePoint box j ∧ samplePoint box j < box ∧ ⌊samplePoint box j / sampleStep box⌋₊ = j := by
  have hr := sampleStep_pos hbox
  have hbe := box_eq hbox
  refine ⟨by unfold samplePoint; positivity, ?_, ?_⟩
  · nth_rewrite 2 [hbe]
    unfold samplePoint
    have : (j : ℝ) + 1 ≤ sampleCount box := by exact_mod_cast hj
    apply mul_lt_mul_of_pos_right _ hr
    linarith
  · unfold samplePoint
    rw [mul_div_assoc, div_self hr.ne', mul_one, Nat.floor_eq_iff (by positivity)]
    constructor <;> linarith

open Classical in
/-- C09, tiling: whenever the assignment of cells ends normally, every point of the sightline is in
the segment of exactly one cell, the lengths add up to the box size, and the length of a segment is
the spacing of the sample points times the number of them in it. This needs no assumption on the
positions of the cells. -/
theorem segments_tile {box : ℝ} (hbox : 0.1 ≤ box) {line : Line} {parts : List Part} {nearby : StdMap ℝ}
    {segs : List (ℝ × ℝ)} (h : assign_cells box line parts nearby = .ok segs) :
    segs.length = nearby.length ∧
    (∀ x, 0 ≤ x → x < box → ∃! k : ℕ, ∃ seg, segs[k]? = some seg ∧ Covers box seg x) ∧
    (segs.map (usedLength box)).sum = box ∧ (∀ seg ∈ segs, seg.1 ≤ seg.2) ∧
    ∀ seg ∈ segs, usedLength box seg = sampleStep box *
      ((Finset.range (sampleCount box)).filter (fun j => Covers box seg (samplePoint box j))).card := by
  unfold assign_cells at h
  cases h1 : nearby.mapM (fun it => readAt parts it.1) with
  | error e => rw [h1] at h; cases h
  | ok cells =>
    rw [h1, ok_bind] at h
    cases h2 : cells.mapM (fun p => coord p.pos line.axis) with
    | error e => rw [h2] at h; cases h
    | ok posx =>
      rw [h2, ok_bind] at h
      simp only at h
      have hst : box / ((⌊box / RESO⌋.toNat : ℕ) : ℝ) = sampleStep box := rfl
      have hct : ⌊box / RESO⌋.toNat = sampleCount box := rfl
      rw [hst, hct] at h
      generalize hsel : (fun xp => nearestCell box
        ((cells.zip posx).map (fun c => cellDist box line c.1.pos c.2 xp))) = sel at h
      cases h3 : assignLoop box (sampleStep box) sel (sampleCount box) 0
          (List.replicate cells.length (3 * box, 3 * box)) with
      | error e => rw [h3] at h; cases h
      | ok arr =>
        rw [h3, ok_bind] at h
        have hs : arr.map (widen (sampleStep box)) = segs := Except.ok.inj h
        obtain ⟨i0, -, o, hlen, -, -, hlt, -, hfin⟩ := assignLoop_ok (sampleStep_pos hbox) (box_eq hbox)
          sel (o := fun j => sel ((j + 0.5) * sampleStep box)) (fun _ => rfl) (sampleCount box) 0 (by omega)
          (by
            intro k c hk
            left
            rw [List.getElem?_replicate] at hk
            split at hk
            · exact ⟨(Option.some.inj hk).symm, fun j hj => by omega⟩
            · cases hk) (fun j hj => by omega) h3
        rw [← hs]
        obtain ⟨t1, t2, t3⟩ := tile_of_fin (sampleStep_pos hbox) (sampleCount_pos hbox) (box_eq hbox) hlt hfin
        refine ⟨?_, t1, t2, t3, ?_⟩
        · rw [List.length_map, hlen, List.length_replicate]
          exact mapM_ok_length _ _ _ h1
        · intro seg hseg
          obtain ⟨c, hc, rfl⟩ := List.mem_map.1 hseg
          obtain ⟨k, hk⟩ := List.mem_iff_getElem?.1 hc
          rw [(usedLength_eq (sampleStep_pos hbox) (sampleCount_pos hbox) (box_eq hbox) (hfin k c hk)).1]
          congr 3
          apply Finset.filter_congr
          intro j hj
          obtain ⟨s1, s2, s3⟩ := samplePoint_mem hbox (Finset.mem_range.1 hj)
          rw [covers_iff (sampleStep_pos hbox) (sampleCount_pos hbox) (box_eq hbox) (hfin k c hk) s1 s2, s3]

theorem mapM_readAt {α β : Type} {parts : List β} {nearby : List (ℕ × α)} {cells : List β}
    (h : nearby.map (fun e => parts[e.1]?) = cells.map some) :
    nearby.mapM (fun it => readAt parts it.1) = .ok cells := by
  induction nearby generalizing cells with
  | nil =>
    cases cells with
    | nil => rfl
    | cons c cs => simp at h
  | cons e es ih =>
    cases cells with
    | nil => simp at h
    | cons c cs =>
      simp only [List.map_cons, List.cons.injEq] at h
      rw [List.mapM_cons, readAt_eq h.1, ok_bind, ih h.2, ok_bind]; rfl

theorem mapM_coord {axis : ℤ} (hax : axis = 1 ∨ axis = 2 ∨ axis = 3) (cells : List Part) :
    cells.mapM (fun p => coord p.pos axis) = .ok (cells.map (fun p => along p.pos axis)) := by
  induction cells with
  | nil => rfl
  | cons c cs ih => rw [List.mapM_cons, coord_eq hax, ok_bind, ih, ok_bind]; rfl

theorem zip_map_self {α β : Type} (f : α → β) (xs : List α) :
    xs.zip (xs.map f) = xs.map (fun x => (x, f x)) := by
  induction xs with
  | nil => rfl
  | cons x xs ih => simp [ih]

open Classical in
/-- C09, nearest cell (partial): if the cell nearest to the first sample point is nearest to no more
than half of the sample points of the sightline, the assignment ends normally and every sample point
lies in the segment of a cell at least distance from it. What is missing: without the condition the
program can stop or give a sample point to another cell, see `assignment_stops` and
`assignment_swallows`. -/
theorem segments_nearest_partial {box : ℝ} (hbox : 0.1 ≤ box) {line : Line} (hl : GoodLine box line)
    {parts cells : List Part} {nearby : StdMap ℝ} (hne : nearby ≠ [])
    (hcells : nearby.map (fun e => parts[e.1]?) = cells.map some)
    (hin : ∀ p ∈ cells, InBox box p.pos)
    (hhalf : ∀ k, IsNearest box line cells k (samplePoint box 0) →
      2 * ((Finset.range (sampleCount box)).filter
        (fun j => IsNearest box line cells k (samplePoint box j))).card ≤ sampleCount box) :
    ∃ segs, assign_cells box line parts nearby = .ok segs ∧ segs.length = cells.length ∧
      ∀ j < sampleCount box, ∀ k seg, segs[k]? = some seg → Covers box seg (samplePoint box j) →
        IsNearest box line cells k (samplePoint box j) := by
  have hbpos : 0 < box := by norm_num at hbox; linarith
  have hr := sampleStep_pos hbox
  have hN := sampleCount_pos hbox
  have hbe := box_eq hbox
  have hcne : cells ≠ [] := by
    intro h; rw [h] at hcells; simp at hcells; exact hne hcells
  -- the chosen cell
  let ds := fun x : ℝ => cells.map (fun p => cellDist box line p.pos (along p.pos line.axis) x)
  let o := fun j : ℕ => nearestCell box (ds ((j + 0.5) * sampleStep box))
  have hsx : ∀ j : ℕ, ((j : ℝ) + 0.5) * sampleStep box = samplePoint box j := by
    intro j; unfold samplePoint; norm_num
  have hx0 : ∀ j, 0 ≤ samplePoint box j := by intro j; unfold samplePoint; positivity
  have hx1 : ∀ j < sampleCount box, samplePoint box j < box := by
    intro j hj
    have : (j : ℝ) + 1 ≤ sampleCount box := by exact_mod_cast hj
    unfold samplePoint
    nlinarith
  let P := fun k : ℕ => ((cells[k]?).elim 0 (fun p => along p.pos line.axis))
  let C := fun k : ℕ => ((cells[k]?).elim 0 (fun p => transDist2 box line.axis p.pos line.cofm))
  have hTn : ∀ p ∈ cells, 0 ≤ transDist2 box line.axis p.pos line.cofm := by
    intro p _
    unfold transDist2
    apply Finset.sum_nonneg
    intro i _
    split
    · exact le_rfl
    · positivity
  have hpd : ∀ k p, cells[k]? = some p → ∀ x, pointDist2 box line p.pos x =
      perDist box (P k - x) ^ 2 + C k := by
    intro k p hk x
    simp only [P, C, hk, Option.elim_some]; rfl
  have howns : ∀ j < sampleCount box, Owns cells.length box P C (o j) (samplePoint box j) := by
    intro j hj
    obtain ⟨m, hm1, hm2, hm3⟩ := nearestCell_spec (box := box) (ds := ds (samplePoint box j))
      (by simpa [ds] using hcne) (by
        intro d hd
        obtain ⟨p, hp, rfl⟩ := List.mem_map.1 hd
        exact cellDist_lt hbpos hl.1 hl.2 (hin p hp) (hx0 j) (hx1 j hj).le)
    have hoj : o j = nearestCell box (ds (samplePoint box j)) := by simp only [o, hsx]
    rw [← hoj] at hm1 hm3
    simp only [ds] at hm1
    rw [List.getElem?_map, Option.map_eq_some_iff] at hm1
    obtain ⟨p, hp, rfl⟩ := hm1
    have hpm := List.mem_of_getElem? hp
    have hd : ∀ q ∈ cells, cellDist box line q.pos (along q.pos line.axis) (samplePoint box j) =
        √(pointDist2 box line q.pos (samplePoint box j)) := fun q hq =>
      cellDist_eq hbpos hl.1 hl.2 (hin q hq) (hx0 j) (hx1 j hj).le
    have hnn : ∀ q ∈ cells, 0 ≤ pointDist2 box line q.pos (samplePoint box j) := by
      intro q hq
      have := hTn q hq
      unfold pointDist2; positivity
    refine ⟨?_, fun q hq => ?_⟩
    · by_contra hc; rw [List.getElem?_eq_none (by omega)] at hp; cases hp
    · obtain ⟨r, hr⟩ : ∃ r, cells[q]? = some r := ⟨cells[q], List.getElem?_eq_getElem hq⟩
      have hrm := List.mem_of_getElem? hr
      rw [← hpd _ _ hp, ← hpd _ _ hr]
      constructor
      · have := hm2 _ (List.mem_map.2 ⟨r, hrm, rfl⟩)
        rw [hd p hpm, hd r hrm, Real.sqrt_le_sqrt_iff (hnn r hrm)] at this
        exact this
      · intro hlt
        have := hm3 q _ hlt (by simp only [ds]; rw [List.getElem?_map, hr]; rfl)
        dsimp only at this
        rw [hd p hpm, hd r hrm, Real.sqrt_lt_sqrt_iff (hnn p hpm)] at this
        exact this
  have hnear : ∀ j < sampleCount box, IsNearest box line cells (o j) (samplePoint box j) := by
    intro j hj
    have h := howns j hj
    obtain ⟨p, hp⟩ : ∃ p, cells[o j]? = some p := ⟨cells[o j]'h.1, List.getElem?_eq_getElem _⟩
    refine ⟨p, hp, fun q hq => ?_⟩
    obtain ⟨k, hk⟩ := List.mem_iff_getElem?.1 hq
    have hkl : k < cells.length := by
      by_contra hc; rw [List.getElem?_eq_none (by omega)] at hk; cases hk
    rw [hpd _ _ hp, hpd _ _ hk]
    exact (h.2 k hkl).1
  have harc : IsArc (sampleCount box) o := by
    refine owns_arc (x := fun j : ℕ => samplePoint box j) hbpos P C ?_ ?_ howns
    · intro i j hij
      have : (i : ℝ) < j := by exact_mod_cast hij
      simp only [samplePoint]
      nlinarith
    · intro i j hi hj
      have := hx0 i; have := hx1 j hj
      linarith
  have hh : 2 * ((Finset.range (sampleCount box)).filter (fun j => o j = o 0)).card ≤ sampleCount box := by
    refine le_trans ?_ (hhalf (o 0) (hnear 0 hN))
    apply Nat.mul_le_mul_left
    apply Finset.card_le_card
    intro j hj
    rw [Finset.mem_filter, Finset.mem_range] at hj ⊢
    exact ⟨hj.1, hj.2 ▸ hnear j hj.1⟩
  obtain ⟨out, h1, h2, h3⟩ := assignLoop_arcs hr hbe (fun x => nearestCell box (ds x)) (o := o)
    (fun _ => rfl) harc hh (sampleCount box) 0 (by omega)
    (arr := List.replicate cells.length (3 * box, 3 * box))
    (fun j hj => by rw [List.length_replicate]; exact (howns j hj).1) (by
      intro k c hk
      left
      rw [List.getElem?_replicate] at hk
      split at hk
      · exact ⟨(Option.some.inj hk).symm, fun j hj => by omega⟩
      · cases hk)
  refine ⟨out.map (widen (sampleStep box)), ?_, by simpa using h2, ?_⟩
  · unfold assign_cells
    rw [mapM_readAt hcells, ok_bind, mapM_coord hl.1, ok_bind]
    simp only
    rw [zip_map_self]
    have e : (fun xp => nearestCell box ((cells.map (fun p => (p, along p.pos line.axis))).map
        (fun c => cellDist box line c.1.pos c.2 xp))) = fun x => nearestCell box (ds x) := by
      funext x; rw [List.map_map]; rfl
    rw [e]
    have hst : box / ((⌊box / RESO⌋.toNat : ℕ) : ℝ) = sampleStep box := rfl
    have hct : ⌊box / RESO⌋.toNat = sampleCount box := rfl
    rw [hst, hct, h1, ok_bind]
    rfl
  · intro j hj k seg hk hcov
    rw [List.getElem?_map, Option.map_eq_some_iff] at hk
    obtain ⟨c, hc, rfl⟩ := hk
    have := (covers_iff hr hN hbe (h3 k c hc) (hx0 j) (hx1 j hj)).1 hcov
    have hfl : ⌊samplePoint box j / sampleStep box⌋₊ = j := by
      unfold samplePoint
      rw [mul_div_assoc, div_self hr.ne', mul_one, Nat.floor_eq_iff (by positivity)]
      constructor <;> linarith
    rw [hfl] at this
    rw [← this]
    exact hnear j hj

/-! ### Column density of a sightline through a mesh -/

theorem foldlM_pre {α : Type} (step : List ℝ → α → CRes (List ℝ)) (pre : α → CRes (ℕ → ℝ)) (n : ℕ)
    (xs : List α) (h : ∀ x ∈ xs, ∀ a : List ℝ, a.length = n →
      step a x = (pre x).map (fun g => arrAdd a g)) (a r : List ℝ) (ha : a.length = n)
    (hr : xs.foldlM step a = .ok r) :
    ∃ G : α → ℕ → ℝ, (∀ x ∈ xs, pre x = .ok (G x)) ∧
      r = arrAdd a (fun m => (xs.map (fun x => G x m)).sum) := by
  let G : α → ℕ → ℝ := fun x => match pre x with | .ok g => g | .error _ => fun _ => 0
  refine ⟨G, ?_⟩
  induction xs generalizing a with
  | nil =>
    have : a = r := Except.ok.inj hr
    subst this
    simp [arrAdd_zero]
  | cons x xs ih =>
    rw [List.foldlM_cons, h x (by simp) a ha] at hr
    cases hp : pre x with
    | error e => rw [hp] at hr; cases hr
    | ok g =>
      have hG : G x = g := by simp only [G, hp]
      rw [hp] at hr
      change xs.foldlM step (arrAdd a g) = .ok r at hr
      obtain ⟨h1, h2⟩ := ih (fun y hy => h y (by simp [hy])) _ (by simpa) hr
      refine ⟨?_, ?_⟩
      · intro y hy
        rcases List.mem_cons.1 hy with rfl | hy
        · rw [hG]; exact hp
        · exact h1 y hy
      · rw [h2, arrAdd_arrAdd]
        simp only [List.map_cons, List.sum_cons, hG]

/-- Contribution of the near cells of line `i` with their segments. -/
noncomputable def meshF (L : LineAbsorption) (nbins : ℕ) (parts : List Part) (i : ℕ) (line : Line)
    (es : List ((ℕ × ℝ) × (ℝ × ℝ))) (m : ℕ) : ℝ :=
  (es.map (fun e => (parts[e.1.1]?).elim 0 (fun p => coldenF L (i * nbins) nbins e.2.1 p.dens
    (along p.pos line.axis) e.2.2 m))).sum

theorem coldenF_slice_sum (L : LineAbsorption) (hL : GoodAbs L) (hk : L.kernel = VORONOI_MESH)
    {box : ℝ} (hLb : L.vbox / L.velfac = box) {nbins : ℕ} (hn : 0 < nbins) (off : ℕ) (dens pos : ℝ)
    {seg : ℝ × ℝ} (hseg : seg.1 ≤ seg.2) :
    ∑ j ∈ Finset.range nbins, coldenF L off nbins seg.1 dens pos seg.2 (off + j) =
      dens * usedLength box seg := by
  have h0 : ∀ j, coldenF L off nbins seg.1 dens pos seg.2 (off + j) =
      coldenF L 0 nbins seg.1 dens pos seg.2 j := fun j => coldenF_offset L off nbins _ _ _ _ j
  rw [Finset.sum_congr rfl (fun j _ => h0 j)]
  unfold usedLength
  split
  · rename_i hu
    obtain ⟨out, h1, h2, -⟩ := colden_conserved_voronoi L hL hk (off := 0) hn
      (a := List.replicate nbins 0) (by simp) dens pos hseg (by rw [hLb]; exact hu.2)
    rw [add_colden_eq L hn (by simp)] at h1
    have := Except.ok.inj h1
    rw [← this, arrAdd_sum] at h2
    simp at h2
    exact h2
  · rename_i hu
    have : L.kernel = VORONOI_MESH ∧ (seg.1 > 2 * L.vbox / L.velfac ∨ seg.2 > 2 * L.vbox / L.velfac) := by
      refine ⟨hk, ?_⟩
      unfold Used at hu
      rw [mul_div_assoc, hLb]
      rw [not_and_or, not_le, not_le] at hu
      exact hu
    unfold coldenF
    rw [mul_zero]
    apply Finset.sum_eq_zero
    intro j _
    rw [if_pos this]

theorem zip_sum_right {α β : Type} (as : List α) (bs : List β) (h : as.length = bs.length) (f : β → ℝ) :
    ((as.zip bs).map (fun e => f e.2)).sum = (bs.map f).sum := by
  induction as generalizing bs with
  | nil => cases bs with
    | nil => rfl
    | cons b bs => simp at h
  | cons a as ih => cases bs with
    | nil => simp at h
    | cons b bs => simp only [List.zip_cons_cons, List.map_cons, List.sum_cons, ih bs (by simpa using h)]

theorem list_sum_finset_comm {α : Type} (s : Finset ℕ) (xs : List α) (f : ℕ → α → ℝ) :
    ∑ j ∈ s, (xs.map (f j)).sum = (xs.map (fun x => ∑ j ∈ s, f j x)).sum := by
  induction xs with
  | nil => simp
  | cons x xs ih => simp only [List.map_cons, List.sum_cons, Finset.sum_add_distrib, ih]

/-- The segments of line `j` as a deposit. -/
noncomputable def meshPre (L : LineAbsorption) (nbins : ℕ) (box : ℝ) (lines : List Line)
    (parts : List Part) (j : ℕ) : CRes (ℕ → ℝ) := match lines[j]? with
  | none => .error .outOfBounds
  | some line => (assign_cells box line parts (nearList (build lines box) (posH parts) j)).map
      (fun segs => meshF L nbins parts j line ((nearList (build lines box) (posH parts) j).zip segs))

theorem near_particles_nearList (lines : List Line) (box : ℝ) (parts : List Part) :
    get_near_particles (build lines box) (posH parts) =
      (List.range lines.length).map (nearList (build lines box) (posH parts)) := by
  unfold get_near_particles
  rw [get_near_particles_sched_eq _ _ _ (List.Perm.refl _), build_lines]

theorem nearList_mem {t : Table} {parts : List Part} {i : ℕ} {e : ℕ × ℝ}
    (he : e ∈ nearList t (posH parts) i) : ∃ p, parts[e.1]? = some p ∧
      (StdMap.find? (get_near_lines t p.pos p.h) i).isSome := by
  unfold nearList at he
  obtain ⟨j, hj, he⟩ := List.mem_filterMap.1 he
  simp only [Option.bind_eq_some_iff, Option.map_eq_some_iff] at he
  obtain ⟨q, hq, d, hd, rfl⟩ := he
  unfold posH at hq
  rw [List.getElem?_map, Option.map_eq_some_iff] at hq
  obtain ⟨p, hp, rfl⟩ := hq
  exact ⟨p, hp, by simp only at hd; rw [hd]; rfl⟩

theorem mesh_step (L : LineAbsorption) (hk : L.kernel = VORONOI_MESH) {nbins : ℕ}
    (hn : 0 < nbins) {box : ℝ} {lines : List Line}
    (hax : ∀ l ∈ lines, l.axis = 1 ∨ l.axis = 2 ∨ l.axis = 3) {parts : List Part}
    {j : ℕ} (hj : j < lines.length) {a : List ℝ} (ha : a.length = lines.length * nbins) :
    (do
      let nearby ← readAt ((List.range lines.length).map (nearList (build lines box) (posH parts))) (j : ℤ)
      let line ← readAt lines (j : ℤ)
      let entries ← lineEntries L.kernel box line parts nearby
      coldenLine L nbins parts j line entries a) =
    (meshPre L nbins box lines parts j).map (fun g => arrAdd a g) := by
  obtain ⟨line, hline⟩ : ∃ line, lines[j]? = some line := ⟨lines[j], List.getElem?_eq_getElem hj⟩
  have h1 : readAt ((List.range lines.length).map (nearList (build lines box) (posH parts))) (j : ℤ) =
      .ok (nearList (build lines box) (posH parts) j) := by
    apply readAt_eq
    rw [List.getElem?_map, List.getElem?_range hj]; rfl
  rw [h1, ok_bind, readAt_eq hline, ok_bind]
  simp only [meshPre, hline]
  unfold lineEntries
  rw [if_pos hk]
  cases hs : assign_cells box line parts (nearList (build lines box) (posH parts) j) with
  | error e => rfl
  | ok segs =>
    rw [ok_bind, ok_bind]
    change coldenLine L nbins parts j line _ a = .ok (arrAdd a _)
    unfold coldenLine
    rw [foldlM_arrAdd _ (fun e m => (parts[e.1.1]?).elim 0 (fun p => coldenF L (j * nbins) nbins e.2.1
      p.dens (along p.pos line.axis) e.2.2 m)) (lines.length * nbins)]
    · rfl
    · intro e he b hb
      obtain ⟨p, hp, -⟩ := nearList_mem (List.of_mem_zip he).1
      rw [readAt_eq hp, ok_bind, coord_eq (hax line (List.mem_of_getElem? hline)), ok_bind, if_pos hk, hp]
      exact add_colden_eq L hn (by rw [hb]; exact slice_le hj) _ _ _ _
    · exact ha

/-- C09, column density of a sightline in terms of the segments of its near cells. -/
theorem mesh_column_segments (L : LineAbsorption) (hL : GoodAbs L) (hk : L.kernel = VORONOI_MESH) {nbins : ℕ}
    (hn : 0 < nbins) {box : ℝ} (hbox : 0.1 ≤ box) (hLb : L.vbox / L.velfac = box) {lines : List Line}
    (hax : ∀ l ∈ lines, l.axis = 1 ∨ l.axis = 2 ∨ l.axis = 3) {parts : List Part} {r : List ℝ}
    (h : compute_colden L nbins box lines parts (List.replicate (lines.length * nbins) 0) = .ok r)
    {i : ℕ} {l : Line} (hi : lines[i]? = some l) :
    ∃ near segs, (get_near_particles (build lines box) (posH parts))[i]? = some near ∧
      assign_cells box l parts near = .ok segs ∧
      (lineSpectrum r nbins i).sum = ((near.zip segs).map (fun e =>
        (parts[e.1.1]?).elim 0 Part.dens * usedLength box e.2)).sum := by
  have hil : i < lines.length := by
    by_contra hc; rw [List.getElem?_eq_none (by omega)] at hi; cases hi
  unfold compute_colden overLines at h
  simp only at h
  rw [near_particles_nearList, List.length_map, List.length_range] at h
  obtain ⟨G, hG, hr⟩ := foldlM_pre _ (meshPre L nbins box lines parts) (lines.length * nbins) _ (by
    intro j hj a ha
    rw [List.mem_range] at hj
    exact mesh_step L hk hn hax hj ha) _ _ (by simp) h
  have hpre : ∀ j (line : Line), lines[j]? = some line → ∃ segs,
      assign_cells box line parts (nearList (build lines box) (posH parts) j) = .ok segs ∧
      G j = meshF L nbins parts j line ((nearList (build lines box) (posH parts) j).zip segs) := by
    intro j line hline
    have hjl : j < lines.length := by
      by_contra hc; rw [List.getElem?_eq_none (by omega)] at hline; cases hline
    have := hG j (by simpa using hjl)
    simp only [meshPre, hline] at this
    cases hs : assign_cells box line parts (nearList (build lines box) (posH parts) j) with
    | error e => rw [hs] at this; cases this
    | ok segs =>
      rw [hs] at this
      exact ⟨segs, rfl, (Except.ok.inj this).symm⟩
  obtain ⟨segs, hsegs, hGi⟩ := hpre i l hi
  obtain ⟨hlen, -, hsum, hle, -⟩ := segments_tile hbox hsegs
  have hsum_slice : (lineSpectrum r nbins i).sum = ∑ j ∈ Finset.range nbins, G i (i * nbins + j) := by
    rw [hr, lineSpectrum_arrAdd hil, arrAdd_sum]
    simp only [List.sum_replicate, smul_zero, zero_add, List.length_replicate]
    apply Finset.sum_congr rfl
    intro j hj
    rw [Finset.mem_range] at hj
    apply list_sum_single hil
    intro k hkl hne
    obtain ⟨segs', -, hGk⟩ := hpre k lines[k] (List.getElem?_eq_getElem hkl)
    rw [hGk]
    unfold meshF
    apply List.sum_eq_zero
    intro x hx
    obtain ⟨e, -, rfl⟩ := List.mem_map.1 hx
    cases parts[e.1.1]? with
    | none => rfl
    | some p =>
      apply coldenF_outside L hn
      rcases lt_or_gt_of_ne hne with h | h
      · right
        have : (k + 1) * nbins ≤ i * nbins := Nat.mul_le_mul_right _ h
        rw [add_mul, one_mul] at this
        omega
      · left
        have : (i + 1) * nbins ≤ k * nbins := Nat.mul_le_mul_right _ h
        rw [add_mul, one_mul] at this
        omega
  refine ⟨nearList (build lines box) (posH parts) i, segs, ?_, hsegs, ?_⟩
  · rw [near_particles_nearList, List.getElem?_map, List.getElem?_range hil]; rfl
  rw [hsum_slice, hGi]
  unfold meshF
  rw [list_sum_finset_comm]
  congr 1
  apply List.map_congr_left
  intro e he
  obtain ⟨p, hp, -⟩ := nearList_mem (List.of_mem_zip he).1
  simp only [hp, Option.elim_some]
  exact coldenF_slice_sum L hL hk hLb hn _ _ _ (hle _ (List.of_mem_zip he).2)

/-- C09, column density: the pixels of a sightline through a moving mesh add up to the density of
the cells weighted by lengths that are not negative, are non-zero only for cells found near the
sightline, and add up to the box size. -/
theorem mesh_column (L : LineAbsorption) (hL : GoodAbs L) (hk : L.kernel = VORONOI_MESH) {nbins : ℕ}
    (hn : 0 < nbins) {box : ℝ} (hbox : 0.1 ≤ box) (hLb : L.vbox / L.velfac = box) {lines : List Line}
    (hax : ∀ l ∈ lines, l.axis = 1 ∨ l.axis = 2 ∨ l.axis = 3) {parts : List Part} {r : List ℝ}
    (h : compute_colden L nbins box lines parts (List.replicate (lines.length * nbins) 0) = .ok r)
    {i : ℕ} {l : Line} (hi : lines[i]? = some l) :
    ∃ w : ℕ → ℝ, (∀ k, 0 ≤ w k) ∧
      (∀ k, w k ≠ 0 → ∃ p, parts[k]? = some p ∧
        (StdMap.find? (get_near_lines (build lines box) p.pos p.h) i).isSome) ∧
      (∑ k : Fin parts.length, w k) = box ∧
      (lineSpectrum r nbins i).sum = ∑ k : Fin parts.length, parts[k].dens * w k := by
  have hil : i < lines.length := by
    by_contra hc; rw [List.getElem?_eq_none (by omega)] at hi; cases hi
  obtain ⟨near, segs, hnear, hsegs, hcol⟩ := mesh_column_segments L hL hk hn hbox hLb hax h hi
  rw [near_particles_nearList, List.getElem?_map, List.getElem?_range hil] at hnear
  have hnear : nearList (build lines box) (posH parts) i = near := Option.some.inj hnear
  obtain ⟨hlen, -, hsum, hle, -⟩ := segments_tile hbox hsegs
  have hmem : ∀ e ∈ near, ∃ p, parts[e.1]? = some p ∧
      (StdMap.find? (get_near_lines (build lines box) p.pos p.h) i).isSome := by
    intro e he; rw [← hnear] at he; exact nearList_mem he
  let w : ℕ → ℝ := fun k => ((near.zip segs).map (fun e => if e.1.1 = k then usedLength box e.2 else 0)).sum
  have hul : ∀ e ∈ near.zip segs, 0 ≤ usedLength box e.2 := by
    intro e he
    have := hle _ (List.of_mem_zip he).2
    unfold usedLength
    split
    · linarith
    · exact le_rfl
  have hfib : ∀ (g : ℕ → ℝ), ∀ e ∈ near.zip segs,
      ∑ k : Fin parts.length, g k * (if e.1.1 = (k : ℕ) then usedLength box e.2 else 0) =
        g e.1.1 * usedLength box e.2 := by
    intro g e he
    obtain ⟨p, hp, -⟩ := hmem e.1 (List.of_mem_zip he).1
    have hlt : e.1.1 < parts.length := by
      by_contra hc; rw [List.getElem?_eq_none (by omega)] at hp; cases hp
    rw [Finset.sum_eq_single ⟨e.1.1, hlt⟩]
    · simp
    · intro k _ hne
      rw [if_neg (fun h => hne (Fin.ext h.symm)), mul_zero]
    · simp
  have hsumw : ∀ g : ℕ → ℝ, ∑ k : Fin parts.length, g k * w k =
      ((near.zip segs).map (fun e => g e.1.1 * usedLength box e.2)).sum := by
    intro g
    rw [← List.map_congr_left (hfib g)]
    simp only [w]
    rw [Fin.sum_univ_eq_sum_range (fun k => g k * ((near.zip segs).map
      (fun e => if e.1.1 = k then usedLength box e.2 else 0)).sum) parts.length]
    simp only [← List.sum_map_mul_left]
    rw [list_sum_finset_comm]
    congr 1
    apply List.map_congr_left
    intro e _
    rw [Fin.sum_univ_eq_sum_range (fun k => g k * (if e.1.1 = k then usedLength box e.2 else 0))
      parts.length]
  refine ⟨w, ?_, ?_, ?_, ?_⟩
  · intro k
    apply List.sum_nonneg
    intro x hx
    obtain ⟨e, he, rfl⟩ := List.mem_map.1 hx
    split
    · exact hul e he
    · exact le_rfl
  · intro k hk0
    by_contra hc
    apply hk0
    apply List.sum_eq_zero
    intro x hx
    obtain ⟨e, he, rfl⟩ := List.mem_map.1 hx
    rw [if_neg]
    rintro rfl
    exact hc (hmem e.1 (List.of_mem_zip he).1)
  · have := hsumw (fun _ => 1)
    simp only [one_mul] at this
    rw [this, zip_sum_right near segs (by omega) (usedLength box), hsum]
  · have := hsumw (fun k => (parts[k]?).elim 0 Part.dens)
    have e : ∀ k : Fin parts.length, (parts[(k : ℕ)]?).elim 0 Part.dens = parts[k].dens := by
      intro k; rw [List.getElem?_eq_getElem k.2]; rfl
    rw [Finset.sum_congr rfl (fun k _ => by rw [e k])] at this
    rw [this, hcol]

theorem foldlM_pre_ok {α : Type} (step : List ℝ → α → CRes (List ℝ)) (pre : α → CRes (ℕ → ℝ)) (n : ℕ)
    (xs : List α) (h : ∀ x ∈ xs, ∀ a : List ℝ, a.length = n →
      step a x = (pre x).map (fun g => arrAdd a g)) (hp : ∀ x ∈ xs, ∃ g, pre x = .ok g)
    (a : List ℝ) (ha : a.length = n) : ∃ r, xs.foldlM step a = .ok r := by
  induction xs generalizing a with
  | nil => exact ⟨a, rfl⟩
  | cons x xs ih =>
    obtain ⟨g, hg⟩ := hp x (by simp)
    rw [List.foldlM_cons, h x (by simp) a ha, hg]
    exact ih (fun y hy => h y (by simp [hy])) (fun y hy => hp y (by simp [hy])) (arrAdd a g) (by simpa)

theorem nearList_cells (t : Table) (parts : List Part) (i : ℕ) :
    (nearList t (posH parts) i).map (fun e => parts[e.1]?) =
      (parts.filter (fun p => (StdMap.find? (get_near_lines t p.pos p.h) i).isSome)).map some := by
  unfold nearList
  have hl : (posH parts).length = parts.length := by simp [posH]
  rw [hl]
  have key : ∀ n ≤ parts.length, ((List.range n).filterMap (fun j => ((posH parts)[j]?).bind fun p =>
      (StdMap.find? (get_near_lines t p.1 p.2) i).map fun d => (j, d))).map (fun e => parts[e.1]?) =
      ((parts.take n).filter (fun p => (StdMap.find? (get_near_lines t p.pos p.h) i).isSome)).map some := by
    intro n hn
    induction n with
    | zero => rfl
    | succ n ih =>
      have hp : parts[n]? = some parts[n] := List.getElem?_eq_getElem (by omega)
      have hq : (posH parts)[n]? = some (parts[n].pos, parts[n].h) := by
        unfold posH; rw [List.getElem?_map, hp]; rfl
      rw [List.range_succ, List.filterMap_append, List.map_append, ih (by omega),
        List.take_succ, hp, List.filter_append, List.map_append]
      congr 1
      simp only [List.filterMap_cons, hq, Option.bind_some, List.filterMap_nil, Option.toList_some]
      cases hf : StdMap.find? (get_near_lines t parts[n].pos parts[n].h) i with
      | none => simp [hf]
      | some d => simp [hf]
  have := key parts.length le_rfl
  rw [List.take_length] at this
  exact this

open Classical in
/-- The cells within their search radius of a sightline. -/
noncomputable def nearCells (box : ℝ) (l : Line) (parts : List Part) : List Part :=
  parts.filter (fun p => transDist2 box l.axis p.pos l.cofm < p.h ^ 2)

open Classical in
/-- C09, end to end (partial): the column density of a sightline through a mesh is the mean over the
sample points, times the box size, of the density of the cell nearest to the point. The condition on
the cell at the edge of the box is the one of `segments_nearest_partial`; cells exactly at their search
radius from a sightline are excluded. -/
theorem mesh_column_nearest_partial (L : LineAbsorption) (hL : GoodAbs L) (hk : L.kernel = VORONOI_MESH)
    {nbins : ℕ} (hn : 0 < nbins) {box : ℝ} (hbox : 0.1 ≤ box) (hLb : L.vbox / L.velfac = box)
    {lines : List Line} (hl : ∀ l ∈ lines, GoodLine box l) {parts : List Part}
    (hp : ∀ p ∈ parts, GoodPart box (p.pos, p.h))
    (hedge : ∀ l ∈ lines, ∀ p ∈ parts, transDist2 box l.axis p.pos l.cofm ≠ p.h ^ 2)
    (hne : ∀ l ∈ lines, nearCells box l parts ≠ [])
    (hhalf : ∀ l ∈ lines, ∀ k, IsNearest box l (nearCells box l parts) k (samplePoint box 0) →
      2 * ((Finset.range (sampleCount box)).filter
        (fun j => IsNearest box l (nearCells box l parts) k (samplePoint box j))).card ≤ sampleCount box) :
    ∃ r, compute_colden L nbins box lines parts (List.replicate (lines.length * nbins) 0) = .ok r ∧
      ∀ i l, lines[i]? = some l → ∃ own : ℕ → Part,
        (∀ j < sampleCount box, own j ∈ nearCells box l parts ∧ ∀ q ∈ nearCells box l parts,
          pointDist2 box l (own j).pos (samplePoint box j) ≤ pointDist2 box l q.pos (samplePoint box j)) ∧
        (lineSpectrum r nbins i).sum =
          box * ((∑ j ∈ Finset.range (sampleCount box), (own j).dens) / sampleCount box) := by
  have hbpos : 0 < box := by norm_num at hbox; linarith
  have hcells : ∀ i l, lines[i]? = some l →
      (nearList (build lines box) (posH parts) i).map (fun e => parts[e.1]?) =
        (nearCells box l parts).map some := by
    intro i l hi
    rw [nearList_cells]
    congr 1
    unfold nearCells
    apply List.filter_congr
    intro p hpm
    have hlm := List.mem_of_getElem? hi
    rw [Bool.eq_iff_iff, decide_eq_true_eq, Option.isSome_iff_exists]
    constructor
    · rintro ⟨d, hd⟩
      obtain ⟨l', h1, h2, h3⟩ := pair_distance hbpos hl (hp p hpm).1 p.h i d hd
      rw [hi] at h1
      obtain rfl := Option.some.inj h1
      rw [h2] at h3
      exact lt_of_le_of_ne h3 (hedge l hlm p hpm)
    · intro hd
      exact ⟨_, near_line_found hbpos hl (hp p hpm) hi hd⟩
  have hseg : ∀ i l, lines[i]? = some l → ∃ segs,
      assign_cells box l parts (nearList (build lines box) (posH parts) i) = .ok segs ∧
      segs.length = (nearCells box l parts).length ∧
      ∀ j < sampleCount box, ∀ k seg, segs[k]? = some seg → Covers box seg (samplePoint box j) →
        IsNearest box l (nearCells box l parts) k (samplePoint box j) := by
    intro i l hi
    have hlm := List.mem_of_getElem? hi
    apply segments_nearest_partial hbox (hl l hlm) _ (hcells i l hi) _ (hhalf l hlm)
    · intro h0
      have := hcells i l hi
      rw [h0] at this
      exact hne l hlm (by simpa using this.symm)
    · intro p hpm
      exact (hp p (List.mem_of_mem_filter hpm)).1
  have hax : ∀ l ∈ lines, l.axis = 1 ∨ l.axis = 2 ∨ l.axis = 3 := fun l h => (hl l h).1
  obtain ⟨r, hr⟩ : ∃ r, compute_colden L nbins box lines parts
      (List.replicate (lines.length * nbins) 0) = .ok r := by
    unfold compute_colden overLines
    simp only
    rw [near_particles_nearList, List.length_map, List.length_range]
    apply foldlM_pre_ok _ (meshPre L nbins box lines parts) (lines.length * nbins)
    · intro j hj a ha
      rw [List.mem_range] at hj
      exact mesh_step L hk hn hax hj ha
    · intro j hj
      rw [List.mem_range] at hj
      have hline : lines[j]? = some lines[j] := List.getElem?_eq_getElem hj
      obtain ⟨segs, h1, -⟩ := hseg j _ hline
      unfold meshPre
      simp only [hline, h1]
      exact ⟨_, rfl⟩
    · simp
  refine ⟨r, hr, ?_⟩
  intro i l hi
  have hil : i < lines.length := by
    by_contra hc; rw [List.getElem?_eq_none (by omega)] at hi; cases hi
  obtain ⟨near, segs, hnear, hsegs, hcol⟩ := mesh_column_segments L hL hk hn hbox hLb hax hr hi
  rw [near_particles_nearList, List.getElem?_map, List.getElem?_range hil] at hnear
  obtain rfl : nearList (build lines box) (posH parts) i = near := Option.some.inj hnear
  obtain ⟨segs', h1, h2, h3⟩ := hseg i l hi
  rw [hsegs] at h1
  obtain rfl := Except.ok.inj h1
  obtain ⟨hlen, htile, hsum, hle, hcount⟩ := segments_tile hbox hsegs
  set cells := nearCells box l parts with hcs
  -- the owner of a sample point
  have hown : ∀ j, ∃ k : ℕ, j < sampleCount box → k < cells.length ∧
      ∀ k' seg, segs[k']? = some seg → (Covers box seg (samplePoint box j) ↔ k' = k) := by
    intro j
    by_cases hj : j < sampleCount box
    · obtain ⟨s1, s2, -⟩ := samplePoint_mem hbox hj
      obtain ⟨k, ⟨seg, hk1, hk2⟩, huniq⟩ := htile _ s1 s2
      refine ⟨k, fun _ => ⟨?_, ?_⟩⟩
      · rw [← h2]
        by_contra hc; rw [List.getElem?_eq_none (by omega)] at hk1; cases hk1
      · intro k' seg' hk'
        constructor
        · intro hc; exact huniq k' ⟨seg', hk', hc⟩
        · rintro rfl
          rw [hk1] at hk'
          obtain rfl := Option.some.inj hk'
          exact hk2
    · exact ⟨0, fun h => absurd h hj⟩
  choose o ho using hown
  have hcne : cells ≠ [] := hne l (List.mem_of_getElem? hi)
  let own : ℕ → Part := fun j => (cells[o j]?).getD (cells.head hcne)
  have hownj : ∀ j < sampleCount box, cells[o j]? = some (own j) := by
    intro j hj
    have := (ho j hj).1
    simp only [own, List.getElem?_eq_getElem this, Option.getD_some]
  refine ⟨own, ?_, ?_⟩
  · intro j hj
    refine ⟨List.mem_of_getElem? (hownj j hj), ?_⟩
    have hlt : o j < segs.length := by rw [h2]; exact (ho j hj).1
    obtain ⟨p, hpk, hmin⟩ := h3 j hj (o j) segs[o j] (List.getElem?_eq_getElem hlt)
      (((ho j hj).2 _ _ (List.getElem?_eq_getElem hlt)).2 rfl)
    rw [hownj j hj] at hpk
    obtain rfl := Option.some.inj hpk
    exact hmin
  · have hzip : ((nearList (build lines box) (posH parts) i).zip segs).map (fun e =>
        (parts[e.1.1]?).elim 0 Part.dens * usedLength box e.2) =
        (cells.zip segs).map (fun e => e.1.dens * usedLength box e.2) := by
      have e1 : ((nearList (build lines box) (posH parts) i).zip segs).map (fun e =>
          (parts[e.1.1]?).elim 0 Part.dens * usedLength box e.2) =
          (((nearList (build lines box) (posH parts) i).map (fun e => parts[e.1]?)).zip segs).map
            (fun e => e.1.elim 0 Part.dens * usedLength box e.2) := by
        rw [List.zip_map_left, List.map_map]; rfl
      rw [e1, hcells i l hi, List.zip_map_left, List.map_map]
      rfl
    rw [hcol, hzip]
    have hcz : (cells.zip segs).length = cells.length := by simp [h2]
    rw [← Fin.sum_univ_getElem]
    have hterm : ∀ k : Fin ((cells.zip segs).map (fun e => e.1.dens * usedLength box e.2)).length,
        ((cells.zip segs).map (fun e => e.1.dens * usedLength box e.2))[k.1] =
        sampleStep box * ∑ j ∈ (Finset.range (sampleCount box)).filter (fun j => o j = k.1), (own j).dens := by
      intro k
      have hkc : k.1 < cells.length := lt_of_lt_of_eq k.2 (by rw [List.length_map, hcz])
      have hks : k.1 < segs.length := by omega
      rw [List.getElem_map, List.getElem_zip]
      simp only
      rw [hcount _ (List.getElem_mem hks)]
      have hfe : (Finset.range (sampleCount box)).filter (fun j => Covers box segs[k.1] (samplePoint box j)) =
          (Finset.range (sampleCount box)).filter (fun j => o j = k.1) := by
        apply Finset.filter_congr
        intro j hj
        rw [(ho j (Finset.mem_range.1 hj)).2 _ _ (List.getElem?_eq_getElem hks)]
        exact eq_comm
      rw [hfe, Finset.sum_congr rfl (g := fun _ => cells[k.1].dens)]
      · rw [Finset.sum_const, nsmul_eq_mul]; ring
      · intro j hj
        rw [Finset.mem_filter, Finset.mem_range] at hj
        have := hownj j hj.1
        rw [hj.2, List.getElem?_eq_getElem hkc] at this
        rw [Option.some.inj this]
    rw [Finset.sum_congr rfl (fun k _ => hterm k), ← Finset.mul_sum,
      Fin.sum_univ_eq_sum_range (fun k => ∑ j ∈ (Finset.range (sampleCount box)).filter
        (fun j => o j = k), (own j).dens), List.length_map, hcz,
      Finset.sum_fiberwise_of_maps_to (fun j hj => Finset.mem_range.2 (ho j (Finset.mem_range.1 hj)).1)]
    unfold sampleStep
    ring

end Verif.Props
