import Verif.Lemmas.Voronoi
import Verif.Lemmas.IndexTable

/-! The cell chosen for a grid point, and the shape of the set of grid points of a cell. -/

namespace Verif
namespace PartInt

open Absorption IndexTable Spec

theorem nearest_fold (box : ℝ) (ds : List ℝ) :
    (ds.foldl nearestStep (box, 0, 0)).2.2 = ds.length ∧
    (((ds.foldl nearestStep (box, 0, 0)).1 = box ∧ (∀ d ∈ ds, box ≤ d) ∧
        (ds.foldl nearestStep (box, 0, 0)).2.1 = 0) ∨
      (ds[(ds.foldl nearestStep (box, 0, 0)).2.1]? = some (ds.foldl nearestStep (box, 0, 0)).1 ∧
        (ds.foldl nearestStep (box, 0, 0)).1 < box ∧
        (∀ d ∈ ds, (ds.foldl nearestStep (box, 0, 0)).1 ≤ d) ∧
        ∀ j d, j < (ds.foldl nearestStep (box, 0, 0)).2.1 → ds[j]? = some d →
          (ds.foldl nearestStep (box, 0, 0)).1 < d)) := by
  induction ds using List.reverseRecOn with
  | nil => exact ⟨rfl, .inl ⟨rfl, by simp, rfl⟩⟩
  | append_singleton ds d ih =>
    rw [List.foldl_append, List.foldl_cons, List.foldl_nil]
    generalize ds.foldl nearestStep (box, 0, 0) = st at ih
    obtain ⟨m, k, n⟩ := st
    simp only at ih
    obtain ⟨hn, ih⟩ := ih
    unfold nearestStep
    simp only
    split
    · rename_i hd
      refine ⟨by simp [hn], .inr ⟨by simp [hn], ?_, ?_, ?_⟩⟩
      · rcases ih with ⟨rfl, -, -⟩ | ⟨-, h, -⟩
        · exact hd
        · exact hd.trans h
      · intro x hx
        rw [List.mem_append, List.mem_singleton] at hx
        rcases hx with hx | rfl
        · rcases ih with ⟨rfl, h, -⟩ | ⟨-, -, h, -⟩
          · exact (hd.trans_le (h x hx)).le
          · exact (hd.trans_le (h x hx)).le
        · exact le_rfl
      · intro j x hj hx
        simp only at hj
        rw [hn] at hj
        rw [List.getElem?_append_left hj] at hx
        have hx := List.mem_of_getElem? hx
        rcases ih with ⟨rfl, h, -⟩ | ⟨-, -, h, -⟩
        · exact hd.trans_le (h x hx)
        · exact hd.trans_le (h x hx)
    · rename_i hd
      push Not at hd
      refine ⟨by simp [hn], ?_⟩
      rcases ih with ⟨rfl, h, rfl⟩ | ⟨h1, h2, h3, h4⟩
      · left
        refine ⟨rfl, ?_, rfl⟩
        intro x hx
        rw [List.mem_append, List.mem_singleton] at hx
        rcases hx with hx | rfl
        · exact h x hx
        · exact hd
      · right
        have hk : k < ds.length := by
          by_contra hc; rw [List.getElem?_eq_none (by omega)] at h1; cases h1
        refine ⟨by rw [List.getElem?_append_left hk]; exact h1, h2, ?_, ?_⟩
        · intro x hx
          rw [List.mem_append, List.mem_singleton] at hx
          rcases hx with hx | rfl
          · exact h3 x hx
          · exact hd
        · intro j x hj hx
          simp only at hj
          rw [List.getElem?_append_left (by omega)] at hx
          exact h4 j x hj hx

/-- The chosen index is the first at the least distance. -/
theorem nearestCell_spec {box : ℝ} {ds : List ℝ} (hne : ds ≠ []) (hlt : ∀ d ∈ ds, d < box) :
    ∃ m, ds[nearestCell box ds]? = some m ∧ (∀ d ∈ ds, m ≤ d) ∧
      ∀ j d, j < nearestCell box ds → ds[j]? = some d → m < d := by
  obtain ⟨-, ⟨-, h, -⟩ | ⟨h1, -, h3, h4⟩⟩ := nearest_fold box ds
  · obtain ⟨d, hd⟩ := List.exists_mem_of_ne_nil ds hne
    exact absurd (h d hd) (not_le.2 (hlt d hd))
  · exact ⟨_, h1, h3, h4⟩

/-! ### Arcs -/

section
variable {n : ℕ} {L : ℝ} (hL : 0 < L) (p c : ℕ → ℝ)

/-- Image `s` of cell `k` is the nearest image of any cell to `y`, with ties to the lower number. -/
def Beats (n : ℕ) (L : ℝ) (p c : ℕ → ℝ) (k : ℕ) (s : ℤ) (y : ℝ) : Prop :=
  ∀ q < n, ∀ r : ℤ, (p k - y + s * L) ^ 2 + c k ≤ (p q - y + r * L) ^ 2 + c q ∧
    (q < k → (p k - y + s * L) ^ 2 + c k < (p q - y + r * L) ^ 2 + c q)

theorem Beats.convex {k : ℕ} {s : ℤ} {u v y : ℝ} (hu : Beats n L p c k s u) (hv : Beats n L p c k s v)
    (h1 : u ≤ y) (h2 : y ≤ v) : Beats n L p c k s y := by
  intro q hq r
  obtain ⟨a1, a2⟩ := hu q hq r
  obtain ⟨b1, b2⟩ := hv q hq r
  rcases eq_or_lt_of_le (h1.trans h2) with h | h
  · have : y = u := by linarith
    subst this; exact ⟨a1, a2⟩
  · set A := p k + s * L with hA
    set B := p q + r * L with hB
    have key : ∀ x : ℝ, (p k - x + s * L) ^ 2 + c k - ((p q - x + r * L) ^ 2 + c q) =
        A ^ 2 - B ^ 2 + c k - c q - 2 * x * (A - B) := by intro x; rw [hA, hB]; ring
    have ku := key u
    have kv := key v
    have ky := key y
    have hcomb : (v - u) * (A ^ 2 - B ^ 2 + c k - c q - 2 * y * (A - B)) =
        (v - y) * (A ^ 2 - B ^ 2 + c k - c q - 2 * u * (A - B)) +
        (y - u) * (A ^ 2 - B ^ 2 + c k - c q - 2 * v * (A - B)) := by ring
    rw [← ku, ← kv, ← ky] at hcomb
    generalize (p k - u + s * L) ^ 2 + c k = x1 at *
    generalize (p q - u + r * L) ^ 2 + c q = x2 at *
    generalize (p k - v + s * L) ^ 2 + c k = y1 at *
    generalize (p q - v + r * L) ^ 2 + c q = y2 at *
    generalize (p k - y + s * L) ^ 2 + c k = z1 at *
    generalize (p q - y + r * L) ^ 2 + c q = z2 at *
    constructor
    · by_contra hc; push Not at hc; nlinarith
    · intro hqk
      have := a2 hqk; have := b2 hqk
      by_contra hc; push Not at hc
      rcases eq_or_lt_of_le h1 with h' | h' <;> nlinarith

theorem Beats.shift {k : ℕ} {s : ℤ} {y : ℝ} : Beats n L p c k s (y - L) ↔ Beats n L p c k (s + 1) y := by
  unfold Beats
  constructor
  · intro h q hq r
    have := h q hq (r - 1)
    push_cast at this ⊢
    rw [show p k - y + ((s : ℝ) + 1) * L = p k - (y - L) + s * L by ring,
      show p q - y + (r : ℝ) * L = p q - (y - L) + (r - 1) * L by ring]
    exact this
  · intro h q hq r
    have := h q hq (r + 1)
    push_cast at this ⊢
    rw [show p k - (y - L) + (s : ℝ) * L = p k - y + (s + 1) * L by ring,
      show p q - (y - L) + (r : ℝ) * L = p q - y + (r + 1) * L by ring]
    exact this

/-- `k` is the first cell at least distance from `y`. -/
def Owns (n : ℕ) (L : ℝ) (p c : ℕ → ℝ) (k : ℕ) (y : ℝ) : Prop :=
  k < n ∧ ∀ q < n, perDist L (p k - y) ^ 2 + c k ≤ perDist L (p q - y) ^ 2 + c q ∧
    (q < k → perDist L (p k - y) ^ 2 + c k < perDist L (p q - y) ^ 2 + c q)

include hL in
theorem perDist_sq (d : ℝ) : (∃ s : ℤ, perDist L d ^ 2 = (d + s * L) ^ 2 ∧ |d + s * L| ≤ L / 2) ∧
    ∀ s : ℤ, perDist L d ^ 2 ≤ (d + s * L) ^ 2 := by
  obtain ⟨⟨s, hs⟩, hmin⟩ := perDist_isLeast hL d
  have h0 : 0 ≤ perDist L d := abs_nonneg _
  refine ⟨⟨-round (d / L), ?_, ?_⟩, ?_⟩
  · unfold perDist; rw [sq_abs]; push_cast; ring
  · have := abs_sub_round (d / L)
    have e : d + ((-round (d / L) : ℤ) : ℝ) * L = (d / L - round (d / L)) * L := by
      push_cast; field_simp
      ring
    rw [e, abs_mul, abs_of_pos hL]
    nlinarith
  · intro s
    have := hmin ⟨s, rfl⟩
    rw [← sq_abs (d + s * L)]
    exact pow_le_pow_left₀ h0 this 2

include hL in
theorem Owns.beats {k : ℕ} {y : ℝ} (h : Owns n L p c k y) :
    ∃ s : ℤ, Beats n L p c k s y ∧ |p k - y + s * L| ≤ L / 2 := by
  obtain ⟨⟨s, hs, hs2⟩, -⟩ := perDist_sq hL (p k - y)
  refine ⟨s, fun q hq r => ?_, hs2⟩
  have h1 := h.2 q hq
  have h2 := (perDist_sq hL (p q - y)).2 r
  rw [← hs]
  exact ⟨by linarith [h1.1], fun hqk => by linarith [h1.2 hqk]⟩

include hL in
theorem Beats.owns {k : ℕ} (hk : k < n) {s : ℤ} {y : ℝ} (h : Beats n L p c k s y) : Owns n L p c k y := by
  refine ⟨hk, fun q hq => ?_⟩
  obtain ⟨⟨r, hr, -⟩, -⟩ := perDist_sq hL (p q - y)
  have h1 := h q hq r
  have h2 := (perDist_sq hL (p k - y)).2 s
  rw [hr]
  exact ⟨by linarith [h1.1], fun hqk => by linarith [h1.2 hqk]⟩

theorem Owns.unique {k k' : ℕ} {y : ℝ} (h : Owns n L p c k y) (h' : Owns n L p c k' y) : k = k' := by
  rcases lt_trichotomy k k' with hlt | heq | hgt
  · have := (h'.2 k h.1).2 hlt
    have := (h.2 k' h'.1).1
    linarith
  · exact heq
  · have := (h.2 k' h'.1).2 hgt
    have := (h'.2 k h.1).1
    linarith

include hL in
/-- Grid points owned by one cell form an arc of the circle. -/
theorem owns_arc {N : ℕ} {x : ℕ → ℝ} (hx : StrictMono x) (hx1 : ∀ i j, i < N → j < N → x j < x i + L)
    {o : ℕ → ℕ} (ho : ∀ j < N, Owns n L p c (o j) (x j)) : IsArc N o := by
  intro i j m hij hjm hm him hne t ht htt
  have hi : i < N := by omega
  have hj : j < N := by omega
  obtain ⟨s1, hs1, ha1⟩ := (ho i hi).beats hL
  obtain ⟨s2, hs2, ha2⟩ := (ho m hm).beats hL
  rw [him] at hs1 ha1
  have hlt := hx (hij.trans hjm)
  have hL1 := hx1 i m hi hm
  rw [abs_le] at ha1 ha2
  have hs : s2 = s1 ∨ s2 = s1 + 1 := by
    have h1 : (s2 - s1 : ℝ) * L > -L := by linarith [ha1.1, ha1.2, ha2.1, ha2.2]
    have h2 : (s2 - s1 : ℝ) * L < 2 * L := by linarith [ha1.1, ha1.2, ha2.1, ha2.2]
    have h1 : (-1 : ℝ) < s2 - s1 := by by_contra hc; push Not at hc; nlinarith
    have h2 : (s2 - s1 : ℝ) < 2 := by by_contra hc; push Not at hc; nlinarith
    have h1 : (-1 : ℤ) < s2 - s1 := by exact_mod_cast h1
    have h2 : s2 - s1 < (2 : ℤ) := by exact_mod_cast h2
    omega
  have hk := (ho m hm).1
  rcases hs with rfl | rfl
  · exact absurd (Owns.unique p c (ho j hj) (Beats.owns hL p c hk
      (Beats.convex p c hs1 hs2 (hx hij).le (hx hjm).le))) hne
  · rw [← Beats.shift] at hs2
    apply Owns.unique p c (ho t ht)
    rcases htt with htt | htt
    · refine Beats.owns hL p c hk (Beats.convex p c hs2 hs1 ?_ (hx.monotone htt))
      have := hx1 t m ht hm; linarith
    · have := Beats.convex p c hs2 hs1 (y := x t - L) (by linarith [hx.monotone htt])
        (by have := hx1 i t hi ht; linarith)
      rw [Beats.shift] at this
      exact Beats.owns hL p c hk this

end

/-! ### The distance used by the search -/

theorem wrapAbs_eq {box d : ℝ} (hbox : 0 < box) (hd : |d| ≤ box) : wrapAbs box d = perDist box d := by
  rw [← wrapDist_eq_perDist hbox hd]
  unfold wrapAbs wrapDist
  rw [show box / 2 = 0.5 * box by ring]

theorem perDist_le_half {box d : ℝ} (hbox : 0 < box) : perDist box d ^ 2 ≤ box ^ 2 / 4 := by
  obtain ⟨⟨s, hs, ha⟩, -⟩ := perDist_sq hbox d
  rw [hs, ← sq_abs]
  have := abs_nonneg (d + s * box)
  nlinarith

/-- Squared distance of a cell centre from the point at `x` of a sightline. -/
theorem cellDist_eq {box : ℝ} (hbox : 0 < box) {line : Line}
    (hax : line.axis = 1 ∨ line.axis = 2 ∨ line.axis = 3) (hc : InBox box line.cofm) {pos : Vec3}
    (hp : InBox box pos) {x : ℝ} (hx0 : 0 ≤ x) (hx1 : x ≤ box) :
    cellDist box line pos (along pos line.axis) x =
      √(perDist box (along pos line.axis - x) ^ 2 + transDist2 box line.axis pos line.cofm) := by
  have hb : ∀ i, |pos i - line.cofm i| ≤ box := fun i =>
    abs_le.2 ⟨by linarith [(hp i).1, (hc i).2], by linarith [(hp i).2, (hc i).1]⟩
  have hal : ∃ i, along pos line.axis = pos i := by
    rcases hax with h | h | h <;> rw [h]
    exacts [⟨0, rfl⟩, ⟨1, rfl⟩, ⟨2, rfl⟩]
  have hbx : |along pos line.axis - x| ≤ box := by
    obtain ⟨i, hi⟩ := hal
    rw [hi]
    exact abs_le.2 ⟨by linarith [(hp i).1], by linarith [(hp i).2]⟩
  unfold cellDist
  simp only
  rw [wrapAbs_eq hbox hbx]
  congr 1
  rw [add_assoc, ← pow_two]
  congr 1
  unfold transDist2
  rw [Fin.sum_univ_three]
  rcases hax with h | h | h <;> rw [h] <;> norm_num [coordMod] <;>
    simp only [wrapAbs_eq hbox (hb _)] <;> ring

theorem cellDist_lt {box : ℝ} (hbox : 0 < box) {line : Line}
    (hax : line.axis = 1 ∨ line.axis = 2 ∨ line.axis = 3) (hc : InBox box line.cofm) {pos : Vec3}
    (hp : InBox box pos) {x : ℝ} (hx0 : 0 ≤ x) (hx1 : x ≤ box) :
    cellDist box line pos (along pos line.axis) x < box := by
  rw [cellDist_eq hbox hax hc hp hx0 hx1]
  have h1 := fun d : ℝ => perDist_le_half (d := d) hbox
  rw [Real.sqrt_lt' hbox]
  have : transDist2 box line.axis pos line.cofm ≤ box ^ 2 / 4 + box ^ 2 / 4 := by
    unfold transDist2
    rw [Fin.sum_univ_three]
    rcases hax with h | h | h <;> rw [h] <;> norm_num
    · linarith [h1 (pos 1 - line.cofm 1), h1 (pos 2 - line.cofm 2)]
    · linarith [h1 (pos 0 - line.cofm 0), h1 (pos 2 - line.cofm 2)]
    · linarith [h1 (pos 0 - line.cofm 0), h1 (pos 1 - line.cofm 1)]
  have := h1 (along pos line.axis - x)
  nlinarith

end PartInt
end Verif
