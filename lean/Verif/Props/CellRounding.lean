import Verif.Model.CellRounding
import Verif.Props.VoronoiCases
import Verif.Props.Rounding

/-!
C121: the limits of cells are stored in single precision.
-/

namespace Verif.Props.CellRounding
open Verif Verif.Spec Verif.Props Verif.PartInt Verif.Rounding Verif.IndexTable Verif.Absorption

/-! ### Specification -/

/-- Storing a number in a `float`: a relative error of at most `2 ^ -24`. -/
def Single (fl : ℝ → ℝ) : Prop := ∀ x, |fl x - x| ≤ (2 : ℝ)⁻¹ ^ 24 * |x|

/-- Two parts of a sightline are used or not alike, and have the same limits up to a two millionth of the box. -/
def SameSegment (box : ℝ) (s s' : ℝ × ℝ) : Prop :=
  (Used box s' ↔ Used box s) ∧ |s'.1 - s.1| ≤ box / 2 ^ 21 ∧ |s'.2 - s.2| ≤ box / 2 ^ 21

/-! ### The loop -/

theorem Single.lo {fl : ℝ → ℝ} (hf : Single fl) {x : ℝ} (hx : 0 ≤ x) : x - (2 : ℝ)⁻¹ ^ 24 * x ≤ fl x := by
  have := (abs_le.1 (hf x)).1
  rw [abs_of_nonneg hx] at this
  linarith

theorem Single.hi {fl : ℝ → ℝ} (hf : Single fl) {x : ℝ} (hx : 0 ≤ x) : fl x ≤ x + (2 : ℝ)⁻¹ ^ 24 * x := by
  have := (abs_le.1 (hf x)).2
  rw [abs_of_nonneg hx] at this
  linarith

/-- What is known of an element before grid point `i`. -/
def Known (box reso : ℝ) (i : ℕ) (c : ℝ × ℝ) : Prop :=
  c = (3 * box, 3 * box) ∨
    ∃ j k : ℕ, k < i ∧ c = (((j : ℝ) + 0.5) * reso, ((k : ℝ) + 0.5) * reso) ∧ j ≤ k ∧ (j = 0 → ((k : ℝ) + 0.5) * reso ≤ box / 2 + 0.5 * reso)

/-- An element of the exact array after the loop and the one in single precision. -/
def Close (fl : ℝ → ℝ) (box reso : ℝ) (c c' : ℝ × ℝ) : Prop :=
  (c = (3 * box, 3 * box) ∧ c' = (fl (3 * box), fl (3 * box))) ∨
    (0 ≤ c.1 ∧ c.1 ≤ box ∧ 0 ≤ c.2 ∧ c.2 ≤ 1.5 * box + 0.5 * reso ∧ |c'.1 - c.1| ≤ (2 : ℝ)⁻¹ ^ 24 * box ∧ |c'.2 - c.2| ≤ (2 : ℝ)⁻¹ ^ 24 * (4 * box) ∧
      c.1 ≤ c.2 ∧ (c.2 ≤ box ∧ |c'.2 - c.2| ≤ (2 : ℝ)⁻¹ ^ 24 * box ∨ c.1 + reso ≤ c.2))

theorem forall₂_set {α β : Type} {R : α → β → Prop} {l : List α} {l' : List β} (h : List.Forall₂ R l l') (m : ℕ) {a : α} {a' : β} (ha : R a a') :
    List.Forall₂ R (l.set m a) (l'.set m a') := by
  induction h generalizing m with
  | nil => exact .nil
  | cons h1 h2 ih =>
    cases m with
    | zero => exact .cons ha h2
    | succ m => exact .cons h1 (ih m)

theorem forall₂_map_of {α β : Type} {R : α → β → Prop} (f : α → β) (l : List α) (h : ∀ x ∈ l, R x (f x)) : List.Forall₂ R l (l.map f) := by
  induction l with
  | nil => exact .nil
  | cons x l ih => exact .cons (h x (by simp)) (ih (fun y hy => h y (by simp [hy])))

section
variable {fl : ℝ → ℝ} (hf : Single fl) {box reso : ℝ} {N : ℕ} (hr : 0 < reso) (hN : (N : ℝ) * reso = box) (hN1 : 1 ≤ N) (hN2 : N ≤ 2 ^ 23)
include hf hr hN hN1

theorem grid_le {k : ℕ} (hk : k < N) : ((k : ℝ) + 0.5) * reso + 0.5 * reso ≤ box := by
  have : ((k : ℝ) + 1) ≤ N := by exact_mod_cast hk
  rw [← hN]
  nlinarith

theorem reso_le : reso ≤ box := by
  have : (1 : ℝ) ≤ N := by exact_mod_cast hN1
  rw [← hN]
  nlinarith

theorem known_close {i : ℕ} (hi : i ≤ N) {c : ℝ × ℝ} (h : Known box reso i c) : Close fl box reso c (fl c.1, fl c.2) := by
  have hrb := reso_le hf hr hN hN1
  rcases h with rfl | ⟨j, k, hk, rfl, hjk, -⟩
  · exact .inl ⟨rfl, rfl⟩
  · right
    have h1 := grid_le hf hr hN hN1 (show j < N by omega)
    have h2 := grid_le hf hr hN hN1 (show k < N by omega)
    have p1 : 0 ≤ ((j : ℝ) + 0.5) * reso := by positivity
    have p2 : 0 ≤ ((k : ℝ) + 0.5) * reso := by positivity
    have e1 := hf (((j : ℝ) + 0.5) * reso)
    have e2 := hf (((k : ℝ) + 0.5) * reso)
    rw [abs_of_nonneg p1] at e1
    rw [abs_of_nonneg p2] at e2
    have hjk' : (j : ℝ) ≤ k := by exact_mod_cast hjk
    refine ⟨p1, by dsimp only; linarith, p2, by dsimp only; linarith, e1.trans ?_, e2.trans ?_,
      mul_le_mul_of_nonneg_right (by linarith) hr.le, .inl ⟨by dsimp only; linarith, e2.trans ?_⟩⟩
    · exact mul_le_mul_of_nonneg_left (by linarith) (by positivity)
    · exact mul_le_mul_of_nonneg_left (by linarith) (by positivity)
    · exact mul_le_mul_of_nonneg_left (by linarith) (by positivity)

include hN2

/-- The comparisons have the same outcome in single precision. -/
theorem same_branches {i : ℕ} (hi : i < N) {c : ℝ × ℝ} (h : Known box reso i c) :
    (fl c.1 < reso ↔ c.1 < reso) ∧ (((i : ℝ) + 0.5) * reso > 1.5 * reso + fl c.2 ↔ ((i : ℝ) + 0.5) * reso > 1.5 * reso + c.2) ∧
      (fl c.1 > 2 * box ↔ c.1 > 2 * box) := by
  have hrb := reso_le hf hr hN hN1
  have hib := grid_le hf hr hN hN1 hi
  have hu : (2 : ℝ)⁻¹ ^ 24 * box ≤ 0.5 * reso := by
    have : (N : ℝ) ≤ 2 ^ 23 := by exact_mod_cast hN2
    rw [← hN]
    have h2 : (N : ℝ) * reso ≤ 2 ^ 23 * reso := mul_le_mul_of_nonneg_right this hr.le
    norm_num at h2 ⊢
    linarith
  have hu2 : (2 : ℝ)⁻¹ ^ 24 ≤ 0.1 := by norm_num
  rcases h with rfl | ⟨j, k, hk, rfl, hjk, -⟩
  · have hb : 0 < box := by linarith
    have hlo := hf.lo (x := 3 * box) (by linarith)
    have : (2 : ℝ)⁻¹ ^ 24 * (3 * box) ≤ 0.1 * (3 * box) := mul_le_mul_of_nonneg_right hu2 (by linarith)
    dsimp only
    refine ⟨⟨fun h => ?_, fun h => ?_⟩, ⟨fun h => ?_, fun h => ?_⟩, ⟨fun h => ?_, fun h => ?_⟩⟩ <;> linarith
  · have h1 := grid_le hf hr hN hN1 (show j < N by omega)
    have h2 := grid_le hf hr hN hN1 (show k < N by omega)
    have p1 : 0 ≤ ((j : ℝ) + 0.5) * reso := by positivity
    have p2 : 0 ≤ ((k : ℝ) + 0.5) * reso := by positivity
    have a1 := hf.lo p1
    have a2 := hf.hi p1
    have b1 := hf.lo p2
    have b2 := hf.hi p2
    have m1 : (2 : ℝ)⁻¹ ^ 24 * (((j : ℝ) + 0.5) * reso) ≤ 0.1 * (((j : ℝ) + 0.5) * reso) := mul_le_mul_of_nonneg_right hu2 p1
    have m2 : (2 : ℝ)⁻¹ ^ 24 * (((k : ℝ) + 0.5) * reso) < (2 : ℝ)⁻¹ ^ 24 * box := mul_lt_mul_of_pos_left (by linarith) (by positivity)
    dsimp only
    refine ⟨?_, ?_, ⟨fun h => ?_, fun h => ?_⟩⟩
    · rcases Nat.eq_zero_or_pos j with rfl | hj
      · push_cast at *
        exact ⟨fun _ => by linarith, fun _ => by linarith⟩
      · have : (1 : ℝ) ≤ j := by exact_mod_cast hj
        have : 1.5 * reso ≤ ((j : ℝ) + 0.5) * reso := mul_le_mul_of_nonneg_right (by linarith) hr.le
        exact ⟨fun _ => by linarith, fun _ => by linarith⟩
    · rcases Nat.lt_or_ge (k + 1) i with hki | hki
      · have : ((k : ℝ) + 2) ≤ i := by exact_mod_cast hki
        have : ((k : ℝ) + 0.5) * reso + 2 * reso ≤ ((i : ℝ) + 0.5) * reso := by nlinarith
        exact ⟨fun _ => by linarith, fun _ => by linarith⟩
      · have hik : i = k + 1 := by omega
        subst hik
        push_cast at *
        exact ⟨fun _ => by linarith, fun _ => by linarith⟩
    · linarith
    · linarith

theorem loop_close (sel : ℝ → ℕ) (n i : ℕ) (hn : i + n ≤ N) (arr : List (ℝ × ℝ)) (ha : ∀ c ∈ arr, Known box reso i c) :
    (∃ e, PartInt.assignLoop box reso sel n i arr = .error e ∧
      CellRounding.assignLoop fl box reso sel n i (arr.map (fun c => (fl c.1, fl c.2))) = .error e) ∨
    ∃ r r', PartInt.assignLoop box reso sel n i arr = .ok r ∧
      CellRounding.assignLoop fl box reso sel n i (arr.map (fun c => (fl c.1, fl c.2))) = .ok r' ∧ List.Forall₂ (Close fl box reso) r r' := by
  induction n generalizing i arr with
  | zero => exact .inr ⟨_, _, rfl, rfl, forall₂_map_of _ _ (fun c hc => known_close hf hr hN hN1 (by omega) (ha c hc))⟩
  | succ n ih =>
    have hrb := reso_le hf hr hN hN1
    have hb : 0 < box := by linarith
    have hib := grid_le hf hr hN hN1 (show i < N by omega)
    rw [PartInt.assignLoop, CellRounding.assignLoop]
    unfold PartInt.cellStep CellRounding.cellStep
    simp only [List.getElem?_map]
    cases he : arr[sel (((i : ℝ) + 0.5) * reso)]? with
    | none => exact .inl ⟨_, rfl, rfl⟩
    | some c =>
      have hc := ha c (List.mem_of_getElem? he)
      obtain ⟨b1, b2, b3⟩ := same_branches hf hr hN hN1 hN2 (show i < N by omega) hc
      simp only [Option.map_some, b1, b2, b3]
      by_cases c1 : c.1 < reso ∧ ((i : ℝ) + 0.5) * reso > box / 2 + 0.5 * reso
      · rw [if_pos c1, if_pos c1]
        refine .inr ⟨_, _, rfl, rfl, ?_⟩
        refine forall₂_set (forall₂_map_of _ _ (fun c hc => known_close hf hr hN hN1 (by omega) (ha c hc))) _ ?_
        right
        have p : 0 ≤ ((i : ℝ) + 0.5) * reso := by positivity
        have e1 := hf (((i : ℝ) + 0.5) * reso)
        rw [abs_of_nonneg p] at e1
        rcases hc with rfl | ⟨j, k, hk, rfl, hjk, hj⟩
        · have := c1.1
          dsimp only at this
          linarith
        · have hj0 : j = 0 := by
            by_contra hj0
            have : (1 : ℝ) ≤ j := by exact_mod_cast Nat.one_le_iff_ne_zero.2 hj0
            have := c1.1
            dsimp only at this
            nlinarith
          have hk2 := hj hj0
          have h2 := grid_le hf hr hN hN1 (show k < N by omega)
          have p2 : 0 ≤ ((k : ℝ) + 0.5) * reso := by positivity
          have p3 : 0.5 * reso ≤ ((k : ℝ) + 0.5) * reso := mul_le_mul_of_nonneg_right (by have : (0 : ℝ) ≤ k := Nat.cast_nonneg _; linarith) hr.le
          dsimp only
          generalize ((k : ℝ) + 0.5) * reso = x at *
          have l := hf.lo p2
          have u := hf.hi p2
          have hu2 : (2 : ℝ)⁻¹ ^ 24 ≤ 0.1 := by norm_num
          have hu0 : (0 : ℝ) < (2 : ℝ)⁻¹ ^ 24 := by positivity
          have e2 : |fl (fl x + box) - (fl x + box)| ≤ (2 : ℝ)⁻¹ ^ 24 * |fl x + box| := hf (fl x + box)
          generalize (2 : ℝ)⁻¹ ^ 24 = ε at *
          have m : ε * x ≤ 0.1 * x := mul_le_mul_of_nonneg_right hu2 p2
          refine ⟨p, by linarith, by linarith, by linarith, e1.trans (mul_le_mul_of_nonneg_left (by linarith) hu0.le), ?_, by linarith, .inr (by linarith)⟩
          rw [abs_of_nonneg (by linarith : 0 ≤ fl x + box)] at e2
          have m2 : ε * (fl x + box) ≤ ε * (2.5 * box) := mul_le_mul_of_nonneg_left (by linarith) hu0.le
          have m3 : ε * x ≤ ε * box := mul_le_mul_of_nonneg_left (by linarith) hu0.le
          have m4 : 0 < ε * box := mul_pos hu0 hb
          rw [abs_le] at e2 ⊢
          constructor <;> linarith [e2.1, e2.2]
      · rw [if_neg c1, if_neg c1]
        by_cases c2 : ((i : ℝ) + 0.5) * reso > 1.5 * reso + c.2
        · rw [if_pos c2, if_pos c2]
          exact .inl ⟨_, rfl, rfl⟩
        rw [if_neg c2, if_neg c2]
        have hset : (arr.map (fun c => (fl c.1, fl c.2))).set (sel (((i : ℝ) + 0.5) * reso))
            (if c.1 > 2 * box then fl (((i : ℝ) + 0.5) * reso) else fl c.1, fl (((i : ℝ) + 0.5) * reso)) =
            (arr.set (sel (((i : ℝ) + 0.5) * reso)) (if c.1 > 2 * box then ((i : ℝ) + 0.5) * reso else c.1, ((i : ℝ) + 0.5) * reso)).map
              (fun c => (fl c.1, fl c.2)) := by
          rw [List.map_set]
          congr 2
          dsimp only
          split <;> rfl
        simp only [hset]
        apply ih (i + 1) (by omega)
        intro d hd
        rcases List.mem_or_eq_of_mem_set hd with hd | rfl
        · rcases ha d hd with h | ⟨j, k, hk, h⟩
          · exact .inl h
          · exact .inr ⟨j, k, by omega, h⟩
        · right
          rcases hc with rfl | ⟨j, k, hk, rfl, hjk, hj⟩
          · rw [if_pos (by dsimp only; linarith)]
            refine ⟨i, i, by omega, rfl, le_rfl, ?_⟩
            rintro rfl
            push_cast
            linarith
          · have h1 := grid_le hf hr hN hN1 (show j < N by omega)
            rw [if_neg (by dsimp only; linarith)]
            refine ⟨j, i, by omega, rfl, by omega, ?_⟩
            rintro rfl
            by_contra hx
            refine c1 ⟨?_, not_le.1 hx⟩
            push_cast
            linarith

/-- The last step, half a grid point on either side. -/
theorem close_same (h10 : 10 * reso ≤ box) {c c' : ℝ × ℝ} (h : Close fl box reso c c') :
    SameSegment box (c.1 - 0.5 * reso, c.2 + 0.5 * reso) (fl (c'.1 - 0.5 * reso), fl (c'.2 + 0.5 * reso)) := by
  have hb : 0 < box := by linarith
  have e1 : |fl (c'.1 - 0.5 * reso) - (c'.1 - 0.5 * reso)| ≤ (2 : ℝ)⁻¹ ^ 24 * |c'.1 - 0.5 * reso| := hf _
  have e2 : |fl (c'.2 + 0.5 * reso) - (c'.2 + 0.5 * reso)| ≤ (2 : ℝ)⁻¹ ^ 24 * |c'.2 + 0.5 * reso| := hf _
  have e3 := hf.lo (x := 3 * box) (by linarith)
  have e4 := hf.hi (x := 3 * box) (by linarith)
  have hu0 : (0 : ℝ) < (2 : ℝ)⁻¹ ^ 24 := by positivity
  have hu2 : (2 : ℝ)⁻¹ ^ 24 ≤ 0.001 := by norm_num
  have h21 : box / 2 ^ 21 = 8 * ((2 : ℝ)⁻¹ ^ 24 * box) := by norm_num; ring
  unfold SameSegment
  rw [h21]
  unfold Close at h
  generalize (2 : ℝ)⁻¹ ^ 24 = ε at *
  have m4 : 0 < ε * box := mul_pos hu0 hb
  have m5 : ε * box ≤ 0.001 * box := mul_le_mul_of_nonneg_right hu2 hb.le
  have key : |c'.1 - c.1| ≤ 3 * (ε * box) → |c'.2 - c.2| ≤ 4 * (ε * box) → |c'.1 - 0.5 * reso| ≤ 3.5 * box → |c'.2 + 0.5 * reso| ≤ 3.5 * box →
      |fl (c'.1 - 0.5 * reso) - (c.1 - 0.5 * reso)| ≤ 7 * (ε * box) ∧ |fl (c'.2 + 0.5 * reso) - (c.2 + 0.5 * reso)| ≤ 8 * (ε * box) := by
    intro k1 k2 k3 k4
    have n3 := mul_le_mul_of_nonneg_left k3 hu0.le
    have n4 := mul_le_mul_of_nonneg_left k4 hu0.le
    have f1 := e1.trans n3
    have f2 := e2.trans n4
    rw [abs_le] at k1 k2 f1 f2 ⊢
    rw [abs_le]
    refine ⟨⟨?_, ?_⟩, ?_, ?_⟩ <;> linarith [f1.1, f1.2, f2.1, f2.2, k1.1, k1.2, k2.1, k2.2]
  unfold Used
  dsimp only
  rcases h with ⟨rfl, rfl⟩ | ⟨p1, p2, p3, p4, d1, d2, -⟩
  · dsimp only at *
    have := key (by rw [abs_le]; constructor <;> linarith) (by rw [abs_le]; constructor <;> linarith) (by rw [abs_le]; constructor <;> linarith)
      (by rw [abs_le]; constructor <;> linarith)
    refine ⟨⟨fun h => ?_, fun h => ?_⟩, this.1.trans (by linarith), this.2⟩
    · have := abs_le.1 this.1
      linarith [h.1, this.1]
    · linarith [h.1]
  · rw [abs_le] at d1 d2
    have := key (by rw [abs_le]; constructor <;> linarith [d1.1, d1.2]) (by rw [abs_le]; constructor <;> linarith [d2.1, d2.2])
      (by rw [abs_le]; constructor <;> linarith [d1.1, d1.2]) (by rw [abs_le]; constructor <;> linarith [d2.1, d2.2])
    have t1 := abs_le.1 this.1
    have t2 := abs_le.1 this.2
    refine ⟨⟨fun _ => ⟨by linarith, by linarith⟩, fun _ => ⟨by linarith [t1.2], by linarith [t2.2]⟩⟩, this.1.trans (by linarith), this.2⟩

/-- The limits of a part that is used stay in order, up to `2 ^ 21` points. -/
theorem close_order (h10 : 10 * reso ≤ box) (hN3 : N ≤ 2 ^ 21) {c c' : ℝ × ℝ} (h : Close fl box reso c c') :
    ¬Used box (c.1 - 0.5 * reso, c.2 + 0.5 * reso) ∨ fl (c'.1 - 0.5 * reso) ≤ fl (c'.2 + 0.5 * reso) := by
  have hb : 0 < box := by linarith
  have e1 : |fl (c'.1 - 0.5 * reso) - (c'.1 - 0.5 * reso)| ≤ (2 : ℝ)⁻¹ ^ 24 * |c'.1 - 0.5 * reso| := hf _
  have e2 : |fl (c'.2 + 0.5 * reso) - (c'.2 + 0.5 * reso)| ≤ (2 : ℝ)⁻¹ ^ 24 * |c'.2 + 0.5 * reso| := hf _
  have hu0 : (0 : ℝ) < (2 : ℝ)⁻¹ ^ 24 := by positivity
  have hu2 : (2 : ℝ)⁻¹ ^ 24 ≤ 0.001 := by norm_num
  have hu : 8 * ((2 : ℝ)⁻¹ ^ 24 * box) ≤ reso := by
    have : (N : ℝ) ≤ 2 ^ 21 := by exact_mod_cast hN3
    rw [← hN]
    have h2 : (N : ℝ) * reso ≤ 2 ^ 21 * reso := mul_le_mul_of_nonneg_right this hr.le
    norm_num at h2 ⊢
    linarith
  unfold Close at h
  generalize (2 : ℝ)⁻¹ ^ 24 = ε at *
  have m4 : 0 < ε * box := mul_pos hu0 hb
  have m5 : ε * box ≤ 0.001 * box := mul_le_mul_of_nonneg_right hu2 hb.le
  rcases h with ⟨rfl, rfl⟩ | ⟨p1, p2, p3, p4, d1, d2, o1, o2⟩
  · left
    unfold Used
    dsimp only
    intro h
    linarith [h.1]
  · right
    rw [abs_le] at d1 d2
    have k1 : |c'.1 - 0.5 * reso| ≤ 1.1 * box := by rw [abs_le]; constructor <;> linarith [d1.1, d1.2]
    have f1 := abs_le.1 (e1.trans (mul_le_mul_of_nonneg_left k1 hu0.le))
    rcases o2 with ⟨o2, o3⟩ | o2
    · rw [abs_le] at o3
      have k2 : |c'.2 + 0.5 * reso| ≤ 1.1 * box := by rw [abs_le]; constructor <;> linarith [o3.1, o3.2]
      have f2 := abs_le.1 (e2.trans (mul_le_mul_of_nonneg_left k2 hu0.le))
      linarith [f1.2, f2.1, d1.2, o3.1]
    · have k2 : |c'.2 + 0.5 * reso| ≤ 2 * box := by rw [abs_le]; constructor <;> linarith [d2.1, d2.2]
      have f2 := abs_le.1 (e2.trans (mul_le_mul_of_nonneg_left k2 hu0.le))
      linarith [f1.2, f2.1, d1.2, d2.1]

end

theorem forall₂_map' {α β γ δ : Type} {R : α → β → Prop} {S : γ → δ → Prop} (f : α → γ) (g : β → δ) (hfg : ∀ a b, R a b → S (f a) (g b)) {l : List α}
    {l' : List β} (h : List.Forall₂ R l l') : List.Forall₂ S (l.map f) (l'.map g) := by
  induction h with
  | nil => exact .nil
  | cons h1 _ ih => exact .cons (hfg _ _ h1) ih

/-- A part that is used has its limits in order. -/
def InOrder (box : ℝ) (s' : ℝ × ℝ) : Prop := box / 0.1 ≤ 2 ^ 21 → Used box s' → s'.1 ≤ s'.2

theorem cells_single_order {fl : ℝ → ℝ} (hf : Single fl) {box : ℝ} (h1 : 1 ≤ box) (h2 : box / 0.1 ≤ 2 ^ 23) (line : Line) (parts : List Part)
    (nearby : StdMap ℝ) :
    (∃ e, PartInt.assign_cells box line parts nearby = .error e ∧ CellRounding.assign_cells fl box line parts nearby = .error e) ∨
    ∃ segs segs', PartInt.assign_cells box line parts nearby = .ok segs ∧ CellRounding.assign_cells fl box line parts nearby = .ok segs' ∧
      List.Forall₂ (fun s s' => SameSegment box s s' ∧ InOrder box s') segs segs' := by
  unfold PartInt.assign_cells CellRounding.assign_cells
  cases nearby.mapM (fun it => readAt parts (it.1 : ℤ)) with
  | error e => exact .inl ⟨e, rfl, rfl⟩
  | ok cells =>
    rw [ok_bind, ok_bind]
    cases cells.mapM (fun p => coord p.pos line.axis) with
    | error e => exact .inl ⟨e, rfl, rfl⟩
    | ok posx =>
      rw [ok_bind, ok_bind]
      simp only
      have hfl : (10 : ℤ) ≤ ⌊box / RESO⌋ := by
        rw [Int.le_floor]
        unfold RESO
        rw [le_div_iff₀ (by norm_num)]
        push_cast
        linarith
      have hfl2 : ⌊box / RESO⌋ ≤ (2 ^ 23 : ℤ) := by
        have : ((⌊box / RESO⌋ : ℤ) : ℝ) ≤ ((2 ^ 23 : ℤ) : ℝ) := by
          refine (Int.floor_le _).trans ?_
          unfold RESO
          push_cast
          linarith
        exact_mod_cast this
      have hN10 : 10 ≤ ⌊box / RESO⌋.toNat := by omega
      have hN2 : ⌊box / RESO⌋.toNat ≤ 2 ^ 23 := by
        rw [Int.toNat_le]
        exact_mod_cast hfl2
      have hN3 : box / 0.1 ≤ 2 ^ 21 → ⌊box / RESO⌋.toNat ≤ 2 ^ 21 := by
        intro h3
        have h4 : ⌊box / RESO⌋ ≤ (2 ^ 21 : ℤ) := by
          have : ((⌊box / RESO⌋ : ℤ) : ℝ) ≤ ((2 ^ 21 : ℤ) : ℝ) := by
            refine (Int.floor_le _).trans ?_
            unfold RESO
            push_cast
            linarith
          exact_mod_cast this
        rw [Int.toNat_le]
        exact_mod_cast h4
      generalize ⌊box / RESO⌋.toNat = N at *
      have hN10' : (10 : ℝ) ≤ N := by exact_mod_cast hN10
      have hN : (N : ℝ) * (box / N) = box := by
        have : (N : ℝ) ≠ 0 := by linarith
        field_simp
      have hr : 0 < box / (N : ℝ) := div_pos (by linarith) (by linarith)
      have h10 : 10 * (box / (N : ℝ)) ≤ box := by
        have := mul_le_mul_of_nonneg_right hN10' hr.le
        rw [hN] at this
        exact this
      have hrep : List.replicate cells.length (fl (3 * box), fl (3 * box)) =
          (List.replicate cells.length (3 * box, 3 * box)).map (fun c => (fl c.1, fl c.2)) := by
        rw [List.map_replicate]
      rw [hrep]
      rcases loop_close hf hr hN (by omega) hN2 (fun xp => nearestCell box ((cells.zip posx).map (fun c => cellDist box line c.1.pos c.2 xp))) N 0
        (by omega) (List.replicate cells.length (3 * box, 3 * box)) (fun c hc => .inl (List.eq_of_mem_replicate hc)) with ⟨e, q1, q2⟩ | ⟨r, r', q1, q2, q3⟩
      · left
        rw [q1, q2]
        exact ⟨e, rfl, rfl⟩
      · right
        rw [q1, q2]
        exact ⟨_, _, rfl, rfl, forall₂_map' _ _ (fun a b hab => ⟨close_same hf hr hN (by omega) hN2 h10 hab,
          fun h3 hu => (close_order hf hr hN (by omega) hN2 h10 (hN3 h3) hab).resolve_left
            (not_not.2 ((close_same hf hr hN (by omega) hN2 h10 hab).1.1 hu))⟩) q3⟩

/-- C121: up to `2 ^ 23` points 0.1 apart, 0.8 Gpc, the program stops in single precision if and only if it does in exact arithmetic, and otherwise
every cell has the same part of the sightline up to a two millionth of the box. -/
theorem cells_single_partial {fl : ℝ → ℝ} (hf : Single fl) {box : ℝ} (h1 : 1 ≤ box) (h2 : box / 0.1 ≤ 2 ^ 23) (line : Line) (parts : List Part)
    (nearby : StdMap ℝ) :
    (∃ e, PartInt.assign_cells box line parts nearby = .error e ∧ CellRounding.assign_cells fl box line parts nearby = .error e) ∨
    ∃ segs segs', PartInt.assign_cells box line parts nearby = .ok segs ∧ CellRounding.assign_cells fl box line parts nearby = .ok segs' ∧
      List.Forall₂ (SameSegment box) segs segs' := by
  rcases cells_single_order hf h1 h2 line parts nearby with h | ⟨r, r', q1, q2, q3⟩
  · exact .inl h
  · exact .inr ⟨r, r', q1, q2, q3.imp (fun _ _ h => h.1)⟩

open Classical in
theorem usedLength_same {box : ℝ} {s s' : ℝ × ℝ} (hb : 0 ≤ box) (h : SameSegment box s s') : |usedLength box s' - usedLength box s| ≤ box / 2 ^ 20 := by
  obtain ⟨hu, a, b⟩ := h
  have e : box / 2 ^ 20 = 2 * (box / 2 ^ 21) := by ring
  unfold usedLength
  by_cases h : Used box s
  · rw [if_pos h, if_pos (hu.2 h), e]
    rw [abs_le] at *
    constructor <;> linarith [a.1, a.2, b.1, b.2]
  · rw [if_neg h, if_neg (fun h' => h (hu.1 h')), sub_self, abs_zero]
    positivity

/-- C121: the lengths still add up to the box size, up to a millionth of it per cell. -/
theorem cells_single_total {fl : ℝ → ℝ} (hf : Single fl) {box : ℝ} (h1 : 1 ≤ box) (h2 : box / 0.1 ≤ 2 ^ 23) {line : Line} {parts : List Part}
    {nearby : StdMap ℝ} {segs' : List (ℝ × ℝ)} (h : CellRounding.assign_cells fl box line parts nearby = .ok segs') :
    segs'.length = nearby.length ∧ |(segs'.map (usedLength box)).sum - box| ≤ nearby.length * (box / 2 ^ 20) := by
  rcases cells_single_partial hf h1 h2 line parts nearby with ⟨e, -, q2⟩ | ⟨r, r', q1, q2, q3⟩
  · rw [q2] at h
    cases h
  · rw [q2] at h
    cases h
    obtain ⟨t1, -, t3, -⟩ := segments_tile (by linarith) q1
    refine ⟨by rw [← t1, q3.length_eq], ?_⟩
    rw [← t1]
    suffices hs : |(segs'.map (usedLength box)).sum - (r.map (usedLength box)).sum| ≤ r.length * (box / 2 ^ 20) by rwa [t3] at hs
    clear t1 t3 q1 q2
    induction q3 with
    | nil => simp
    | @cons a b l l' hab _ ih =>
      have := usedLength_same (by linarith) hab
      rw [List.map_cons, List.map_cons, List.sum_cons, List.sum_cons, List.length_cons]
      push_cast
      rw [abs_le] at *
      constructor <;> linarith [ih.1, ih.2, this.1, this.2]

/-! ### Column densities -/

/-- The segments of line `j` as a deposit. -/
noncomputable def meshPre (fl : ℝ → ℝ) (L : LineAbsorption) (nbins : ℕ) (box : ℝ) (lines : List Line) (parts : List Part) (j : ℕ) : CRes (ℕ → ℝ) :=
  match lines[j]? with
  | none => .error .outOfBounds
  | some line => (CellRounding.assign_cells fl box line parts (nearList (build lines box) (posH parts) j)).map
      (fun segs => meshF L nbins parts j line ((nearList (build lines box) (posH parts) j).zip segs))

theorem mesh_step (fl : ℝ → ℝ) (L : LineAbsorption) (hk : L.kernel = VORONOI_MESH) {nbins : ℕ} (hn : 0 < nbins) {box : ℝ} {lines : List Line}
    (hax : ∀ l ∈ lines, l.axis = 1 ∨ l.axis = 2 ∨ l.axis = 3) {parts : List Part}
    {j : ℕ} (hj : j < lines.length) {a : List ℝ} (ha : a.length = lines.length * nbins) :
    (do
      let nearby ← readAt ((List.range lines.length).map (nearList (build lines box) (posH parts))) (j : ℤ)
      let line ← readAt lines (j : ℤ)
      let entries ← CellRounding.lineEntries fl L.kernel box line parts nearby
      coldenLine L nbins parts j line entries a) =
    (meshPre fl L nbins box lines parts j).map (fun g => arrAdd a g) := by
  obtain ⟨line, hline⟩ : ∃ line, lines[j]? = some line := ⟨lines[j], List.getElem?_eq_getElem hj⟩
  have h1 : readAt ((List.range lines.length).map (nearList (build lines box) (posH parts))) (j : ℤ) =
      .ok (nearList (build lines box) (posH parts) j) := by
    apply readAt_eq
    rw [List.getElem?_map, List.getElem?_range hj]; rfl
  rw [h1, ok_bind, readAt_eq hline, ok_bind]
  simp only [meshPre, hline]
  unfold CellRounding.lineEntries
  rw [if_pos hk]
  cases hs : CellRounding.assign_cells fl box line parts (nearList (build lines box) (posH parts) j) with
  | error e => rfl
  | ok segs =>
    rw [ok_bind, ok_bind]
    change coldenLine L nbins parts j line _ a = .ok (arrAdd a _)
    unfold coldenLine
    rw [foldlM_arrAdd _ (fun e m => (parts[e.1.1]?).elim 0 (fun p => coldenF L (j * nbins) nbins e.2.1
      p.dens (along p.pos line.axis) e.2.2 m)) (lines.length * nbins)]
    · rfl
    · intro e he b hb
      obtain ⟨p, hp, -⟩ := nearList_mem (List.of_mem_zip he).1
      rw [readAt_eq hp, ok_bind, coord_eq (hax line (List.mem_of_getElem? hline)), ok_bind, if_pos hk, hp]
      exact add_colden_eq L hn (by rw [hb]; exact slice_le hj) _ _ _ _
    · exact ha

theorem unused_slice (L : LineAbsorption) (hk : L.kernel = VORONOI_MESH) {box : ℝ} (hLb : L.vbox / L.velfac = box) (nbins off : ℕ) (dens pos : ℝ)
    {seg : ℝ × ℝ} (hu : ¬Used box seg) :
    ∑ j ∈ Finset.range nbins, coldenF L off nbins seg.1 dens pos seg.2 (off + j) = dens * usedLength box seg := by
  have : L.kernel = VORONOI_MESH ∧ (seg.1 > 2 * L.vbox / L.velfac ∨ seg.2 > 2 * L.vbox / L.velfac) := by
    refine ⟨hk, ?_⟩
    unfold Used at hu
    rw [mul_div_assoc, hLb]
    rw [not_and_or, not_le, not_le] at hu
    exact hu
  unfold usedLength coldenF
  rw [if_neg hu, mul_zero]
  apply Finset.sum_eq_zero
  intro j _
  rw [if_pos this]

/-- The column density of a sightline in terms of the stored limits. -/
theorem column_stored {fl : ℝ → ℝ} (hf : Single fl) (L : LineAbsorption) (hL : GoodAbs L) (hk : L.kernel = VORONOI_MESH) {nbins : ℕ}
    (hn : 0 < nbins) {box : ℝ} (h1 : 1 ≤ box) (h2 : box / 0.1 ≤ 2 ^ 21) (hLb : L.vbox / L.velfac = box) {lines : List Line}
    (hax : ∀ l ∈ lines, l.axis = 1 ∨ l.axis = 2 ∨ l.axis = 3) {parts : List Part} {r : List ℝ}
    (h : CellRounding.compute_colden fl L nbins box lines parts (List.replicate (lines.length * nbins) 0) = .ok r)
    {i : ℕ} {l : Line} (hi : lines[i]? = some l) :
    ∃ segs, CellRounding.assign_cells fl box l parts (nearList (build lines box) (posH parts) i) = .ok segs ∧
      (lineSpectrum r nbins i).sum = (((nearList (build lines box) (posH parts) i).zip segs).map (fun e =>
        (parts[e.1.1]?).elim 0 Part.dens * usedLength box e.2)).sum := by
  have hil : i < lines.length := by
    by_contra hc; rw [List.getElem?_eq_none (by omega)] at hi; cases hi
  unfold CellRounding.compute_colden at h
  simp only at h
  rw [near_particles_nearList, List.length_map, List.length_range] at h
  obtain ⟨G, hG, hr⟩ := foldlM_pre _ (meshPre fl L nbins box lines parts) (lines.length * nbins) _ (by
    intro j hj a ha
    rw [List.mem_range] at hj
    exact mesh_step fl L hk hn hax hj ha) _ _ (by simp) h
  have hpre : ∀ j (line : Line), lines[j]? = some line → ∃ segs,
      CellRounding.assign_cells fl box line parts (nearList (build lines box) (posH parts) j) = .ok segs ∧
      G j = meshF L nbins parts j line ((nearList (build lines box) (posH parts) j).zip segs) := by
    intro j line hline
    have hjl : j < lines.length := by
      by_contra hc; rw [List.getElem?_eq_none (by omega)] at hline; cases hline
    have := hG j (by simpa using hjl)
    simp only [meshPre, hline] at this
    cases hs : CellRounding.assign_cells fl box line parts (nearList (build lines box) (posH parts) j) with
    | error e => rw [hs] at this; cases this
    | ok segs =>
      rw [hs] at this
      exact ⟨segs, rfl, (Except.ok.inj this).symm⟩
  obtain ⟨segs, hsegs, hGi⟩ := hpre i l hi
  have hord : ∀ s ∈ segs, Used box s → s.1 ≤ s.2 := by
    rcases cells_single_order hf h1 (h2.trans (by norm_num)) l parts (nearList (build lines box) (posH parts) i) with ⟨e, -, q2⟩ | ⟨q, q', q1, q2, q3⟩
    · rw [q2] at hsegs
      cases hsegs
    · rw [q2] at hsegs
      cases hsegs
      clear q1 q2 hGi
      induction q3 with
      | nil => simp
      | cons hab _ ih =>
        intro s hs
        rcases List.mem_cons.1 hs with rfl | hs
        · exact hab.2 h2
        · exact ih s hs
  have hsum_slice : (lineSpectrum r nbins i).sum = ∑ j ∈ Finset.range nbins, G i (i * nbins + j) := by
    rw [hr, lineSpectrum_arrAdd hil, arrAdd_sum]
    simp only [List.sum_replicate, smul_zero, zero_add, List.length_replicate]
    apply Finset.sum_congr rfl
    intro j hj
    rw [Finset.mem_range] at hj
    apply list_sum_single hil
    intro k hkl hne
    obtain ⟨segs', -, hGk⟩ := hpre k lines[k] (List.getElem?_eq_getElem hkl)
    rw [hGk]
    unfold meshF
    apply List.sum_eq_zero
    intro x hx
    obtain ⟨e, -, rfl⟩ := List.mem_map.1 hx
    cases parts[e.1.1]? with
    | none => rfl
    | some p =>
      apply coldenF_outside L hn
      rcases lt_or_gt_of_ne hne with h | h
      · right
        have : (k + 1) * nbins ≤ i * nbins := Nat.mul_le_mul_right _ h
        rw [add_mul, one_mul] at this
        omega
      · left
        have : (i + 1) * nbins ≤ k * nbins := Nat.mul_le_mul_right _ h
        rw [add_mul, one_mul] at this
        omega
  refine ⟨segs, hsegs, ?_⟩
  rw [hsum_slice, hGi]
  unfold meshF
  rw [list_sum_finset_comm]
  congr 1
  apply List.map_congr_left
  intro e he
  obtain ⟨p, hp, -⟩ := nearList_mem (List.of_mem_zip he).1
  simp only [hp, Option.elim_some]
  by_cases hu : Used box e.2
  · exact coldenF_slice_sum L hL hk hLb hn _ _ _ (hord _ (List.of_mem_zip he).2 hu)
  · exact unused_slice L hk hLb nbins _ _ _ hu

theorem foldlM_both {β : Type} (n : ℕ) (f f' : List ℝ → β → CRes (List ℝ)) (pre pre' : β → CRes (ℕ → ℝ)) (l : List β)
    (h : ∀ x ∈ l, ∀ a : List ℝ, a.length = n → f a x = (pre x).map (fun g => arrAdd a g))
    (h' : ∀ x ∈ l, ∀ a : List ℝ, a.length = n → f' a x = (pre' x).map (fun g => arrAdd a g))
    (hp : ∀ x ∈ l, (∃ e, pre x = .error e ∧ pre' x = .error e) ∨ ∃ g g', pre x = .ok g ∧ pre' x = .ok g')
    (a a' : List ℝ) (ha : a.length = n) (ha' : a'.length = n) :
    (∃ e, l.foldlM f a = .error e ∧ l.foldlM f' a' = .error e) ∨ ∃ r r', l.foldlM f a = .ok r ∧ l.foldlM f' a' = .ok r' := by
  induction l generalizing a a' with
  | nil => exact .inr ⟨a, a', rfl, rfl⟩
  | cons x l ih =>
    rw [List.foldlM_cons, List.foldlM_cons, h x (by simp) a ha, h' x (by simp) a' ha']
    rcases hp x (by simp) with ⟨e, q1, q2⟩ | ⟨g, g', q1, q2⟩
    · rw [q1, q2]
      exact .inl ⟨e, rfl, rfl⟩
    · rw [q1, q2]
      exact ih (fun y hy => h y (by simp [hy])) (fun y hy => h' y (by simp [hy])) (fun y hy => hp y (by simp [hy])) (arrAdd a g) (arrAdd a' g')
        (by simpa) (by simpa)

theorem weighted_close {box : ℝ} (hb : 0 ≤ box) (near : StdMap ℝ) {segs segs' : List (ℝ × ℝ)} (hq : List.Forall₂ (SameSegment box) segs segs')
    (hl : segs.length = near.length) (w : ℕ → ℝ) (hw : ∀ e ∈ near, 0 ≤ w e.1) :
    |((near.zip segs').map (fun e => w e.1.1 * usedLength box e.2)).sum - ((near.zip segs).map (fun e => w e.1.1 * usedLength box e.2)).sum| ≤
      box / 2 ^ 20 * (near.map (fun e => w e.1)).sum := by
  induction hq generalizing near with
  | nil =>
    cases near with
    | nil => simp
    | cons x l => simp at hl
  | @cons a b l l' hab _ ih =>
    cases near with
    | nil => simp at hl
    | cons x near =>
      have h1 := usedLength_same hb hab
      have h0 := hw x (by simp)
      have h2 := ih near (by simpa using hl) (fun e he => hw e (by simp [he]))
      simp only [List.zip_cons_cons, List.map_cons, List.sum_cons]
      rw [abs_le] at *
      have m1 := mul_le_mul_of_nonneg_left h1.1 h0
      have m2 := mul_le_mul_of_nonneg_left h1.2 h0
      constructor <;> linarith [h2.1, h2.2]

/-- C121: up to `2 ^ 21` points, 0.2 Gpc, column densities through a mesh are computed in single precision if and only if they are in exact
arithmetic, and then the total of every sightline is right up to a millionth of the box times the densities of the cells near it. -/
theorem column_single_partial {fl : ℝ → ℝ} (hf : Single fl) (L : LineAbsorption) (hL : GoodAbs L) (hk : L.kernel = VORONOI_MESH) {nbins : ℕ}
    (hn : 0 < nbins) {box : ℝ} (h1 : 1 ≤ box) (h2 : box / 0.1 ≤ 2 ^ 21) (hLb : L.vbox / L.velfac = box) {lines : List Line}
    (hax : ∀ l ∈ lines, l.axis = 1 ∨ l.axis = 2 ∨ l.axis = 3) {parts : List Part} (hd : ∀ p ∈ parts, 0 ≤ p.dens) :
    (∃ e, PartInt.compute_colden L nbins box lines parts (List.replicate (lines.length * nbins) 0) = .error e ∧
      CellRounding.compute_colden fl L nbins box lines parts (List.replicate (lines.length * nbins) 0) = .error e) ∨
    ∃ r r', PartInt.compute_colden L nbins box lines parts (List.replicate (lines.length * nbins) 0) = .ok r ∧
      CellRounding.compute_colden fl L nbins box lines parts (List.replicate (lines.length * nbins) 0) = .ok r' ∧
      ∀ (i : ℕ) (near : StdMap ℝ), (get_near_particles (build lines box) (posH parts))[i]? = some near →
        |(lineSpectrum r' nbins i).sum - (lineSpectrum r nbins i).sum| ≤
          box / 2 ^ 20 * (near.map (fun e => (parts[e.1]?).elim 0 Part.dens)).sum := by
  have h23 : box / 0.1 ≤ 2 ^ 23 := h2.trans (by norm_num)
  have hboth := foldlM_both (lines.length * nbins) (fun (out : List ℝ) (i : ℕ) => do
      let nearby ← readAt ((List.range lines.length).map (nearList (build lines box) (posH parts))) i
      let line ← readAt lines i
      let entries ← PartInt.lineEntries L.kernel box line parts nearby
      coldenLine L nbins parts i line entries out)
    (fun (out : List ℝ) (i : ℕ) => do
      let nearby ← readAt ((List.range lines.length).map (nearList (build lines box) (posH parts))) i
      let line ← readAt lines i
      let entries ← CellRounding.lineEntries fl L.kernel box line parts nearby
      coldenLine L nbins parts i line entries out)
    (Verif.Props.meshPre L nbins box lines parts) (meshPre fl L nbins box lines parts) (List.range lines.length)
    (fun j hj a ha => Verif.Props.mesh_step L hk hn hax (List.mem_range.1 hj) ha) (fun j hj a ha => mesh_step fl L hk hn hax (List.mem_range.1 hj) ha) (by
      intro j hj
      rw [List.mem_range] at hj
      have hline : lines[j]? = some lines[j] := List.getElem?_eq_getElem hj
      simp only [Verif.Props.meshPre, meshPre, hline]
      rcases cells_single_order hf h1 h23 lines[j] parts (nearList (build lines box) (posH parts) j) with ⟨e, q1, q2⟩ | ⟨q, q', q1, q2, -⟩
      · rw [q1, q2]
        exact .inl ⟨e, rfl, rfl⟩
      · rw [q1, q2]
        exact .inr ⟨_, _, rfl, rfl⟩)
    (List.replicate (lines.length * nbins) 0) (List.replicate (lines.length * nbins) 0) (by simp) (by simp)
  have u1 : ∀ out, PartInt.compute_colden L nbins box lines parts out = (List.range lines.length).foldlM (fun (out : List ℝ) (i : ℕ) => do
      let nearby ← readAt ((List.range lines.length).map (nearList (build lines box) (posH parts))) i
      let line ← readAt lines i
      let entries ← PartInt.lineEntries L.kernel box line parts nearby
      coldenLine L nbins parts i line entries out) out := by
    intro out
    unfold PartInt.compute_colden overLines
    simp only
    rw [near_particles_nearList, List.length_map, List.length_range]
  have u2 : ∀ out, CellRounding.compute_colden fl L nbins box lines parts out = (List.range lines.length).foldlM (fun (out : List ℝ) (i : ℕ) => do
      let nearby ← readAt ((List.range lines.length).map (nearList (build lines box) (posH parts))) i
      let line ← readAt lines i
      let entries ← CellRounding.lineEntries fl L.kernel box line parts nearby
      coldenLine L nbins parts i line entries out) out := by
    intro out
    unfold CellRounding.compute_colden
    simp only
    rw [near_particles_nearList, List.length_map, List.length_range]
  rw [← u1, ← u2] at hboth
  rcases hboth with h | ⟨r, r', e1, e2⟩
  · exact .inl h
  · refine .inr ⟨r, r', e1, e2, ?_⟩
    intro i near hnear
    rw [near_particles_nearList, List.getElem?_map] at hnear
    have hil : i < lines.length := by
      by_contra hc
      rw [List.getElem?_eq_none (by simpa using hc)] at hnear
      cases hnear
    rw [List.getElem?_range hil] at hnear
    have hline : lines[i]? = some lines[i] := List.getElem?_eq_getElem hil
    obtain ⟨near2, segs, n1, n2, n3⟩ := mesh_column_segments L hL hk hn (by linarith) hLb hax e1 hline
    rw [near_particles_nearList, List.getElem?_map, List.getElem?_range hil] at n1
    cases hnear
    cases n1
    obtain ⟨segs', n4, n5⟩ := column_stored hf L hL hk hn h1 h2 hLb hax e2 hline
    rcases cells_single_partial hf h1 h23 lines[i] parts (nearList (build lines box) (posH parts) i) with ⟨e, q1, -⟩ | ⟨q, q', q1, q2, q3⟩
    · rw [n2] at q1
      cases q1
    rw [n2] at q1
    rw [n4] at q2
    cases q1
    cases q2
    rw [n3, n5]
    refine weighted_close (by linarith) _ q3 (segments_tile (by linarith) n2).1 (fun k => (parts[k]?).elim 0 Part.dens) ?_
    intro e _
    cases hp : parts[e.1]? with
    | none => exact le_rfl
    | some p => exact hd p (List.mem_of_getElem? hp)

/-- Exact limits are those of the model without rounding. -/
theorem exact_limits (box : ℝ) (line : Line) (parts : List Part) (nearby : StdMap ℝ) :
    CellRounding.assign_cells id box line parts nearby = PartInt.assign_cells box line parts nearby := by
  have h1 : ∀ reso sel n i arr, CellRounding.assignLoop id box reso sel n i arr = PartInt.assignLoop box reso sel n i arr := by
    intro reso sel n
    induction n with
    | zero => intros; rfl
    | succ n ih =>
      intro i arr
      rw [CellRounding.assignLoop, PartInt.assignLoop]
      simp only [ih]
      rfl
  unfold CellRounding.assign_cells PartInt.assign_cells
  simp only [h1]
  rfl

/-! ### Large boxes -/

/-- In single precision nothing is returned for a sightline of a single cell, if between some point and the next, in the first half of the box, the
stored limit is more than half a step too small. -/
theorem one_cell_stops {fl : ℝ → ℝ} {box reso : ℝ} (sel : ℝ → ℕ) (hs : ∀ x, sel x = 0) {j : ℕ}
    (hj : ((j : ℝ) + 1.5) * reso ≤ box / 2 + 0.5 * reso) (hr : 0 < reso) (hlow : fl (((j : ℝ) + 0.5) * reso) < ((j : ℝ) + 0.5) * reso - 0.5 * reso) (n i : ℕ)
    (hi : i ≤ j) (hn : j + 1 < i + n) (c : ℝ × ℝ) (r : List (ℝ × ℝ)) : CellRounding.assignLoop fl box reso sel n i [c] ≠ .ok r := by
  induction n generalizing i c with
  | zero => omega
  | succ n ih =>
    have hij : (i : ℝ) ≤ j := by exact_mod_cast hi
    have hle : ((i : ℝ) + 0.5) * reso ≤ ((j : ℝ) + 1.5) * reso := mul_le_mul_of_nonneg_right (by linarith) hr.le
    rw [CellRounding.assignLoop]
    unfold CellRounding.cellStep
    simp only [hs, List.getElem?_cons_zero, List.set_cons_zero]
    rw [if_neg (fun h => by linarith [h.2])]
    by_cases c2 : ((i : ℝ) + 0.5) * reso > 1.5 * reso + c.2
    · rw [if_pos c2]
      exact fun h => by cases h
    rw [if_neg c2]
    simp only
    rcases Nat.lt_or_ge i j with h | h
    · exact ih (i + 1) h (by omega) _
    · have hij : i = j := by omega
      subst hij
      obtain ⟨m, rfl⟩ : ∃ m, n = m + 1 := ⟨n - 1, by omega⟩
      rw [CellRounding.assignLoop]
      unfold CellRounding.cellStep
      simp only [hs, List.getElem?_cons_zero, List.set_cons_zero]
      have e : (((i + 1 : ℕ) : ℝ) + 0.5) * reso = ((i : ℝ) + 1.5) * reso := by push_cast; ring
      rw [e, if_neg (fun h => by linarith [h.2]), if_pos (by linarith)]
      exact fun h => by cases h

/-- The exact loop over a single cell ends. -/
theorem one_cell_ok {box reso : ℝ} (hr : 0 < reso) (sel : ℝ → ℕ) (hs : ∀ x, sel x = 0) (n i : ℕ) {c : ℝ × ℝ}
    (hc : ((i : ℝ) + 0.5) * reso ≤ 1.5 * reso + c.2) : ∃ r, PartInt.assignLoop box reso sel n i [c] = .ok r := by
  induction n generalizing i c with
  | zero => exact ⟨_, rfl⟩
  | succ n ih =>
    rw [PartInt.assignLoop]
    unfold PartInt.cellStep
    simp only [hs, List.getElem?_cons_zero, List.set_cons_zero]
    split_ifs with h1 h2
    · exact ⟨_, rfl⟩
    · exact absurd h2 (not_lt.2 hc)
    all_goals
      refine ih (i + 1) ?_
      push_cast
      linarith

/-- The stored limit of point 20971523 is 0.1 too small. -/
theorem far_point : roundTo 24 ((((20971523 : ℕ) : ℝ) + 0.5) * 0.1) = 2097152.25 := by
  have hx : (((20971523 : ℕ) : ℝ) + 0.5) * 0.1 = 2097152.35 := by norm_num
  rw [hx]
  have hlog : Int.log 2 |(2097152.35 : ℝ)| = 21 := by
    rw [abs_of_pos (by norm_num)]
    have h1 : (2 : ℝ) ^ (21 : ℤ) ≤ 2097152.35 := by norm_num
    have h2 : (2097152.35 : ℝ) < (2 : ℝ) ^ ((21 : ℤ) + 1) := by norm_num
    have := (Int.zpow_le_iff_le_log (b := 2) (r := (2097152.35 : ℝ)) (x := 21) (by norm_num) (by norm_num)).1 (by exact_mod_cast h1)
    have := (Int.lt_zpow_iff_log_lt (b := 2) (r := (2097152.35 : ℝ)) (x := 21 + 1) (by norm_num) (by norm_num)).1 (by exact_mod_cast h2)
    omega
  unfold roundTo
  rw [hlog]
  have : round ((2097152.35 : ℝ) * (2 : ℝ) ^ (((24 : ℕ) : ℤ) - 1 - 21)) = 8388609 := by
    rw [round_eq_iff]
    norm_num
  rw [this]
  norm_num

theorem roundTo_single : Single (roundTo 24) := fun x => roundTo_faithful .single x

/-- C121 is false of large boxes: in one of 6.7 Gpc, with a single cell, the program stops, and would not in exact arithmetic. -/
theorem large_box_stops (p : Part) (r : List (ℝ × ℝ)) :
    (∃ segs, PartInt.assign_cells (2 ^ 26 * 0.1) meshLine [p] [(0, 0)] = .ok segs) ∧
    CellRounding.assign_cells (roundTo 24) (2 ^ 26 * 0.1) meshLine [p] [(0, 0)] ≠ .ok r := by
  have hN : ⌊(2 ^ 26 * 0.1 : ℝ) / RESO⌋.toNat = 2 ^ 26 := by
    have : (2 ^ 26 * 0.1 : ℝ) / RESO = ((2 ^ 26 : ℤ) : ℝ) := by
      unfold RESO
      push_cast
      norm_num
    rw [this, Int.floor_intCast]
    rfl
  have hreso : (2 ^ 26 * 0.1 : ℝ) / ((2 ^ 26 : ℕ) : ℝ) = 0.1 := by
    push_cast
    norm_num
  have r1 : List.mapM (fun it : ℕ × ℝ => readAt [p] (it.1 : ℤ)) [(0, 0)] = .ok [p] := rfl
  have r2 : List.mapM (fun p : Part => coord p.pos meshLine.axis) [p] = .ok [p.pos 0] := rfl
  have hsel : ∀ x, nearestCell (2 ^ 26 * 0.1) (([p].zip [p.pos 0]).map (fun c => cellDist (2 ^ 26 * 0.1) meshLine c.1.pos c.2 x)) = 0 := by
    intro x
    simp only [List.zip_cons_cons, List.zip_nil_left, List.map_cons, List.map_nil, nearestCell, List.foldl_cons, List.foldl_nil, nearestStep]
    split <;> rfl
  constructor
  · unfold PartInt.assign_cells
    rw [r1, ok_bind, r2, ok_bind]
    simp only [hN, hreso]
    obtain ⟨q, hq⟩ := one_cell_ok (box := 2 ^ 26 * 0.1) (reso := 0.1) (by norm_num) _ hsel (2 ^ 26) 0 (c := (3 * (2 ^ 26 * 0.1), 3 * (2 ^ 26 * 0.1)))
      (by norm_num)
    have hrep : List.replicate [p].length ((3 * (2 ^ 26 * 0.1) : ℝ), (3 * (2 ^ 26 * 0.1) : ℝ)) = [(3 * (2 ^ 26 * 0.1), 3 * (2 ^ 26 * 0.1))] := rfl
    rw [hrep, hq]
    exact ⟨_, rfl⟩
  · unfold CellRounding.assign_cells
    rw [r1, ok_bind, r2, ok_bind]
    simp only [hN, hreso]
    intro h
    have hrep : ∀ c : ℝ × ℝ, List.replicate [p].length c = [c] := fun _ => rfl
    rw [hrep] at h
    have key := one_cell_stops (fl := roundTo 24) (box := 2 ^ 26 * 0.1) (reso := 0.1) _ hsel (j := 20971523) (by norm_num) (by norm_num)
      (by rw [far_point]; norm_num) (2 ^ 26) 0 (by norm_num) (by norm_num) (roundTo 24 (3 * (2 ^ 26 * 0.1)), roundTo 24 (3 * (2 ^ 26 * 0.1)))
    cases hq : CellRounding.assignLoop (roundTo 24) (2 ^ 26 * 0.1) 0.1
        (fun x => nearestCell (2 ^ 26 * 0.1) (([p].zip [p.pos 0]).map (fun c => cellDist (2 ^ 26 * 0.1) meshLine c.1.pos c.2 x))) (2 ^ 26) 0
        [(roundTo 24 (3 * (2 ^ 26 * 0.1)), roundTo 24 (3 * (2 ^ 26 * 0.1)))] with
    | error e =>
      rw [hq] at h
      cases h
    | ok q => exact key q hq

/-! ### Cases -/

/-- Two cells in a box of 1 kpc. -/
example : ∃ segs', CellRounding.assign_cells (roundTo 24) 1 meshLine [meshCell 0.25 0, meshCell 0.75 0] [(0, 0), (1, 0)] = .ok segs' ∧
    List.Forall₂ (SameSegment 1) [(0, 0.5), (0.5, 1)] segs' ∧ |(segs'.map (usedLength 1)).sum - 1| ≤ 2 * (1 / 2 ^ 20) := by
  rcases cells_single_partial roundTo_single (box := 1) le_rfl (by norm_num) meshLine [meshCell 0.25 0, meshCell 0.75 0] [(0, 0), (1, 0)] with
    ⟨e, q1, -⟩ | ⟨r, r', q1, q2, q3⟩
  · rw [assign_equal] at q1
    cases q1
  · rw [assign_equal] at q1
    cases q1
    exact ⟨r', q2, q3, (cells_single_total roundTo_single (box := 1) le_rfl (by norm_num) q2).2⟩

/-- The column density through two cells of unit density is the size of the box, up to two millionths. -/
example : ∃ r', CellRounding.compute_colden (roundTo 24) meshAbs 4 1 [meshLine] [meshCell 0.25 0, meshCell 0.75 0] (List.replicate 4 0) = .ok r' ∧
    |(lineSpectrum r' 4 0).sum - 1| ≤ 2 / 2 ^ 20 := by
  obtain ⟨r, hr, hs⟩ := mesh_column_witness
  have hn := mesh_near_two (x0 := 0.25) (d0 := 0) (x1 := 0.75) (d1 := 0) (by norm_num) (by norm_num)
      (by norm_num) (by norm_num) (by norm_num) (by norm_num) (by norm_num) (by norm_num)
  rcases column_single_partial roundTo_single meshAbs
    ⟨by norm_num [meshAbs], by norm_num [meshAbs], by norm_num [meshAbs], by norm_num [meshAbs]⟩ rfl (nbins := 4)
    (by norm_num) (box := 1) le_rfl (by norm_num) (by norm_num [meshAbs]) (lines := [meshLine]) (by simp [meshLine])
    (parts := [meshCell 0.25 0, meshCell 0.75 0]) (by
      intro p hp
      rcases List.mem_pair.1 hp with rfl | rfl <;> norm_num [meshCell]) with ⟨e, q1, -⟩ | ⟨q, r', q1, q2, q3⟩
  · have q1 : PartInt.compute_colden meshAbs 4 1 [meshLine] [meshCell 0.25 0, meshCell 0.75 0] (List.replicate (1 * 4) 0) = .error e := q1
    rw [hr] at q1
    cases q1
  · have q1 : PartInt.compute_colden meshAbs 4 1 [meshLine] [meshCell 0.25 0, meshCell 0.75 0] (List.replicate (1 * 4) 0) = .ok q := q1
    rw [hr] at q1
    cases q1
    refine ⟨r', q2, ?_⟩
    have := q3 0 [(0, 0 ^ 2), (1, 0 ^ 2)] (by rw [hn]; rfl)
    rw [hs] at this
    refine this.trans (le_of_eq ?_)
    norm_num [meshCell]

end Verif.Props.CellRounding
