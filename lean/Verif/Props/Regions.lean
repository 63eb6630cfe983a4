import Verif.Model.HaloAssigned
import Verif.Lemmas.Numpy

/-!
C28: contiguous regions.
-/

namespace Verif.Props
open Verif Verif.Np Verif.HaloAssigned

/-- The English property: `regs` are the maximal runs of pixels with the condition, in order. -/
structure MaximalRuns (c : List Bool) (regs : List (ℕ × ℕ)) : Prop where
  /-- every region is a non-empty range of pixels with the condition … -/
  inside : ∀ r ∈ regs, r.1 < r.2 ∧ r.2 ≤ c.length ∧ ∀ i, r.1 ≤ i → i < r.2 → c[i]? = some true
  /-- … which cannot be made larger on the left … -/
  left : ∀ r ∈ regs, r.1 = 0 ∨ c[r.1 - 1]? = some false
  /-- … or on the right … -/
  right : ∀ r ∈ regs, r.2 = c.length ∨ c[r.2]? = some false
  /-- … they are disjoint and increasing … -/
  ordered : regs.Pairwise (fun a b => a.2 < b.1)
  /-- … and contain all pixels with the condition. -/
  all : ∀ i, c[i]? = some true → ∃ r ∈ regs, r.1 ≤ i ∧ i < r.2

/-- The changes of `condition`, with those at both ends. -/
def idxFrom (k : ℕ) (prev : Bool) : List Bool → List ℕ
  | [] => if prev then [k] else []
  | b :: cs => if b != prev then k :: idxFrom (k + 1) b cs else idxFrom (k + 1) b cs

/-- The runs from pixel `lo` on. -/
structure RunsFrom (c : List Bool) (lo : ℕ) (regs : List (ℕ × ℕ)) : Prop where
  inside : ∀ r ∈ regs, lo ≤ r.1 ∧ r.1 < r.2 ∧ r.2 ≤ c.length ∧ ∀ i, r.1 ≤ i → i < r.2 → c[i]? = some true
  left : ∀ r ∈ regs, r.1 = lo ∨ c[r.1 - 1]? = some false
  right : ∀ r ∈ regs, r.2 = c.length ∨ c[r.2]? = some false
  ordered : regs.Pairwise (fun a b => a.2 < b.1)
  all : ∀ i, lo ≤ i → c[i]? = some true → ∃ r ∈ regs, r.1 ≤ i ∧ i < r.2

theorem runs_aux (c : List Bool) : ∀ (n k : ℕ), k + n = c.length →
    (∃ regs, inPairs (idxFrom k false (c.drop k)) = .ok regs ∧ RunsFrom c k regs) ∧
    (∃ e idx regs, idxFrom k true (c.drop k) = e :: idx ∧ k ≤ e ∧ e ≤ c.length ∧
      (∀ i, k ≤ i → i < e → c[i]? = some true) ∧ (e = c.length ∨ c[e]? = some false) ∧
      inPairs idx = .ok regs ∧ RunsFrom c e regs ∧ ∀ r ∈ regs, e < r.1) := by
  intro n
  induction n with
  | zero =>
    intro k hk
    have hd : c.drop k = [] := List.drop_eq_nil_of_le (by omega)
    have hnone : ∀ i, k ≤ i → c[i]? ≠ some true := by
      intro i hi hc
      rw [List.getElem?_eq_none (by omega)] at hc
      cases hc
    rw [hd]
    refine ⟨⟨[], rfl, by simp, by simp, by simp, by simp, fun i hi hc => absurd hc (hnone i hi)⟩,
      ⟨k, [], [], rfl, le_refl _, by omega, by intro i h1 h2; omega, Or.inl (by omega), rfl,
        ⟨by simp, by simp, by simp, by simp, fun i hi hc => absurd hc (hnone i hi)⟩, by simp⟩⟩
  | succ n ih =>
    intro k hk
    have hkl : k < c.length := by omega
    have hd : c.drop k = c[k] :: c.drop (k + 1) := List.drop_eq_getElem_cons hkl
    have hck : c[k]? = some c[k] := List.getElem?_eq_getElem hkl
    obtain ⟨⟨regsF, hF, rF⟩, ⟨e, idx, regsT, hT, he1, he2, he3, he4, hp, rT, hlt⟩⟩ := ih (k + 1) (by omega)
    rw [hd]
    cases hb : c[k] with
    | false =>
      rw [hb] at hck
      have rF' : RunsFrom c k regsF := by
        refine ⟨fun r hr => ⟨by have := (rF.inside r hr).1; omega, (rF.inside r hr).2⟩, ?_, rF.right, rF.ordered, ?_⟩
        · intro r hr
          rcases rF.left r hr with h | h
          · right; rw [h]; simpa using hck
          · exact Or.inr h
        · intro i hi hc
          rcases Nat.eq_or_lt_of_le hi with rfl | hi
          · rw [hck] at hc; cases hc
          · exact rF.all i hi hc
      refine ⟨⟨regsF, ?_, rF'⟩, ⟨k, idxFrom (k + 1) false (c.drop (k + 1)), regsF, ?_, le_refl _, by omega, by intro i h1 h2; omega,
        Or.inr hck, hF, rF', ?_⟩⟩
      · simpa [idxFrom] using hF
      · simp [idxFrom]
      · intro r hr
        have := (rF.inside r hr).1
        omega
    | true =>
      rw [hb] at hck
      have hrun : ∀ i, k ≤ i → i < e → c[i]? = some true := by
        intro i h1 h2
        rcases Nat.eq_or_lt_of_le h1 with rfl | h1
        · exact hck
        · exact he3 i h1 h2
      refine ⟨⟨(k, e) :: regsT, ?_, ?_, ?_, ?_, ?_, ?_⟩, ⟨e, idx, regsT, ?_, by omega, he2, hrun, he4, hp, rT, hlt⟩⟩
      · simp only [idxFrom, Bool.true_bne, Bool.not_false, if_true, hT]
        unfold inPairs
        rw [hp]; rfl
      · intro r hr
        rcases List.mem_cons.1 hr with rfl | hr
        · exact ⟨le_refl _, by simp; omega, he2, hrun⟩
        · have := rT.inside r hr
          exact ⟨by omega, this.2⟩
      · intro r hr
        rcases List.mem_cons.1 hr with rfl | hr
        · exact Or.inl rfl
        · rcases rT.left r hr with h | h
          · have := hlt r hr; omega
          · exact Or.inr h
      · intro r hr
        rcases List.mem_cons.1 hr with rfl | hr
        · exact he4
        · exact rT.right r hr
      · exact List.pairwise_cons.2 ⟨fun r hr => hlt r hr, rT.ordered⟩
      · intro i hi hc
        by_cases hie : i < e
        · exact ⟨(k, e), by simp, hi, hie⟩
        · obtain ⟨r, hr, h⟩ := rT.all i (by omega) hc
          exact ⟨r, by simp [hr], h⟩
      · simpa [idxFrom] using hT

theorem changes_cons (a b : Bool) (cs : List Bool) :
    changes (a :: b :: cs) = (if a != b then [1] else []) ++ (changes (b :: cs)).map (· + 1) := by
  unfold changes
  simp only [List.length_cons, Nat.add_sub_cancel]
  rw [List.range_succ_eq_map, List.filter_cons]
  simp only [List.getD_cons_zero, List.getD_cons_succ, Nat.zero_add]
  rw [List.filter_map]
  by_cases h : a != b
  · simp [h, Function.comp_def]
  · simp [h, Function.comp_def]

theorem idxFrom_shift (cs : List Bool) : ∀ (k : ℕ) (prev : Bool), idxFrom (k + 1) prev cs = (idxFrom k prev cs).map (· + 1) := by
  induction cs with
  | nil => intro k prev; cases prev <;> simp [idxFrom]
  | cons b cs ih =>
    intro k prev
    unfold idxFrom
    rw [ih]
    split <;> simp

theorem idxFrom_eq (b : Bool) (cs : List Bool) :
    idxFrom 1 b cs = changes (b :: cs) ++ (if (b :: cs).getLast (by simp) then [(b :: cs).length] else []) := by
  induction cs generalizing b with
  | nil => cases b <;> simp [idxFrom, changes]
  | cons a cs ih =>
    rw [changes_cons, List.getLast_cons (by simp)]
    unfold idxFrom
    rw [idxFrom_shift, ih]
    have : (a != b) = (b != a) := by cases a <;> cases b <;> rfl
    rw [this]
    by_cases h : b != a
    · by_cases hl : (a :: cs).getLast (by simp) = true <;> simp [h, hl]
    · by_cases hl : (a :: cs).getLast (by simp) = true <;> simp [h, hl]

/-- C28: for every condition on at least one pixel the regions are the maximal runs, in increasing order. -/
theorem contiguous_regions_spec {c : List Bool} (h : c ≠ []) :
    ∃ regs, contiguous_regions c = .ok regs ∧ MaximalRuns c regs := by
  obtain ⟨⟨regs, hr, rr⟩, -⟩ := runs_aux c c.length 0 (by omega)
  refine ⟨regs, ?_, fun r hx => (rr.inside r hx).2, rr.left, rr.right, rr.ordered, fun i hi => rr.all i (Nat.zero_le _) hi⟩
  cases c with
  | nil => exact absurd rfl h
  | cons b cs =>
    have hfirst : get (b :: cs) 0 = .ok b := get_eq (k := 0) (by unfold index; simp) rfl
    have hlast : get (b :: cs) (-1) = .ok ((b :: cs).getLast (by simp)) := by
      refine get_eq (k := cs.length) (by unfold index; simp) ?_
      rw [List.getLast_eq_getElem, List.getElem?_eq_getElem (by simp)]
      simp
    unfold contiguous_regions
    simp only [hfirst, hlast, bind, Except.bind]
    rw [← hr, List.drop_zero]
    congr 1
    have := idxFrom_eq b cs
    cases b with
    | false =>
      simp only [idxFrom, bne_self_eq_false, Nat.zero_add, this]
      split <;> simp
    | true =>
      simp only [idxFrom, Bool.true_bne, Bool.not_false, if_true, Nat.zero_add, this]
      split <;> simp

/-- C28: no pixels raise. -/
theorem contiguous_regions_empty : contiguous_regions [] = .error .indexError := rfl

/-- The maximal runs are determined by the condition. -/
theorem maximalRuns_mem {c : List Bool} {regs : List (ℕ × ℕ)} (h : MaximalRuns c regs) (s e : ℕ) :
    (s, e) ∈ regs ↔ s < e ∧ e ≤ c.length ∧ (∀ i, s ≤ i → i < e → c[i]? = some true) ∧
      (s = 0 ∨ c[s - 1]? = some false) ∧ (e = c.length ∨ c[e]? = some false) := by
  constructor
  · intro hm
    have := h.inside _ hm
    exact ⟨this.1, this.2.1, this.2.2, h.left _ hm, h.right _ hm⟩
  · rintro ⟨h1, h2, h3, h4, h5⟩
    obtain ⟨r, hr, hs1, hs2⟩ := h.all s (h3 s (le_refl _) h1)
    have hi := h.inside r hr
    have e1 : r.1 = s := by
      rcases h4 with h4 | h4
      · omega
      · by_contra hne
        have := hi.2.2 (s - 1) (by omega) (by omega)
        rw [h4] at this; cases this
    have e2 : r.2 = e := by
      rcases Nat.lt_trichotomy r.2 e with hlt | heq | hgt
      · rcases h.right r hr with h6 | h6
        · omega
        · have := h3 r.2 (by omega) hlt
          rw [h6] at this; cases this
      · exact heq
      · rcases h5 with h5 | h5
        · omega
        · have := hi.2.2 e (by omega) hgt
          rw [h5] at this; cases this
    rw [← e1, ← e2]
    exact hr

/-- What `combine_regions` does: regions are joined as long as the gap between them is shorter than `mindist`. -/
structure Combined (c : List Bool) (mindist : ℕ) (regs out : List (ℕ × ℕ)) : Prop where
  /-- every region starts where a run starts and ends where a run ends -/
  ends : ∀ r ∈ out, r.1 < r.2 ∧ (∃ a ∈ regs, a.1 = r.1) ∧ ∃ b ∈ regs, b.2 = r.2
  /-- different regions are at least `mindist` apart -/
  apart : out.Pairwise (fun a b => a.2 + mindist ≤ b.1)
  /-- every run is in a region -/
  all : ∀ a ∈ regs, ∃ r ∈ out, r.1 ≤ a.1 ∧ a.2 ≤ r.2
  /-- pixels of a region without the condition lie in a gap shorter than `mindist` -/
  gaps : ∀ r ∈ out, ∀ i, r.1 ≤ i → i < r.2 → c[i]? = some true ∨
    ∃ a ∈ regs, ∃ b ∈ regs, a.2 ≤ i ∧ i < b.1 ∧ b.1 < a.2 + mindist

theorem combineLoop_spec {c : List Bool} {mindist : ℕ} {all : List (ℕ × ℕ)} :
    ∀ (regs : List (ℕ × ℕ)) (cur : ℕ × ℕ), (∀ r ∈ regs, r ∈ all) →
      (∀ r ∈ regs, r.1 < r.2 ∧ cur.2 < r.1 ∧ ∀ i, r.1 ≤ i → i < r.2 → c[i]? = some true) →
      regs.Pairwise (fun a b => a.2 < b.1) →
      cur.1 < cur.2 → (∃ a ∈ all, a.1 = cur.1) → (∃ b ∈ all, b.2 = cur.2) →
      (∀ i, cur.1 ≤ i → i < cur.2 → c[i]? = some true ∨ ∃ a ∈ all, ∃ b ∈ all, a.2 ≤ i ∧ i < b.1 ∧ b.1 < a.2 + mindist) →
      (∀ r ∈ combineLoop mindist regs cur, cur.1 ≤ r.1 ∧ r.1 < r.2 ∧ (∃ a ∈ all, a.1 = r.1) ∧ (∃ b ∈ all, b.2 = r.2) ∧
        ∀ i, r.1 ≤ i → i < r.2 → c[i]? = some true ∨ ∃ a ∈ all, ∃ b ∈ all, a.2 ≤ i ∧ i < b.1 ∧ b.1 < a.2 + mindist) ∧
      (combineLoop mindist regs cur).Pairwise (fun a b => a.2 + mindist ≤ b.1) ∧
      (∃ r ∈ combineLoop mindist regs cur, r.1 = cur.1 ∧ cur.2 ≤ r.2) ∧
      (∀ a ∈ regs, ∃ r ∈ combineLoop mindist regs cur, r.1 ≤ a.1 ∧ a.2 ≤ r.2) := by
  intro regs
  induction regs with
  | nil =>
    intro cur _ _ _ hc ha hb hg
    refine ⟨?_, by simp [combineLoop], ⟨cur, by simp [combineLoop], rfl, le_refl _⟩, by simp⟩
    intro r hr
    simp only [combineLoop, List.mem_singleton] at hr
    subst hr
    exact ⟨le_refl _, hc, ha, hb, hg⟩
  | cons r regs ih =>
    intro cur hall hrun hpw hc ha hb hg
    have hr := hrun r (by simp)
    obtain ⟨hp1, hp2⟩ := List.pairwise_cons.1 hpw
    unfold combineLoop
    by_cases hlt : (r.1 : ℤ) - cur.2 < mindist
    · rw [if_pos hlt]
      obtain ⟨h1, h2, ⟨x, hx, hx1, hx2⟩, h4⟩ := ih (cur.1, r.2) (fun a ha => hall a (by simp [ha]))
        (fun a ha => ⟨(hrun a (by simp [ha])).1, hp1 a ha, (hrun a (by simp [ha])).2.2⟩) hp2 (by simp; omega) ha
        ⟨r, hall r (by simp), rfl⟩ (by
          intro i h1 h2
          by_cases hi : i < cur.2
          · exact hg i h1 hi
          · by_cases hi2 : r.1 ≤ i
            · exact Or.inl (hr.2.2 i hi2 h2)
            · obtain ⟨b, hb1, hb2⟩ := hb
              exact Or.inr ⟨b, hb1, r, hall r (by simp), by omega, by omega, by omega⟩)
      refine ⟨h1, h2, ⟨x, hx, hx1, ?_⟩, ?_⟩
      · have : r.2 ≤ x.2 := hx2
        omega
      · intro a ha
        rcases List.mem_cons.1 ha with rfl | ha
        · exact ⟨x, hx, by have : x.1 = cur.1 := hx1; omega, hx2⟩
        · exact h4 a ha
    · rw [if_neg hlt]
      obtain ⟨h1, h2, ⟨x, hx, hx1, hx2⟩, h4⟩ := ih r (fun a ha => hall a (by simp [ha]))
        (fun a ha => ⟨(hrun a (by simp [ha])).1, hp1 a ha, (hrun a (by simp [ha])).2.2⟩) hp2 hr.1
        ⟨r, hall r (by simp), rfl⟩ ⟨r, hall r (by simp), rfl⟩ (fun i h1 h2 => Or.inl (hr.2.2 i h1 h2))
      refine ⟨?_, List.pairwise_cons.2 ⟨?_, h2⟩, ⟨cur, by simp, rfl, le_refl _⟩, ?_⟩
      · intro y hy
        rcases List.mem_cons.1 hy with rfl | hy
        · exact ⟨le_refl _, hc, ha, hb, hg⟩
        · have := h1 y hy
          exact ⟨by omega, this.2⟩
      · intro y hy
        have := (h1 y hy).1
        omega
      · intro a ha
        rcases List.mem_cons.1 ha with rfl | ha
        · exact ⟨x, by simp [hx], by omega, hx2⟩
        · obtain ⟨y, hy, h⟩ := h4 a ha
          exact ⟨y, by simp [hy], h⟩

/-- C28: combining regions with a minimum distance. -/
theorem combine_regions_spec {c : List Bool} (h : c ≠ []) (mindist : ℕ) :
    ∃ regs out, MaximalRuns c regs ∧ combine_regions c mindist = .ok out ∧
      (mindist = 0 → out = regs) ∧ (0 < mindist → Combined c mindist regs out) := by
  obtain ⟨regs, hregs, hm⟩ := contiguous_regions_spec h
  by_cases h0 : 0 < mindist
  · refine ⟨regs, ?_⟩
    unfold combine_regions
    simp only [hregs, bind, Except.bind]
    rw [if_pos (by exact_mod_cast h0)]
    cases regs with
    | nil =>
      exact ⟨[], hm, rfl, fun _ => rfl, fun _ => ⟨by simp, by simp, by simp, by simp⟩⟩
    | cons r rest =>
      by_cases hr : rest = []
      · subst hr
        refine ⟨[r], hm, by simp [pure, Except.pure], fun _ => rfl, fun _ => ⟨?_, by simp, ?_, ?_⟩⟩
        · intro x hx; simp only [List.mem_singleton] at hx; subst hx
          exact ⟨(hm.inside x (by simp)).1, ⟨x, by simp, rfl⟩, ⟨x, by simp, rfl⟩⟩
        · intro a ha; exact ⟨a, ha, le_refl _, le_refl _⟩
        · intro x hx i h1 h2
          exact Or.inl ((hm.inside x hx).2.2 i h1 h2)
      · obtain ⟨hp1, hp2⟩ := List.pairwise_cons.1 hm.ordered
        have hr0 := hm.inside r (by simp)
        obtain ⟨h1, h2, ⟨x, hx, hx1, hx2⟩, h4⟩ := combineLoop_spec (c := c) (mindist := mindist) (all := r :: rest) rest r
          (fun a ha => by simp [ha])
          (fun a ha => ⟨(hm.inside a (by simp [ha])).1, hp1 a ha, (hm.inside a (by simp [ha])).2.2⟩) hp2
          hr0.1 ⟨r, by simp, rfl⟩ ⟨r, by simp, rfl⟩ (fun i h1 h2 => Or.inl (hr0.2.2 i h1 h2))
        refine ⟨combineLoop mindist rest r, hm, by simp [hr, pure, Except.pure], fun hz => by omega,
          fun _ => ⟨fun y hy => ⟨(h1 y hy).2.1, (h1 y hy).2.2.1, (h1 y hy).2.2.2.1⟩, h2, ?_, fun y hy => (h1 y hy).2.2.2.2⟩⟩
        intro a ha
        rcases List.mem_cons.1 ha with rfl | ha
        · exact ⟨x, hx, by omega, hx2⟩
        · exact h4 a ha
  · have h0 : mindist = 0 := by omega
    subst h0
    refine ⟨regs, regs, hm, ?_, fun _ => rfl, fun hc => by omega⟩
    unfold combine_regions
    simp only [hregs, bind, Except.bind]
    rfl

/-- A condition with two runs, the second of which reaches the end. -/
example : ∃ c : List Bool, c ≠ [] ∧ contiguous_regions c = .ok [(1, 3), (4, 6)] :=
  ⟨[false, true, true, false, true, true], by simp, rfl⟩

end Verif.Props
