import Verif.Lemmas.PartInt
import Mathlib.Algebra.Order.Archimedean.Real.Basic

/-! The cutting of a sightline into the segments of its cells (`assign_cells`). -/

namespace Verif
namespace PartInt

open Absorption IndexTable

/-- State of cell `k` when the grid points `0..i-1` have the owners `o`. -/
def CellInv (box reso : ℝ) (o : ℕ → ℕ) (i k : ℕ) (c : ℝ × ℝ) : Prop :=
  (c = (3 * box, 3 * box) ∧ ∀ j < i, o j ≠ k) ∨
  ∃ a b : ℕ, a ≤ b ∧ b < i ∧ c = ((a + 0.5) * reso, (b + 0.5) * reso) ∧
    ∀ j < i, o j = k ↔ a ≤ j ∧ j ≤ b

/-- Final state of cell `k` when the `N` grid points have the owners `o`. -/
def CellFin (box reso : ℝ) (o : ℕ → ℕ) (N k : ℕ) (c : ℝ × ℝ) : Prop :=
  CellInv box reso o N k c ∨
  ∃ i b : ℕ, b < i ∧ i < N ∧ c = ((i + 0.5) * reso, (b + 0.5) * reso + box) ∧
    ∀ j < N, o j = k ↔ j ≤ b ∨ i ≤ j

theorem CellInv.congr {box reso : ℝ} {o o' : ℕ → ℕ} {i k : ℕ} {c : ℝ × ℝ}
    (h : CellInv box reso o i k c) (ho : ∀ j < i, o j = o' j) : CellInv box reso o' i k c := by
  rcases h with ⟨h1, h2⟩ | ⟨a, b, h1, h2, h3, h4⟩
  · exact .inl ⟨h1, fun j hj => by rw [← ho j hj]; exact h2 j hj⟩
  · exact .inr ⟨a, b, h1, h2, h3, fun j hj => by rw [← ho j hj]; exact h4 j hj⟩

section
variable {box reso : ℝ} (hr : 0 < reso) {N : ℕ} (hbox : box = N * reso)

include hr hbox

/-- What one pass of the grid loop does, when it does not stop the program. -/
theorem cellStep_ok {o : ℕ → ℕ} {i : ℕ} (hi : i < N) {arr : List (ℝ × ℝ)}
    (hinv : ∀ k c, arr[k]? = some c → CellInv box reso o i k c) {s : CellStep}
    (hs : cellStep box reso arr (o i) ((i + 0.5) * reso) = .ok s) :
    o i < arr.length ∧
    ((∃ arr', s = .next arr' ∧ arr'.length = arr.length ∧
        ∀ k c, arr'[k]? = some c → CellInv box reso o (i + 1) k c) ∨
      ∃ arr', s = .brk arr' ∧ arr'.length = arr.length ∧ o 0 = o i ∧ 0 < i ∧
        (i + 0.5) * reso > box / 2 + 0.5 * reso ∧
        ∀ k c, arr'[k]? = some c →
          CellFin box reso (fun j => if j < i then o j else o i) N k c) := by
  unfold cellStep at hs
  have hNpos : (0 : ℝ) < N := by exact_mod_cast (by omega : 0 < N)
  have hN1 : (1 : ℝ) ≤ N := by exact_mod_cast (by omega : 1 ≤ N)
  cases hc : arr[o i]? with
  | none => rw [hc] at hs; cases hs
  | some c =>
    have hlen : o i < arr.length := by
      by_contra h; rw [List.getElem?_eq_none (by omega)] at hc; cases hc
    refine ⟨hlen, ?_⟩
    rw [hc] at hs
    simp only at hs
    have hcinv := hinv _ _ hc
    have hother : ∀ k c', k ≠ o i → ∀ v, (arr.set (o i) v)[k]? = some c' → arr[k]? = some c' := by
      intro k c' hk v h
      rwa [List.getElem?_set_ne (Ne.symm hk)] at h
    split at hs
    · rename_i hb
      right
      rcases hcinv with ⟨rfl, hno⟩ | ⟨a, b, hab, hbi, rfl, hown⟩
      · exfalso
        have := hb.1
        simp only at this
        nlinarith
      · have ha : a = 0 := by
          have := hb.1
          simp only at this
          have h2 : (a : ℝ) + 0.5 < 1 := by
            by_contra hh; push Not at hh; nlinarith
          have : (a : ℝ) < 1 := by linarith
          exact_mod_cast Nat.lt_one_iff.1 (by exact_mod_cast this)
        subst ha
        refine ⟨_, (Except.ok.inj hs).symm, by simp, (hown 0 (by omega)).2 ⟨le_rfl, by omega⟩, by omega,
          hb.2, ?_⟩
        intro k c' hk
        by_cases hki : k = o i
        · subst hki
          rw [List.getElem?_set_self hlen] at hk
          have : c' = ((i + 0.5) * reso, (b + 0.5) * reso + box) := (Option.some.inj hk).symm
          refine .inr ⟨i, b, hbi, hi, this, ?_⟩
          intro j hj
          by_cases hji : j < i
          · simp only [hji, if_true]
            rw [hown j hji]; omega
          · simp only [hji, if_false]
            constructor
            · intro _; right; omega
            · intro _; trivial
        · have := hinv k c' (hother k c' hki _ hk)
          left
          rcases this with ⟨h1, h2⟩ | ⟨a', b', h1, h2, h3, h4⟩
          · refine .inl ⟨h1, fun j hj => ?_⟩
            simp only
            split
            · rename_i hji; exact h2 j hji
            · exact fun h => hki h.symm
          · refine .inr ⟨a', b', h1, by omega, h3, fun j hj => ?_⟩
            simp only
            split
            · rename_i hji; exact h4 j hji
            · rename_i hji
              constructor
              · intro h; exact absurd h.symm hki
              · intro h; omega
    · split at hs
      · cases hs
      · rename_i hb he
        left
        refine ⟨_, (Except.ok.inj hs).symm, by simp, ?_⟩
        intro k c' hk
        by_cases hki : k = o i
        · subst hki
          rw [List.getElem?_set_self hlen] at hk
          have hc' := (Option.some.inj hk).symm
          right
          rcases hcinv with ⟨rfl, hno⟩ | ⟨a, b, hab, hbi, rfl, hown⟩
          · refine ⟨i, i, le_rfl, by omega, ?_, ?_⟩
            · rw [hc']
              have hb3 : (3 : ℝ) * box > 2 * box := by nlinarith
              simp only [hb3, if_true]
            · intro j hj
              rcases Nat.lt_succ_iff_lt_or_eq.1 hj with h | rfl
              · constructor
                · intro h'; exact absurd h' (hno j h)
                · intro h'; omega
              · simp
          · have hbi' : b = i - 1 := by
              simp only at he
              push Not at he
              have h1 : ((i : ℝ) + 0.5) ≤ 1.5 + (b + 0.5) := by
                by_contra hh; push Not at hh; nlinarith
              have : (i : ℝ) < b + 2 := by linarith
              have : i < b + 2 := by exact_mod_cast this
              omega
            refine ⟨a, i, by omega, by omega, ?_, ?_⟩
            · rw [hc']
              have : ¬ ((a : ℝ) + 0.5) * reso > 2 * box := by
                push Not
                have : (a : ℝ) + 0.5 ≤ N := by
                  have : (a : ℝ) + 1 ≤ N := by exact_mod_cast (by omega : a + 1 ≤ N)
                  linarith
                nlinarith
              simp only [this, if_false]
            · intro j hj
              rcases Nat.lt_succ_iff_lt_or_eq.1 hj with h | rfl
              · rw [hown j h]; omega
              · constructor
                · intro _; omega
                · intro _; trivial
        · rcases hinv k c' (hother k c' hki _ hk) with ⟨h1, h2⟩ | ⟨a, b, h1, h2, h3, h4⟩
          · refine .inl ⟨h1, fun j hj => ?_⟩
            rcases Nat.lt_succ_iff_lt_or_eq.1 hj with h | rfl
            · exact h2 j h
            · exact fun h => hki h.symm
          · refine .inr ⟨a, b, h1, by omega, h3, fun j hj => ?_⟩
            rcases Nat.lt_succ_iff_lt_or_eq.1 hj with h | rfl
            · exact h4 j h
            · constructor
              · intro h; exact absurd h.symm hki
              · intro h; omega

/-- Whatever the choice of cells, a loop that ends normally leaves segments that follow an owner
function; the owners are the chosen cells up to the point where the cell of the first grid point
comes back in the second half of the line, and from there on that cell. -/
theorem assignLoop_ok (sel : ℝ → ℕ) {o : ℕ → ℕ} (ho : ∀ j, o j = sel ((j + 0.5) * reso)) (n i : ℕ)
    (hin : i + n = N) {arr out : List (ℝ × ℝ)}
    (hinv : ∀ k c, arr[k]? = some c → CellInv box reso o i k c)
    (hlt : ∀ j < i, o j < arr.length)
    (h : assignLoop box reso sel n i arr = .ok out) :
    ∃ i0 ≤ N, ∃ o' : ℕ → ℕ, out.length = arr.length ∧ (∀ j < i0, o' j = o j) ∧
      (∀ j, i0 ≤ j → j < N → o' j = o i0) ∧ (∀ j < N, o' j < out.length) ∧
      (i0 < N → o 0 = o i0 ∧ 0 < i0 ∧ (i0 + 0.5) * reso > box / 2 + 0.5 * reso) ∧
      ∀ k c, out[k]? = some c → CellFin box reso o' N k c := by
  induction n generalizing i arr with
  | zero =>
    have : arr = out := Except.ok.inj h
    subst this
    have : i = N := by omega
    subst this
    exact ⟨i, le_rfl, o, rfl, fun _ _ => rfl, fun j h1 h2 => by omega, hlt, fun h => by omega,
      fun k c hk => .inl (hinv k c hk)⟩
  | succ n ih =>
    unfold assignLoop at h
    simp only at h
    rw [← ho i] at h
    cases hs : cellStep box reso arr (o i) ((i + 0.5) * reso) with
    | error e => rw [hs] at h; cases h
    | ok s =>
      rw [hs] at h
      obtain ⟨hl, ⟨arr', rfl, hlen, hinv'⟩ | ⟨arr', rfl, hlen, h0, hi0, hx, hfin⟩⟩ :=
        cellStep_ok hr hbox (by omega) hinv hs
      · simp only at h
        have := ih (i + 1) (by omega) hinv' (fun j hj => by
          rw [hlen]
          rcases Nat.lt_succ_iff_lt_or_eq.1 hj with h | rfl
          · exact hlt j h
          · exact hl) h
        rwa [hlen] at this
      · simp only at h
        have : arr' = out := Except.ok.inj h
        subst this
        refine ⟨i, by omega, _, hlen, ?_, ?_, ?_, fun _ => ⟨h0, hi0, hx⟩, hfin⟩
        · intro j hj; simp only [hj, if_true]
        · intro j hj _; simp only [not_lt.2 hj, if_false]
        · intro j hj
          rw [hlen]
          split
          · rename_i h'; exact hlt j h'
          · exact hl

/-- The grid points of one cell are a contiguous run, or what remains of the line when one is taken
away. -/
def IsArc (N : ℕ) (o : ℕ → ℕ) : Prop :=
  ∀ i j m, i < j → j < m → m < N → o i = o m → o j ≠ o m → ∀ t < N, t ≤ i ∨ m ≤ t → o t = o m

/-- With arcs for cells, and no more than half of the line for the cell of the first grid point, the
loop ends normally and the owners are the chosen cells. -/
theorem assignLoop_arcs (sel : ℝ → ℕ) {o : ℕ → ℕ} (ho : ∀ j, o j = sel ((j + 0.5) * reso))
    (harc : IsArc N o) (hhalf : 2 * ((Finset.range N).filter (fun j => o j = o 0)).card ≤ N) (n i : ℕ)
    (hin : i + n = N) {arr : List (ℝ × ℝ)} (hlt : ∀ j < N, o j < arr.length)
    (hinv : ∀ k c, arr[k]? = some c → CellInv box reso o i k c) :
    ∃ out, assignLoop box reso sel n i arr = .ok out ∧ out.length = arr.length ∧
      ∀ k c, out[k]? = some c → CellFin box reso o N k c := by
  induction n generalizing i arr with
  | zero =>
    have : i = N := by omega
    subst this
    exact ⟨arr, rfl, rfl, fun k c hk => .inl (hinv k c hk)⟩
  | succ n ih =>
    have hi : i < N := by omega
    have hNpos : (0 : ℝ) < N := by exact_mod_cast (by omega : 0 < N)
    unfold assignLoop
    simp only
    rw [← ho i]
    obtain ⟨c, hc⟩ : ∃ c, arr[o i]? = some c := ⟨arr[o i]'(hlt i hi), List.getElem?_eq_getElem _⟩
    -- the program is not stopped
    have hno : cellStep box reso arr (o i) ((i + 0.5) * reso) ≠ .error (.exit 1) ∧
        ∀ arr', cellStep box reso arr (o i) ((i + 0.5) * reso) = .ok (.brk arr') →
          ∀ t < N, i ≤ t → o t = o i := by
      rcases hinv _ _ hc with ⟨rfl, hno⟩ | ⟨a, b, hab, hbi, rfl, hown⟩
      · have h1 : ¬ ((3 * box : ℝ) < reso ∧ ((i : ℝ) + 0.5) * reso > box / 2 + 0.5 * reso) := by
          rintro ⟨h1, -⟩
          have : (1 : ℝ) ≤ N := by exact_mod_cast (by omega : 1 ≤ N)
          nlinarith
        have h2 : ¬ (((i : ℝ) + 0.5) * reso > 1.5 * reso + 3 * box) := by
          push Not
          have : (i : ℝ) + 1 ≤ N := by exact_mod_cast hi
          nlinarith
        have : cellStep box reso arr (o i) ((i + 0.5) * reso) = .ok (.next (arr.set (o i)
            (if (3 * box : ℝ) > 2 * box then (i + 0.5) * reso else 3 * box, (i + 0.5) * reso))) := by
          unfold cellStep
          rw [hc]
          simp only
          rw [if_neg h1, if_neg h2]
        rw [this]
        exact ⟨by simp, fun arr' h => by simp at h⟩
      · by_cases hgap : b + 1 = i
        · -- contiguous: the branch for wrapping needs more than half of the line
          have h2 : ¬ (((i : ℝ) + 0.5) * reso > 1.5 * reso + (b + 0.5) * reso) := by
            push Not
            have : (i : ℝ) = b + 1 := by rw [← hgap]; push_cast; ring
            rw [this]; nlinarith
          have h1 : ¬ (((a : ℝ) + 0.5) * reso < reso ∧ ((i : ℝ) + 0.5) * reso > box / 2 + 0.5 * reso) := by
            rintro ⟨h1, h3⟩
            have ha : (a : ℝ) < 1 := by
              by_contra hh; push Not at hh; nlinarith
            have ha : a = 0 := Nat.lt_one_iff.1 (by exact_mod_cast ha)
            subst ha
            have hsub : Finset.range (i + 1) ⊆ (Finset.range N).filter (fun j => o j = o 0) := by
              intro j hj
              rw [Finset.mem_range] at hj
              rw [Finset.mem_filter, Finset.mem_range]
              have e0 : o 0 = o i := (hown 0 (by omega)).2 ⟨le_rfl, by omega⟩
              refine ⟨by omega, ?_⟩
              rw [e0]
              rcases Nat.lt_succ_iff_lt_or_eq.1 hj with h | rfl
              · exact (hown j h).2 ⟨by omega, by omega⟩
              · rfl
            have := Finset.card_le_card hsub
            rw [Finset.card_range] at this
            have h4 : (2 : ℝ) * (i + 1) ≤ N := by exact_mod_cast (by omega : 2 * (i + 1) ≤ N)
            rw [hbox] at h3
            nlinarith
          have : cellStep box reso arr (o i) ((i + 0.5) * reso) = .ok (.next (arr.set (o i)
              (if ((a : ℝ) + 0.5) * reso > 2 * box then (i + 0.5) * reso else ((a : ℝ) + 0.5) * reso,
                (i + 0.5) * reso))) := by
            unfold cellStep
            rw [hc]
            simp only
            rw [if_neg h1, if_neg h2]
          rw [this]
          exact ⟨by simp, fun arr' h => by simp at h⟩
        · -- a gap: the cell owns both ends of the line
          have hbb : o b = o i := (hown b hbi).2 ⟨hab, le_rfl⟩
          have hb1 : o (b + 1) ≠ o i := by
            intro h
            have := (hown (b + 1) (by omega)).1 h
            omega
          have hall := harc b (b + 1) i (by omega) (by omega) hi hbb hb1
          have h00 : o 0 = o i := hall 0 (by omega) (.inl (by omega))
          have ha : a = 0 := by
            have := (hown 0 (by omega)).1 h00
            omega
          subst ha
          have hsub : insert 0 (Finset.Ico i N) ⊆ (Finset.range N).filter (fun j => o j = o 0) := by
            intro j hj
            rw [Finset.mem_insert, Finset.mem_Ico] at hj
            rw [Finset.mem_filter, Finset.mem_range]
            rcases hj with rfl | hj
            · exact ⟨by omega, rfl⟩
            · exact ⟨hj.2, by rw [h00]; exact hall j hj.2 (.inr hj.1)⟩
          have hcard := Finset.card_le_card hsub
          rw [Finset.card_insert_of_notMem (by rw [Finset.mem_Ico]; omega), Nat.card_Ico] at hcard
          have hx : ((i : ℝ) + 0.5) * reso > box / 2 + 0.5 * reso := by
            have h4 : (N : ℝ) < 2 * i := by exact_mod_cast (by omega : N < 2 * i)
            rw [hbox]; nlinarith
          have h1 : (((0 : ℕ) : ℝ) + 0.5) * reso < reso := by norm_num; linarith
          refine ⟨?_, fun arr' _ t ht hit => hall t ht (.inr hit)⟩
          unfold cellStep
          rw [hc]
          simp only
          rw [if_pos ⟨h1, hx⟩]
          simp
    cases hs : cellStep box reso arr (o i) ((i + 0.5) * reso) with
    | error e =>
      exfalso
      have : e = .exit 1 := by
        unfold cellStep at hs
        rw [hc] at hs
        simp only at hs
        split at hs
        · cases hs
        · split at hs
          · exact (Except.error.inj hs).symm
          · cases hs
      subst this
      exact hno.1 hs
    | ok s =>
      obtain ⟨hl, ⟨arr', rfl, hlen, hinv'⟩ | ⟨arr', rfl, hlen, h0, hi0, hx, hfin⟩⟩ :=
        cellStep_ok hr hbox hi hinv hs
      · simp only
        obtain ⟨out, h1, h2, h3⟩ := ih (i + 1) (by omega) (by rw [hlen]; exact hlt) hinv'
        exact ⟨out, h1, by omega, h3⟩
      · simp only
        refine ⟨arr', rfl, hlen, fun k c hk => ?_⟩
        have hsame : ∀ j < N, (if j < i then o j else o i) = o j := by
          intro j hj
          split
          · rfl
          · rename_i h; exact (hno.2 arr' hs j hj (by omega)).symm
        rcases hfin k c hk with h | ⟨i', b, h1, h2, h3, h4⟩
        · exact .inl (h.congr hsame)
        · exact .inr ⟨i', b, h1, h2, h3, fun j hj => by rw [← hsame j hj]; exact h4 j hj⟩

end

end PartInt
end Verif
