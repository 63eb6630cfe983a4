import Verif.Model.Voigt
import Verif.Lemmas.Numpy
import Verif.Props.SpecTools
import Mathlib.Data.List.Rotate

/-!
C39: merging absorption components into systems.
-/

namespace Verif.Props
open Verif Verif.Np Verif.Voigt

/-- The distance from component `i` to the next one in a spectrum of length `W`, components sorted by position: after the last
comes the first, around the edge. -/
def gapAfter (W : ℝ) (pos : List ℝ) (i : ℕ) : ℝ :=
  if i + 1 < pos.length then pos.getD (i + 1) 0 - pos.getD i 0 else pos.getD 0 0 + W - pos.getD i 0

/-- The English property: `out` are the column densities of the systems of `comps`, which are (position, column density)
pairs. Every system is a run of neighbouring components around the spectrum (`groups.flatten` is the list of all components,
read from some starting point), neighbours in a system are closer than `close`, and different systems are at least `close` apart. -/
def AreSystems (W close : ℝ) (comps : List (ℝ × ℝ)) (out : List ℝ) : Prop :=
  ∃ (groups : List (List ℕ)) (r : ℕ), groups.flatten = (List.range comps.length).rotate r ∧ groups ≠ [] ∧
    out = groups.map (fun g => (g.map (fun i => (comps.map Prod.snd).getD i 0)).sum) ∧
    ∀ g ∈ groups, g ≠ [] ∧ (∀ a ∈ g.dropLast, gapAfter W (comps.map Prod.fst) a < close) ∧
      (1 < groups.length → ∀ a ∈ g.getLast?, close ≤ gapAfter W (comps.map Prod.fst) a)

section lists
variable {α : Type}

theorem split_ends {l : List α} (h : 2 ≤ l.length) : ∃ y B x, l = y :: (B ++ [x]) := by
  cases l with
  | nil => simp at h
  | cons y t =>
    have ht : t ≠ [] := by intro hc; rw [hc] at h; simp at h
    exact ⟨y, t.dropLast, t.getLast ht, by rw [List.dropLast_append_getLast]⟩

theorem split_mid {l : List α} {k : ℕ} (h : k + 1 < l.length) : ∃ A x y B, l = A ++ x :: y :: B ∧ A.length = k := by
  refine ⟨l.take k, l[k], l[k + 1], l.drop (k + 2), ?_, by simp; omega⟩
  rw [← List.drop_eq_getElem_cons, ← List.drop_eq_getElem_cons, List.take_append_drop]

theorem get_last (y x : α) (B : List α) : Np.get (y :: (B ++ [x])) (-1) = .ok x := by
  refine get_eq (k := B.length + 1) ?_ ?_
  · unfold index; simp
  · simp

theorem get_head (y : α) (l : List α) : Np.get (y :: l) (-1 + 1) = .ok y :=
  get_eq (k := 0) (by unfold index; simp) rfl

theorem set_head (y z : α) (l : List α) : Np.set (y :: l) (-1 + 1) z = .ok (z :: l) := by
  rw [set_eq (k := 0) (by unfold index; simp)]; rfl

theorem delete_last (y x : α) (B : List α) : delete (y :: (B ++ [x])) (-1) = .ok (y :: B) := by
  have hi : index (y :: (B ++ [x])).length (-1) = .ok (B.length + 1) := by
    unfold index; simp
  unfold delete
  rw [hi]
  change Except.ok ((y :: (B ++ [x])).eraseIdx (B.length + 1)) = _
  rw [List.eraseIdx_cons_succ, List.eraseIdx_append_of_length_le (le_refl _)]
  simp

theorem index_nat {n k : ℕ} (h : k < n) : index n (k : ℤ) = .ok k := by
  rw [index_nonneg (by omega) (by exact_mod_cast h)]; rfl

theorem get_mid (A B : List α) (x y : α) : Np.get (A ++ x :: y :: B) (A.length : ℤ) = .ok x :=
  get_eq (index_nat (by simp)) (by simp)

theorem get_mid' (A B : List α) (x y : α) : Np.get (A ++ x :: y :: B) ((A.length : ℤ) + 1) = .ok y := by
  have : ((A.length : ℤ) + 1) = ((A.length + 1 : ℕ) : ℤ) := by push_cast; ring
  rw [this]
  exact get_eq (index_nat (by simp)) (by simp)

theorem set_mid (A B : List α) (x y z : α) : Np.set (A ++ x :: y :: B) ((A.length : ℤ) + 1) z = .ok (A ++ x :: z :: B) := by
  have : ((A.length : ℤ) + 1) = ((A.length + 1 : ℕ) : ℤ) := by push_cast; ring
  rw [this, set_eq (index_nat (by simp))]
  simp

theorem delete_mid (A B : List α) (x y : α) : delete (A ++ x :: y :: B) (A.length : ℤ) = .ok (A ++ y :: B) := by
  have : index (A ++ x :: y :: B).length (A.length : ℤ) = .ok A.length := index_nat (by simp)
  unfold delete
  rw [this]
  change Except.ok ((A ++ x :: y :: B).eraseIdx A.length) = _
  rw [List.eraseIdx_append_of_length_le (le_refl _)]
  simp

end lists

theorem argmin_spec {a : List ℝ} (h : a ≠ []) : ∃ k m, argmin a = .ok k ∧ minOf a = .ok m ∧ a[k]? = some m ∧ ∀ y ∈ a, m ≤ y := by
  obtain ⟨m, h1, h2, h3⟩ := minOf_spec h
  have hlt : a.findIdx (fun x => decide (x = m)) < a.length :=
    List.findIdx_lt_length_of_exists ⟨m, h2, by simp⟩
  refine ⟨a.findIdx (fun x => decide (x = m)), m, ?_, h1, ?_, h3⟩
  · unfold argmin; rw [h1]; rfl
  · rw [List.getElem?_eq_getElem hlt]
    congr 1
    exact of_decide_eq_true (List.findIdx_getElem (p := fun x : ℝ => decide (x = m)) (w := hlt))

/-- The state of the loop: `L` are the systems so far, as lists of components, each with the distance to the next one. -/
structure SysInv (W close : ℝ) (n : ℕ) (Nc d : ℕ → ℝ) (s : Sys) (L : List (List ℕ × ℝ)) : Prop where
  colden : s.colden = L.map (fun x => (x.1.map Nc).sum)
  dist : s.distances = L.map Prod.snd
  lpos : s.pos.length = L.length
  lmax : s.maxpos.length = L.length
  lmin : s.minpos.length = L.length
  order : ∃ r, (L.map Prod.fst).flatten = (List.range n).rotate r
  groups : ∀ x ∈ L, x.1 ≠ [] ∧ (∀ a ∈ x.1.getLast?, x.2 = d a) ∧ ∀ a ∈ x.1.dropLast, d a < close
  pos : ∀ p ∈ s.pos, 0 ≤ p ∧ p < W
  ne : L ≠ []
  stop : s.stop = true → L.length = 1
  go : s.stop = false → L.length = 1 → ∀ x ∈ L, close ≤ x.2

theorem List.flatten_map_singleton_range (n : ℕ) : ((List.range n).map (Prod.fst ∘ fun i => ([i], (0:ℝ)))).flatten = List.range n := by
  rw [← List.flatMap_def]
  simp [Function.comp_def]

theorem join_group {close : ℝ} {d : ℕ → ℝ} {x y : List ℕ × ℝ} (hx : x.1 ≠ [] ∧ (∀ a ∈ x.1.getLast?, x.2 = d a) ∧ ∀ a ∈ x.1.dropLast, d a < close)
    (hy : y.1 ≠ [] ∧ (∀ a ∈ y.1.getLast?, y.2 = d a) ∧ ∀ a ∈ y.1.dropLast, d a < close) (hlt : x.2 < close) :
    (x.1 ++ y.1) ≠ [] ∧ (∀ a ∈ (x.1 ++ y.1).getLast?, y.2 = d a) ∧ ∀ a ∈ (x.1 ++ y.1).dropLast, d a < close := by
  refine ⟨by simp [hx.1], ?_, ?_⟩
  · intro a ha
    rw [List.getLast?_append_of_ne_nil _ hy.1] at ha
    exact hy.2.1 a ha
  · intro a ha
    rw [List.dropLast_append_of_ne_nil hy.1, List.mem_append] at ha
    rcases ha with ha | ha
    · rw [← List.dropLast_append_getLast hx.1, List.mem_append, List.mem_singleton] at ha
      rcases ha with ha | rfl
      · exact hx.2.2 a ha
      · rw [← hx.2.1 _ (List.getLast_mem_getLast? hx.1)]
        exact hlt
    · exact hy.2.2 a ha

theorem fmod_range {x n : ℝ} (hn : 0 < n) : 0 ≤ fmod x n ∧ fmod x n < n := by
  unfold fmod
  have h1 := Int.floor_le (x / n)
  have h2 := Int.lt_floor_add_one (x / n)
  rw [le_div_iff₀ hn] at h1
  rw [div_lt_iff₀ hn] at h2
  constructor <;> linarith

theorem merge_step {W close : ℝ} (hW : 0 < W) {n : ℕ} {Nc d : ℕ → ℝ} (hd : ∀ i < n, 0 < d i) {s : Sys} {L : List (List ℕ × ℝ)}
    (h : SysInv W close n Nc d s L) (hc : Sys.again close s = .ok true) :
    ∃ s' L', Sys.merge W s = .ok s' ∧ SysInv W close n Nc d s' L' ∧ L'.length + 1 = L.length := by
  have hstop : s.stop = false := by
    unfold Sys.again at hc
    by_contra hs
    rw [Bool.not_eq_false] at hs
    rw [if_pos hs] at hc
    cases hc
  have hdne : s.distances ≠ [] := by rw [h.dist]; simpa using h.ne
  obtain ⟨k, m, hk, hm, hkm, hmin⟩ := argmin_spec hdne
  have hmc : m < close := by
    unfold Sys.again at hc
    rw [if_neg (by simp [hstop]), hm] at hc
    simpa [bind, Except.bind, pure, Except.pure] using hc
  have hdl : s.distances.length = L.length := by rw [h.dist]; simp
  have hkl : k < L.length := by rw [← hdl]; exact (List.getElem?_eq_some_iff.1 hkm).1
  have h2 : 2 ≤ L.length := by
    by_contra hlt
    have h1 : L.length = 1 := by omega
    have hk0 : k = 0 := by omega
    obtain ⟨x, hx⟩ := List.length_eq_one_iff.1 h1
    have := h.go hstop h1 x (by rw [hx]; simp)
    rw [h.dist, hx, hk0] at hkm
    simp at hkm
    linarith
  have hpos_of : ∀ x ∈ L, 0 < x.2 := by
    intro x hx
    obtain ⟨g1, g2, -⟩ := h.groups x hx
    rw [g2 _ (List.getLast_mem_getLast? g1)]
    apply hd
    obtain ⟨r, hr⟩ := h.order
    have : x.1.getLast g1 ∈ (L.map Prod.fst).flatten :=
      List.mem_flatten.2 ⟨x.1, List.mem_map.2 ⟨x, hx, rfl⟩, List.getLast_mem g1⟩
    rw [hr, List.mem_rotate, List.mem_range] at this
    exact this
  by_cases hlast : k = L.length - 1
  · obtain ⟨y, B, x, hL⟩ := split_ends h2
    obtain ⟨py, pB, px, hp⟩ := split_ends (l := s.pos) (by rw [h.lpos]; exact h2)
    obtain ⟨ay, aB, ax, ha⟩ := split_ends (l := s.maxpos) (by rw [h.lmax]; exact h2)
    obtain ⟨iy, iB, ix, hi⟩ := split_ends (l := s.minpos) (by rw [h.lmin]; exact h2)
    have lB : aB.length = B.length := by have := h.lmax; rw [ha, hL] at this; simpa using this
    have lB' : iB.length = B.length := by have := h.lmin; rw [hi, hL] at this; simpa using this
    have lBp : pB.length = B.length := by have := h.lpos; rw [hp, hL] at this; simpa using this
    have hdist : (iy - ay) :: (iB.zipWith (· - ·) aB ++ [ix - ax]) = (y.2 :: (B.map Prod.snd ++ [x.2])) := by
      have := h.dist
      unfold Sys.distances at this
      rw [hi, ha, hL] at this
      simpa [List.zipWith_append, lB, lB'] using this
    have hdist' : (iy - ay) :: iB.zipWith (· - ·) aB = y.2 :: B.map Prod.snd := by
      rw [← List.cons_append, ← List.cons_append] at hdist
      exact (List.append_inj' hdist rfl).1
    have hx2 : x.2 < close := by
      rw [h.dist, hL, hlast, hL] at hkm
      simp at hkm
      linarith
    have hgx := h.groups x (by rw [hL]; simp)
    have hgy := h.groups y (by rw [hL]; simp)
    set s' : Sys := ⟨((y.1.map Nc).sum + (x.1.map Nc).sum) :: B.map (fun x => (x.1.map Nc).sum),
      fmod ((px + py + W) / 2) W :: pB, ay :: aB, iy :: iB, decide ((fmod ((px + py + W) / 2) W :: pB).length < 2)⟩ with hs'
    refine ⟨s', (x.1 ++ y.1, y.2) :: B, ?_, ?_, by rw [hL]; simp⟩
    · unfold Sys.merge
      simp only [hk, bind, Except.bind, hdl]
      simp only [if_pos hlast]
      rw [h.colden, hL, hp, ha, hi]
      simp only [List.map_cons, List.map_append, List.map_nil, get_last, get_head, set_head, delete_last]
      have hcheck : Sys.check ⟨((y.1.map Nc).sum + (x.1.map Nc).sum) :: B.map (fun x => (x.1.map Nc).sum),
          fmod ((px + py + W) / 2) W :: pB, ay :: aB, iy :: iB, false⟩ =
          .ok ⟨((y.1.map Nc).sum + (x.1.map Nc).sum) :: B.map (fun x => (x.1.map Nc).sum),
          fmod ((px + py + W) / 2) W :: pB, ay :: aB, iy :: iB, false⟩ := by
        unfold Sys.check
        rw [if_pos]
        intro e he
        unfold Sys.distances at he
        simp only [List.zipWith_cons_cons] at he
        rw [hdist'] at he
        rcases List.mem_cons.1 he with rfl | he
        · exact hpos_of y (by rw [hL]; simp)
        · obtain ⟨z, hz, rfl⟩ := List.mem_map.1 he
          exact hpos_of z (by rw [hL]; simp [hz])
      by_cases hlen : (fmod ((px + py + W) / 2) W :: pB).length < 2
      · rw [if_pos hlen, hs']
        simp only [hlen, decide_true]
        rfl
      · rw [if_neg hlen, hs', hcheck]
        simp only [hlen, decide_false]
    · refine ⟨?_, ?_, by simp [hs', lBp], by simp [hs', lB], by simp [hs', lB'], ?_, ?_, ?_, by simp, ?_, ?_⟩
      · simp [hs', add_comm]
      · unfold Sys.distances
        simp only [hs', List.zipWith_cons_cons, hdist', List.map_cons]
      · obtain ⟨r, hr⟩ := h.order
        refine ⟨r + (y.1 ++ (B.map Prod.fst).flatten).length, ?_⟩
        rw [← List.rotate_rotate, ← hr, hL]
        simp only [List.map_cons, List.map_append, List.map_nil, List.flatten_cons, List.flatten_append, List.flatten_nil,
          List.append_nil]
        rw [← List.append_assoc y.1, List.rotate_append_length_eq]
        simp
      · intro z hz
        rcases List.mem_cons.1 hz with rfl | hz
        · exact join_group hgx hgy hx2
        · exact h.groups z (by rw [hL]; simp [hz])
      · intro p hpm
        simp only [hs'] at hpm
        rcases List.mem_cons.1 hpm with rfl | hpm
        · exact fmod_range hW
        · exact h.pos p (by rw [hp]; simp [hpm])
      · intro hst
        simp [hs'] at hst
        have : pB.length = 0 := by simp [hst]
        simp only [List.length_cons]; omega
      · intro hst hone
        simp [hs'] at hst
        simp at hone
        rw [hone] at lBp
        simp at lBp
        exact absurd lBp (by intro hc; rw [hc] at hst; simp at hst)
  · obtain ⟨A, x, y, B, hL, hA⟩ := split_mid (l := L) (k := k) (by omega)
    obtain ⟨pA, px, py, pB, hp, hpA⟩ := split_mid (l := s.pos) (k := k) (by rw [h.lpos]; omega)
    obtain ⟨aA, ax, ay, aB, ha, haA⟩ := split_mid (l := s.maxpos) (k := k) (by rw [h.lmax]; omega)
    obtain ⟨iA, ix, iy, iB, hi, hiA⟩ := split_mid (l := s.minpos) (k := k) (by rw [h.lmin]; omega)
    have lB : aB.length = B.length := by have := h.lmax; rw [ha, hL] at this; simp at this; omega
    have lB' : iB.length = B.length := by have := h.lmin; rw [hi, hL] at this; simp at this; omega
    have lBp : pB.length = B.length := by have := h.lpos; rw [hp, hL] at this; simp at this; omega
    have hdist : iA.zipWith (· - ·) aA ++ (ix - ax) :: (iy - ay) :: iB.zipWith (· - ·) aB =
        A.map Prod.snd ++ x.2 :: y.2 :: B.map Prod.snd := by
      have := h.dist
      unfold Sys.distances at this
      rw [hi, ha, hL] at this
      rw [List.zipWith_append (by omega)] at this
      simpa using this
    obtain ⟨hd1, hd2⟩ := List.append_inj hdist (by simp; omega)
    simp only [List.cons.injEq] at hd2
    obtain ⟨hd2, hd3, hd4⟩ := hd2
    have hx2 : x.2 < close := by
      rw [h.dist, hL, ← hA] at hkm
      simp at hkm
      linarith
    have hgx := h.groups x (by rw [hL]; simp)
    have hgy := h.groups y (by rw [hL]; simp)
    set s' : Sys := ⟨A.map (fun x => (x.1.map Nc).sum) ++ ((y.1.map Nc).sum + (x.1.map Nc).sum) :: B.map (fun x => (x.1.map Nc).sum),
      pA ++ ((px + py) / 2) :: pB, aA ++ ay :: aB, iA ++ iy :: iB, decide ((pA ++ ((px + py) / 2) :: pB).length < 2)⟩ with hs'
    have hdists : (iA ++ iy :: iB).zipWith (· - ·) (aA ++ ay :: aB) = A.map Prod.snd ++ y.2 :: B.map Prod.snd := by
      rw [List.zipWith_append (by omega), hd1]
      simp [hd3, hd4]
    refine ⟨s', A ++ (x.1 ++ y.1, y.2) :: B, ?_, ?_, by rw [hL]; simp; omega⟩
    · unfold Sys.merge
      simp only [hk, bind, Except.bind, hdl]
      simp only [if_neg hlast]
      rw [h.colden, hL, hp, ha, hi]
      simp only [List.map_cons, List.map_append]
      have e1 : (k : ℤ) = (pA.length : ℤ) := by omega
      have e2 : (k : ℤ) = ((A.map (fun x => (x.1.map Nc).sum)).length : ℤ) := by simp; omega
      have e3 : (k : ℤ) = (aA.length : ℤ) := by omega
      have e4 : (k : ℤ) = (iA.length : ℤ) := by omega
      have g1 : Np.get (pA ++ px :: py :: pB) (k : ℤ) = .ok px := by rw [e1]; exact get_mid ..
      have g2 : Np.get (pA ++ px :: py :: pB) ((k : ℤ) + 1) = .ok py := by rw [e1]; exact get_mid' ..
      have g3 : Np.set (pA ++ px :: py :: pB) ((k : ℤ) + 1) ((px + py) / 2) = .ok (pA ++ px :: ((px + py) / 2) :: pB) := by
        rw [e1]; exact set_mid ..
      have g4 : delete (pA ++ px :: ((px + py) / 2) :: pB) (k : ℤ) = .ok (pA ++ ((px + py) / 2) :: pB) := by
        rw [e1]; exact delete_mid ..
      have g5 := get_mid (A.map (fun x => (x.1.map Nc).sum)) (B.map (fun x => (x.1.map Nc).sum)) (x.1.map Nc).sum (y.1.map Nc).sum
      have g6 := get_mid' (A.map (fun x => (x.1.map Nc).sum)) (B.map (fun x => (x.1.map Nc).sum)) (x.1.map Nc).sum (y.1.map Nc).sum
      have g7 := set_mid (A.map (fun x => (x.1.map Nc).sum)) (B.map (fun x => (x.1.map Nc).sum)) (x.1.map Nc).sum (y.1.map Nc).sum
        ((y.1.map Nc).sum + (x.1.map Nc).sum)
      have g8 := delete_mid (A.map (fun x => (x.1.map Nc).sum)) (B.map (fun x => (x.1.map Nc).sum)) (x.1.map Nc).sum
        ((y.1.map Nc).sum + (x.1.map Nc).sum)
      rw [← e2] at g5 g6 g7 g8
      have g9 : delete (aA ++ ax :: ay :: aB) (k : ℤ) = .ok (aA ++ ay :: aB) := by rw [e3]; exact delete_mid ..
      have g10 : delete (iA ++ ix :: iy :: iB) (k : ℤ) = .ok (iA ++ iy :: iB) := by rw [e4]; exact delete_mid ..
      simp only [g1, g2, g3, g4, g5, g6, g7, g8, g9, g10]
      have hcheck : ∀ b, Sys.check ⟨A.map (fun x => (x.1.map Nc).sum) ++ ((y.1.map Nc).sum + (x.1.map Nc).sum) :: B.map (fun x => (x.1.map Nc).sum),
          pA ++ ((px + py) / 2) :: pB, aA ++ ay :: aB, iA ++ iy :: iB, b⟩ =
          .ok ⟨A.map (fun x => (x.1.map Nc).sum) ++ ((y.1.map Nc).sum + (x.1.map Nc).sum) :: B.map (fun x => (x.1.map Nc).sum),
          pA ++ ((px + py) / 2) :: pB, aA ++ ay :: aB, iA ++ iy :: iB, b⟩ := by
        intro b
        unfold Sys.check
        rw [if_pos]
        intro e he
        unfold Sys.distances at he
        simp only at he
        rw [hdists] at he
        rcases List.mem_append.1 he with he | he
        · obtain ⟨z, hz, rfl⟩ := List.mem_map.1 he
          exact hpos_of z (by rw [hL]; simp [hz])
        · rcases List.mem_cons.1 he with rfl | he
          · exact hpos_of y (by rw [hL]; simp)
          · obtain ⟨z, hz, rfl⟩ := List.mem_map.1 he
            exact hpos_of z (by rw [hL]; simp [hz])
      by_cases hlen : (pA ++ ((px + py) / 2) :: pB).length < 2
      · rw [if_pos hlen, hs']
        simp only [hlen, decide_true]
        rfl
      · rw [if_neg hlen, hs', hcheck]
        simp only [hlen, decide_false]
    · refine ⟨?_, ?_, by simp [hs', lBp]; omega, by simp [hs', lB]; omega, by simp [hs', lB']; omega, ?_, ?_, ?_, by simp, ?_, ?_⟩
      · simp [hs', add_comm]
      · unfold Sys.distances
        simp only [hs', hdists, List.map_append, List.map_cons]
      · obtain ⟨r, hr⟩ := h.order
        refine ⟨r, ?_⟩
        rw [← hr, hL]
        simp
      · intro z hz
        rcases List.mem_append.1 hz with hz | hz
        · exact h.groups z (by rw [hL]; simp [hz])
        · rcases List.mem_cons.1 hz with rfl | hz
          · exact join_group hgx hgy hx2
          · exact h.groups z (by rw [hL]; simp [hz])
      · intro p hpm
        simp only [hs'] at hpm
        rcases List.mem_append.1 hpm with hpm | hpm
        · exact h.pos p (by rw [hp]; simp [hpm])
        · rcases List.mem_cons.1 hpm with rfl | hpm
          · have h1 := h.pos px (by rw [hp]; simp)
            have h2 := h.pos py (by rw [hp]; simp)
            constructor <;> linarith
          · exact h.pos p (by rw [hp]; simp [hpm])
      · intro hst
        simp only [hs', decide_eq_true_eq] at hst
        simp at hst ⊢
        omega
      · intro hst hone
        simp only [hs', decide_eq_false_iff_not] at hst
        simp at hst hone
        omega

/-! ### The start -/

theorem sorted_unique {l comps : List (ℝ × ℝ)} (hp : comps.Perm l) (hs : comps.Pairwise (fun a b => a.1 < b.1)) :
    l.mergeSort (fun a b => decide (a.1 ≤ b.1)) = comps := by
  have hnd : (comps.map Prod.fst).Nodup := by
    rw [List.Nodup, List.pairwise_map]
    exact hs.imp (fun h => ne_of_lt h)
  have hperm : (l.mergeSort (fun a b => decide (a.1 ≤ b.1))).Perm comps := (List.mergeSort_perm _ _).trans hp.symm
  refine List.Perm.eq_of_pairwise (le := fun a b : ℝ × ℝ => a.1 ≤ b.1) ?_ ?_ (hs.imp (fun h => le_of_lt h)) hperm
  · intro a b ha hb h1 h2
    exact List.inj_on_of_nodup_map hnd (hperm.subset ha) hb (le_antisymm h1 h2)
  · refine (List.pairwise_mergeSort ?_ ?_ _).imp (fun h => of_decide_eq_true h)
    · intro a b c h1 h2
      simp only [decide_eq_true_eq] at *
      linarith
    · intro a b
      simp only [Bool.or_eq_true, decide_eq_true_eq]
      exact le_total _ _

theorem sortBy_comps {pos xs : List ℝ} {comps : List (ℝ × ℝ)} (hp : comps.Perm (pos.zip xs))
    (hs : comps.Pairwise (fun a b => a.1 < b.1)) : sortBy pos xs = comps.map Prod.snd := by
  unfold sortBy
  rw [sorted_unique hp hs]

theorem sortBy_self {pos xs : List ℝ} {comps : List (ℝ × ℝ)} (hl : pos.length = xs.length) (hp : comps.Perm (pos.zip xs))
    (hs : comps.Pairwise (fun a b => a.1 < b.1)) : sortBy pos pos = comps.map Prod.fst := by
  have h1 : (comps.map (fun c => (c.1, c.1))).Perm (pos.zip pos) := by
    have h2 := (hp.map Prod.fst).map (fun x : ℝ => (x, x))
    rw [List.map_fst_zip (by omega), List.map_map] at h2
    have h3 : pos.map (fun x : ℝ => (x, x)) = pos.zip pos := by
      rw [← List.zipWith_self]; rfl
    rw [← h3]
    exact h2
  rw [sortBy_comps h1 (by rw [List.pairwise_map]; exact hs)]
  simp

theorem start_spec {W : ℝ} {colden pos : List ℝ} (hs : pos.Pairwise (· < ·)) (hr : ∀ p ∈ pos, 0 ≤ p ∧ p < W) (hne : pos ≠ []) :
    ∃ maxpos minpos, startSys W colden pos = .ok ⟨colden, pos, maxpos, minpos, false⟩ ∧ maxpos.length = pos.length ∧
      minpos.length = pos.length ∧ (minpos.zipWith (· - ·) maxpos = (List.range pos.length).map (gapAfter W pos)) ∧
      ∀ i < pos.length, 0 < gapAfter W pos i := by
  have hlen : 0 < pos.length := List.length_pos_iff.2 hne
  have hidx : index pos.length (-1) = .ok (pos.length - 1) := by
    unfold index
    rw [if_neg (by omega), if_pos (by omega)]
    congr 1; omega
  have hget : Np.get pos (-1) = .ok pos[pos.length - 1] := get_eq hidx (List.getElem?_eq_getElem (by omega))
  have hd : (roll pos (-1)).zipWith (· - ·) (pos.set (pos.length - 1) (pos[pos.length - 1] - W)) =
      (List.range pos.length).map (gapAfter W pos) := by
    apply List.ext_getElem?
    intro i
    by_cases hi : i < pos.length
    · rw [List.getElem?_zipWith, roll_get pos (-1) hi, List.getElem?_set, List.getElem?_map, List.getElem?_range hi]
      by_cases hlast : i + 1 < pos.length
      · have e : (((i : ℤ) - -1) % pos.length).toNat = i + 1 := by
          rw [Int.emod_eq_of_lt (by omega) (by omega)]; omega
        rw [e, if_neg (by omega), List.getElem?_eq_getElem hlast, List.getElem?_eq_getElem hi]
        simp [gapAfter, hlast, hi]
      · have hi' : i = pos.length - 1 := by omega
        have e : (((i : ℤ) - -1) % pos.length).toNat = 0 := by
          have : ((i : ℤ) - -1) = pos.length := by omega
          rw [this, Int.emod_self]; rfl
        rw [e, if_pos hi'.symm, if_pos (by omega), List.getElem?_eq_getElem hlen]
        simp only [Option.map_some, gapAfter, if_neg hlast, Option.some.injEq]
        subst hi'
        simp only [List.getD_eq_getElem?_getD, List.getElem?_eq_getElem hlen, List.getElem?_eq_getElem hi, Option.getD_some]
        ring
    · rw [List.getElem?_eq_none (by simp [roll_length]; omega), List.getElem?_eq_none (by simpa using hi)]
  have hgap : ∀ i < pos.length, 0 < gapAfter W pos i := by
    intro i hi
    unfold gapAfter
    split_ifs with h
    · simp only [List.getD_eq_getElem?_getD, List.getElem?_eq_getElem h, List.getElem?_eq_getElem hi, Option.getD_some]
      have := List.pairwise_iff_getElem.1 hs i (i + 1) hi h (by omega)
      linarith
    · simp only [List.getD_eq_getElem?_getD, List.getElem?_eq_getElem hlen, List.getElem?_eq_getElem hi, Option.getD_some]
      have h1 := (hr _ (List.getElem_mem hlen)).1
      have h2 := (hr _ (List.getElem_mem hi)).2
      linarith
  refine ⟨pos.set (pos.length - 1) (pos[pos.length - 1] - W), roll pos (-1), ?_, by simp, roll_length _ _, hd, hgap⟩
  unfold startSys
  rw [hget]
  change (Np.set pos (-1) (pos[pos.length - 1] - W) >>= _) = _
  rw [set_eq hidx]
  change Sys.check _ = _
  unfold Sys.check
  rw [if_pos]
  intro e he
  unfold Sys.distances at he
  simp only at he
  rw [hd] at he
  obtain ⟨i, hi, rfl⟩ := List.mem_map.1 he
  exact hgap i (List.mem_range.1 hi)

/-- C39, except for repeated calls and spectra with one component narrower than the linking length: for `comps`, the
components of the fit in order of position, at different positions in `[0, W)`, `get_systems` ends, and returns the systems,
with a position in `[0, W)` for each. -/
theorem get_systems_partial {N : ℝ → ℝ → ℝ} {W close : ℝ} {f : Fit} {comps : List (ℝ × ℝ)}
    (hlen : f.means.length = (columnDensities N f).length) (hp : comps.Perm (f.means.zip (columnDensities N f)))
    (hs : comps.Pairwise (fun a b => a.1 < b.1)) (hr : ∀ c ∈ comps, 0 ≤ c.1 ∧ c.1 < W) (hne : comps ≠ [])
    (hone : comps.length = 1 → close ≤ W) {fuel : ℕ} (hf : comps.length < fuel) :
    ∃ out pos f', get_systems N W close f fuel = some (.ok ((out, pos), f')) ∧ AreSystems W close comps out ∧
      pos.length = out.length ∧ ∀ p ∈ pos, 0 ≤ p ∧ p < W := by
  have hpos : (comps.map Prod.fst).Pairwise (· < ·) := by rw [List.pairwise_map]; exact hs
  have hW : 0 < W := by
    obtain ⟨c, hc⟩ := List.exists_mem_of_ne_nil _ hne
    have := hr c hc
    linarith
  obtain ⟨maxpos, minpos, h1, h2, h3, h4, h5⟩ := start_spec (W := W) (colden := comps.map Prod.snd) hpos (by
    intro p hp
    obtain ⟨c, hc, rfl⟩ := List.mem_map.1 hp
    exact hr c hc) (by simpa using hne)
  set d := gapAfter W (comps.map Prod.fst) with hdef
  set Nc : ℕ → ℝ := fun i => (comps.map Prod.snd).getD i 0 with hNc
  set n := comps.length with hn
  have hn1 : 0 < n := List.length_pos_iff.2 hne
  simp only [List.length_map] at h2 h3 h4 h5
  have hinit : SysInv W close n Nc d ⟨comps.map Prod.snd, comps.map Prod.fst, maxpos, minpos, false⟩
      ((List.range n).map (fun i => ([i], d i))) := by
    refine ⟨?_, ?_, by simp [hn], by simp [h2, hn], by simp [h3, hn], ⟨0, ?_⟩, ?_, ?_, ?_, by simp, ?_⟩
    · apply List.ext_getElem?
      intro i
      by_cases hi : i < n
      · have hi' : i < comps.length := hi
        simp only [List.map_map, List.getElem?_map, List.getElem?_range hi, Option.map_some, Function.comp_def, List.map_cons,
          List.map_nil, List.sum_cons, List.sum_nil, add_zero, hNc, List.getD_eq_getElem?_getD, List.getElem?_eq_getElem hi',
          Option.getD_some]
      · rw [List.getElem?_eq_none (by simpa using hi), List.getElem?_eq_none (by simpa using hi)]
    · unfold Sys.distances
      simp only [h4, List.map_map]
      rfl
    · rw [List.map_map, List.rotate_zero]
      exact List.flatten_map_singleton_range n
    · intro x hx
      obtain ⟨i, hi, rfl⟩ := List.mem_map.1 hx
      simp
    · intro p hpm
      obtain ⟨c, hc, rfl⟩ := List.mem_map.1 hpm
      exact hr c hc
    · intro hc
      have := congrArg List.length hc
      simp at this
      omega
    · intro _ h1 x hx
      simp only [List.length_map, List.length_range] at h1
      rw [h1] at hx
      simp at hx
      rw [hx]
      simp only
      have hd0 : d 0 = W := by
        rw [hdef]; unfold gapAfter
        rw [if_neg (by simp; omega)]
        ring
      rw [hd0]
      exact hone h1
  obtain ⟨s, hrun, ⟨L, hL⟩, hstop⟩ := whileRun_measure (cond := Sys.again close) (body := fun s => some (Sys.merge W s))
    (fun s => ∃ L, SysInv W close n Nc d s L) (fun s => s.pos.length)
    (by
      rintro s ⟨L, hL⟩
      unfold Sys.again
      by_cases hst : s.stop = true
      · exact ⟨false, by rw [if_pos hst]⟩
      · rw [if_neg hst]
        obtain ⟨m, hm, -⟩ := minOf_spec (a := s.distances) (by rw [hL.dist]; simpa using hL.ne)
        exact ⟨_, by rw [hm]; rfl⟩)
    (by
      rintro s ⟨L, hL⟩ hc
      obtain ⟨s', L', e1, e2, e3⟩ := merge_step hW h5 hL hc
      exact ⟨s', by rw [e1], ⟨L', e2⟩, by rw [e2.lpos, hL.lpos]; omega⟩)
    fuel ⟨comps.map Prod.snd, comps.map Prod.fst, maxpos, minpos, false⟩ ⟨_, hinit⟩ (by simpa using hf)
  refine ⟨s.colden, s.pos, { f with stddev := sortBy f.means f.stddev }, ?_, ?_, ?_, hL.pos⟩
  · unfold get_systems
    simp only
    rw [sortBy_comps hp hs, sortBy_self hlen hp hs, h1]
    simp only [Run.andThen]
    rw [hrun]
  · obtain ⟨r, hr'⟩ := hL.order
    refine ⟨L.map Prod.fst, r, hr', by simpa using hL.ne, ?_, ?_⟩
    · rw [hL.colden, List.map_map]; rfl
    · intro g hg
      obtain ⟨x, hx, rfl⟩ := List.mem_map.1 hg
      obtain ⟨g1, g2, g3⟩ := hL.groups x hx
      refine ⟨g1, g3, ?_⟩
      intro hl a ha
      rw [← hdef, ← g2 a ha]
      have hst : s.stop = false := by
        by_contra hc
        have := hL.stop (by simpa using hc)
        rw [List.length_map] at hl
        omega
      unfold Sys.again at hstop
      rw [if_neg (by simp [hst])] at hstop
      obtain ⟨m, hm, -, hmin⟩ := minOf_spec (a := s.distances) (by rw [hL.dist]; simpa using hL.ne)
      rw [hm] at hstop
      have hcm : ¬ m < close := by
        intro hlt
        simp [bind, Except.bind, pure, Except.pure, hlt] at hstop
      have := hmin x.2 (by rw [hL.dist]; exact List.mem_map.2 ⟨x, hx, rfl⟩)
      linarith
  · rw [hL.lpos, hL.colden, List.length_map]

theorem systems_sum {W close : ℝ} {comps : List (ℝ × ℝ)} {out : List ℝ} (h : AreSystems W close comps out) :
    out.sum = (comps.map Prod.snd).sum ∧ out ≠ [] ∧ out.length ≤ comps.length := by
  obtain ⟨groups, r, h1, h2, rfl, h3⟩ := h
  refine ⟨?_, by simpa using h2, ?_⟩
  · have e : (groups.map (fun g => (g.map (fun i => (comps.map Prod.snd).getD i 0)).sum)).sum =
        (groups.flatten.map (fun i => (comps.map Prod.snd).getD i 0)).sum := by
      rw [List.map_flatten, List.sum_flatten, List.map_map]; rfl
    rw [e, h1, ((List.rotate_perm _ r).map _).sum_eq]
    congr 1
    apply List.ext_getElem?
    intro i
    by_cases hi : i < comps.length
    · simp [hi]
    · rw [List.getElem?_eq_none (by simpa using hi), List.getElem?_eq_none (by simpa using hi)]
  · have e := congrArg List.length h1
    rw [List.length_rotate, List.length_range, List.length_flatten] at e
    rw [List.length_map, ← e]
    have : ∀ gs : List (List ℕ), (∀ g ∈ gs, g ≠ []) → gs.length ≤ (gs.map List.length).sum := by
      intro gs
      induction gs with
      | nil => simp
      | cons g gs ih =>
        intro hg
        have h1 := ih (fun g' hg' => hg g' (List.mem_cons_of_mem _ hg'))
        have h2 := List.length_pos_iff.2 (hg g List.mem_cons_self)
        simp only [List.length_cons, List.map_cons, List.sum_cons]
        omega
    exact this groups (fun g hg => (h3 g hg).1)

/-- C39: no column density is lost or invented, and there is at least one system and at most one per component. -/
theorem get_systems_conserve {N : ℝ → ℝ → ℝ} {W close : ℝ} {f : Fit} {comps : List (ℝ × ℝ)}
    (hlen : f.means.length = (columnDensities N f).length) (hp : comps.Perm (f.means.zip (columnDensities N f)))
    (hs : comps.Pairwise (fun a b => a.1 < b.1)) (hr : ∀ c ∈ comps, 0 ≤ c.1 ∧ c.1 < W) (hne : comps ≠ [])
    (hone : comps.length = 1 → close ≤ W) {fuel : ℕ} (hf : comps.length < fuel) :
    ∃ out pos f', get_systems N W close f fuel = some (.ok ((out, pos), f')) ∧ out.sum = (columnDensities N f).sum ∧
      0 < out.length ∧ out.length ≤ f.means.length := by
  obtain ⟨out, pos, f', h1, h2, -, -⟩ := get_systems_partial hlen hp hs hr hne hone hf
  obtain ⟨s1, s2, s3⟩ := systems_sum h2
  refine ⟨out, pos, f', h1, ?_, List.length_pos_iff.2 s2, ?_⟩
  · rw [s1, (hp.map Prod.snd).sum_eq, List.map_snd_zip (by omega)]
  · have := hp.length_eq
    rw [List.length_zip] at this
    omega

/-- Components further apart than the linking length (periodically) stay apart. -/
theorem get_systems_apart {N : ℝ → ℝ → ℝ} {W close : ℝ} {f : Fit} {comps : List (ℝ × ℝ)}
    (hlen : f.means.length = (columnDensities N f).length) (hp : comps.Perm (f.means.zip (columnDensities N f)))
    (hs : comps.Pairwise (fun a b => a.1 < b.1)) (hr : ∀ c ∈ comps, 0 ≤ c.1 ∧ c.1 < W) (hne : comps ≠ [])
    (hfar : ∀ i < comps.length, close ≤ gapAfter W (comps.map Prod.fst) i) {fuel : ℕ} (hf : comps.length < fuel) :
    get_systems N W close f fuel = some (.ok ((comps.map Prod.snd, comps.map Prod.fst), { f with stddev := sortBy f.means f.stddev })) := by
  obtain ⟨maxpos, minpos, h1, h2, h3, h4, h5⟩ := start_spec (W := W) (colden := comps.map Prod.snd) (pos := comps.map Prod.fst)
    (by rw [List.pairwise_map]; exact hs) (by
    intro p hp
    obtain ⟨c, hc, rfl⟩ := List.mem_map.1 hp
    exact hr c hc) (by simpa using hne)
  have hdne : minpos.zipWith (· - ·) maxpos ≠ [] := by
    rw [h4]
    simpa using hne
  obtain ⟨m, hm, hmm, -⟩ := minOf_spec hdne
  have hc : Sys.again close ⟨comps.map Prod.snd, comps.map Prod.fst, maxpos, minpos, false⟩ = .ok false := by
    unfold Sys.again Sys.distances
    simp only [Bool.false_eq_true, if_false, hm, bind, Except.bind, pure, Except.pure]
    congr 1
    rw [decide_eq_false_iff_not, not_lt]
    rw [h4] at hmm
    obtain ⟨i, hi, rfl⟩ := List.mem_map.1 hmm
    exact hfar i (by simpa using hi)
  obtain ⟨k, rfl⟩ : ∃ k, fuel = k + 1 := ⟨fuel - 1, by omega⟩
  unfold get_systems
  simp only
  rw [sortBy_comps hp hs, sortBy_self hlen hp hs, h1]
  simp only [Run.andThen, whileRun, hc]

/-- C39 for repeated calls, when the components are already in order of position: the second call sees the same fit. -/
theorem get_systems_again_partial {N : ℝ → ℝ → ℝ} {W close : ℝ} {f f' : Fit} {res : List ℝ × List ℝ} {fuel : ℕ}
    (hs : f.means.Pairwise (· < ·)) (hlen : f.means.length = f.stddev.length)
    (h : get_systems N W close f fuel = some (.ok (res, f'))) : get_systems N W close f' fuel = some (.ok (res, f')) := by
  have hsort : sortBy f.means f.stddev = f.stddev := by
    rw [sortBy_comps (List.Perm.refl (f.means.zip f.stddev)), List.map_snd_zip (by omega)]
    have := List.pairwise_map (f := Prod.fst) (l := f.means.zip f.stddev) (R := fun a b : ℝ => a < b)
    rw [List.map_fst_zip (by omega)] at this
    exact this.1 hs
  have hf : f' = { f with stddev := sortBy f.means f.stddev } := by
    unfold get_systems at h
    simp only [Run.andThen] at h
    split at h
    · cases h
    · cases h
    · split at h
      · cases h
      · cases h
      · simp only [Option.some.injEq, Except.ok.injEq, Prod.mk.injEq] at h
        exact h.2.symm
  rw [hsort] at hf
  have : f' = f := by rw [hf]
  rw [this] at h ⊢
  exact h

/-- C39 is false for repeated calls when the fit found the components in another order: only the widths are sorted in the
object, so that the second call pairs them with the amplitudes of other components. Here (column density = width times
amplitude) the total changes from 7 to 5. -/
theorem get_systems_not_repeatable : ∃ (N : ℝ → ℝ → ℝ) (W close : ℝ) (f f' f'' : Fit) (out out' pos pos' : List ℝ) (fuel : ℕ),
    get_systems N W close f fuel = some (.ok ((out, pos), f')) ∧ get_systems N W close f' fuel = some (.ok ((out', pos'), f'')) ∧
      out.sum = 7 ∧ out'.sum = 5 := by
  let N : ℝ → ℝ → ℝ := fun b a => b * a
  let f : Fit := ⟨[1, 2], [1, 0], [1, 3]⟩
  let f' : Fit := ⟨[2, 1], [1, 0], [1, 3]⟩
  have hst : sortBy [1, 0] [1, 2] = [2, 1] := by
    rw [sortBy_comps (comps := [(0, 2), (1, 1)])]
    · rfl
    · exact List.Perm.swap _ _ _
    · simp
  have hst' : sortBy [1, 0] [2, 1] = [1, 2] := by
    rw [sortBy_comps (comps := [(0, 1), (1, 2)])]
    · rfl
    · exact List.Perm.swap _ _ _
    · simp
  have c1 : columnDensities N f = [1, 6] := by simp [columnDensities, N, f]; norm_num
  have c2 : columnDensities N f' = [2, 3] := by simp [columnDensities, N, f']
  have g1 := get_systems_apart (N := N) (W := 10) (close := 1) (f := f) (comps := [(0, 6), (1, 1)]) (fuel := 3)
    (by rw [c1]; rfl) (by rw [c1]; exact List.Perm.swap _ _ _) (by simp) (by simp) (by simp)
    (by
      intro i hi
      simp at hi
      interval_cases i <;> simp [gapAfter] <;> norm_num) (by simp)
  have g2 := get_systems_apart (N := N) (W := 10) (close := 1) (f := f') (comps := [(0, 3), (1, 2)]) (fuel := 3)
    (by rw [c2]; rfl) (by rw [c2]; exact List.Perm.swap _ _ _) (by simp) (by simp) (by simp)
    (by
      intro i hi
      simp at hi
      interval_cases i <;> simp [gapAfter] <;> norm_num) (by simp)
  refine ⟨N, 10, 1, f, f', _, [6, 1], _, [0, 1], _, 3, ?_, g2, ?_, ?_⟩
  · rw [g1]
    simp only [f, hst]
    rfl
  · norm_num
  · norm_num

/-- C39 is false for a single component and a linking length above the length of the spectrum: nothing is returned. -/
theorem get_systems_loses {N : ℝ → ℝ → ℝ} {W close b a p : ℝ} (hp : 0 ≤ p ∧ p < W) (hc : W < close) {fuel : ℕ} (hf : 2 ≤ fuel) :
    ∃ f', get_systems N W close ⟨[b], [p], [a]⟩ fuel = some (.ok (([], []), f')) := by
  obtain ⟨k, rfl⟩ : ∃ k, fuel = k + 2 := ⟨fuel - 2, by omega⟩
  have e1 : ∀ x : ℝ, sortBy [p] [x] = [x] := by intro x; simp [sortBy]
  have hW : 0 < W := by linarith
  have hm : minOf [W] = .ok W := by
    obtain ⟨m, h1, h2, -⟩ := minOf_spec (a := [W]) (by simp)
    rw [h1]
    simp at h2
    rw [h2]
  refine ⟨⟨[b], [p], [a]⟩, ?_⟩
  have hroll : roll [p] (-1) = [p] := by unfold roll; simp
  have hidx : index 1 (-1) = .ok 0 := by unfold index; simp
  have hidx0 : index 1 (-1 + 1) = .ok 0 := by unfold index; simp
  have hstart : startSys W [N |b| a] [p] = .ok ⟨[N |b| a], [p], [p - W], [p], false⟩ := by
    unfold startSys
    rw [get_eq (k := 0) (x := p) (by simpa using hidx) rfl]
    have hset : Np.set [p] (-1) (p - W) = _ := set_eq (k := 0) (by simpa using hidx) _
    simp only [bind, Except.bind, hset, hroll]
    unfold Sys.check Sys.distances
    rw [if_pos (by simpa using hW)]
    rfl
  have hagain : Sys.again close ⟨[N |b| a], [p], [p - W], [p], false⟩ = .ok true := by
    unfold Sys.again Sys.distances
    simp [hm, bind, Except.bind, pure, Except.pure, hc]
  have hmerge : Sys.merge W ⟨[N |b| a], [p], [p - W], [p], false⟩ = .ok ⟨[], [], [], [], true⟩ := by
    have ha : argmin [W] = .ok 0 := by
      unfold argmin
      rw [hm]
      simp [bind, Except.bind, pure, Except.pure]
    have hget : ∀ x : ℝ, Np.get [x] (-1) = .ok x := fun x => get_eq (k := 0) (by simpa using hidx) rfl
    have hget0 : ∀ x : ℝ, Np.get [x] 0 = .ok x := fun x => get_eq (k := 0) (by simpa using hidx0) rfl
    have hset : ∀ x y : ℝ, Np.set [x] 0 y = .ok [y] := fun x y => by
      rw [set_eq (k := 0) (by simpa using hidx0)]; rfl
    have hdel : ∀ x : ℝ, delete [x] (-1) = .ok [] := fun x => by
      unfold delete
      simp only [List.length_singleton, hidx]
      rfl
    unfold Sys.merge Sys.distances
    simp [ha, bind, Except.bind, hget, hset, hdel, hget0, pure, Except.pure]
  unfold get_systems
  simp only [columnDensities, List.map_cons, List.map_nil, List.zipWith_cons_cons, List.zipWith_nil_right, e1, hstart, Run.andThen,
    whileRun, hagain, hmerge]
  rfl

/-- C39 is false for two components at one position: the assertion fails. -/
theorem get_systems_equal_positions {N : ℝ → ℝ → ℝ} {W close b b' a a' p : ℝ} {fuel : ℕ} :
    get_systems N W close ⟨[b, b'], [p, p], [a, a']⟩ fuel = some (.error .assertionError) := by
  have e1 : sortBy [p, p] [p, p] = [p, p] := by simp [sortBy, List.mergeSort]
  have hroll : roll [p, p] (-1) = [p, p] := by unfold roll; simp
  have hidx : index 2 (-1) = .ok 1 := by unfold index; simp
  unfold get_systems
  simp only [e1]
  have : ∀ c, startSys W c [p, p] = .error .assertionError := by
    intro c
    unfold startSys
    rw [get_eq (k := 1) (x := p) (by simpa using hidx) rfl]
    have hset : Np.set [p, p] (-1) (p - W) = _ := set_eq (k := 1) (by simpa using hidx) _
    simp only [bind, Except.bind, hset, hroll]
    unfold Sys.check Sys.distances
    rw [if_neg]
    intro hc
    have := hc 0 (by simp)
    exact absurd this (lt_irrefl _)
  rw [this]
  rfl

/-- A spectrum without components makes `get_systems` fail. -/
theorem get_systems_none {N : ℝ → ℝ → ℝ} {W close : ℝ} {fuel : ℕ} :
    get_systems N W close ⟨[], [], []⟩ fuel = some (.error .indexError) := by
  unfold get_systems startSys
  simp [sortBy, columnDensities, Np.get, index, bind, Except.bind, Run.andThen]

/-- Three components, the last two around the edge of the spectrum: two systems. -/
example : ∃ out pos f', get_systems (fun b a => b * a) 10 2 ⟨[1, 1, 1], [1/2, 5, 19/2], [3, 4, 5]⟩ 4 = some (.ok ((out, pos), f')) ∧
    AreSystems 10 2 [(1/2, 3), (5, 4), (19/2, 5)] out ∧ out.sum = 12 := by
  have hc : columnDensities (fun b a => b * a) ⟨[1, 1, 1], [1/2, 5, 19/2], [3, 4, 5]⟩ = [3, 4, 5] := by
    simp [columnDensities]
  obtain ⟨out, pos, f', h1, h2, -⟩ := get_systems_partial (N := fun b a => b * a) (W := 10) (close := 2)
    (f := ⟨[1, 1, 1], [1/2, 5, 19/2], [3, 4, 5]⟩) (comps := [(1/2, 3), (5, 4), (19/2, 5)])
    (by rw [hc]; rfl) (by rw [hc]; exact List.Perm.refl _) (by simp; norm_num) (by simp; norm_num) (by simp) (by simp) (fuel := 4) (by simp)
  refine ⟨out, pos, f', h1, h2, ?_⟩
  rw [(systems_sum h2).1]
  norm_num

/-! The theorems at work for two components in a box of ten. -/

theorem exDens : columnDensities (fun b a => b * a) ⟨[1, 1], [5, 1], [3, 4]⟩ = [3, 4] := by
  simp [columnDensities]

example := get_systems_conserve (N := fun b a => b * a) (W := 10) (close := 2) (f := ⟨[1, 1], [5, 1], [3, 4]⟩) (comps := [(1, 4), (5, 3)])
  (by rw [exDens]; rfl) (by rw [exDens]; exact List.Perm.swap _ _ _) (by simp) (by simp; norm_num) (by simp) (by simp) (fuel := 3) (by simp)

example := get_systems_loses (N := fun b a => b * a) (W := 10) (close := 11) (b := 1) (a := 2) (p := 5) (by norm_num) (by norm_num) (fuel := 2) (by norm_num)

end Verif.Props
