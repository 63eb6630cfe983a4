import Verif.Model.FilterTau
import Verif.Lemmas.Numpy

/-!
C27: filtering strong absorbers out of the optical depths.
-/

namespace Verif.Props
open Verif Verif.Np Verif.FilterTau

/-- The pixels connected to a peak above `thresh` by pixels above `edge`, on a periodic spectrum. -/
inductive AroundPeak (tt : List ℝ) (thresh edge : ℝ) : ℕ → Prop where
  | peak (p : ℕ) (x : ℝ) (hx : tt[p]? = some x) (h : thresh < x) : AroundPeak tt thresh edge p
  | right (p : ℕ) (hp : AroundPeak tt thresh edge p) (x : ℝ) (hx : tt[(p + 1) % tt.length]? = some x) (h : edge < x) :
      AroundPeak tt thresh edge ((p + 1) % tt.length)
  | left (p : ℕ) (hp : AroundPeak tt thresh edge ((p + 1) % tt.length)) (x : ℝ) (hlt : p < tt.length)
      (hx : tt[p]? = some x) (h : edge < x) : AroundPeak tt thresh edge p

/-- `tt'` is `tt` with some pixels around peaks, all above `edge`, replaced by `taueff`. -/
structure Filtered (tt tt' : List ℝ) (taueff thresh edge : ℝ) : Prop where
  length : tt'.length = tt.length
  pixel : ∀ (p : ℕ) (x x' : ℝ), tt[p]? = some x → tt'[p]? = some x' →
    x' = x ∨ (x' = taueff ∧ edge < x ∧ AroundPeak tt thresh edge p)

theorem filtered_refl (tt : List ℝ) (taueff thresh edge : ℝ) : Filtered tt tt taueff thresh edge :=
  ⟨rfl, fun p x x' h h' => .inl (by rw [h] at h'; exact (Option.some.inj h').symm)⟩

/-- Replacing one more pixel. -/
theorem filtered_set {tt tt' : List ℝ} {taueff thresh edge : ℝ} (h : Filtered tt tt' taueff thresh edge)
    (hte : taueff < edge) {p : ℕ} {x : ℝ} (hx : tt'[p]? = some x) (hxe : edge < x)
    (hp : tt[p]? = some x → AroundPeak tt thresh edge p) :
    tt[p]? = some x ∧ Filtered tt (tt'.set p taueff) taueff thresh edge := by
  have hlt' : p < tt'.length := (List.getElem?_eq_some_iff.1 hx).1
  have hlt : p < tt.length := by rw [← h.length]; exact hlt'
  have hx0 : tt[p]? = some x := by
    have := h.pixel p tt[p] x (List.getElem?_eq_getElem hlt) hx
    rcases this with e | ⟨e, -, -⟩
    · rw [List.getElem?_eq_getElem hlt, e]
    · exfalso; linarith
  refine ⟨hx0, ⟨by rw [List.length_set, h.length], ?_⟩⟩
  intro q y y' hy hy'
  rw [List.getElem?_set] at hy'
  by_cases hpq : p = q
  · subst hpq
    rw [if_pos rfl, if_pos hlt'] at hy'
    rw [hx0] at hy
    obtain rfl := Option.some.inj hy
    exact .inr ⟨(Option.some.inj hy').symm, hxe, hp hx0⟩
  · rw [if_neg hpq] at hy'
    exact h.pixel q y y' hy hy'

theorem countP_set_lt {tt : List ℝ} {p : ℕ} {x y edge : ℝ} (hx : tt[p]? = some x) (hxe : edge < x) (hy : y ≤ edge) :
    (tt.set p y).countP (fun t => decide (edge < t)) < tt.countP (fun t => decide (edge < t)) := by
  induction tt generalizing p with
  | nil => cases hx
  | cons t tt ih =>
    cases p with
    | zero =>
      obtain rfl := Option.some.inj hx
      rw [List.set_cons_zero, List.countP_cons_of_neg (by simpa using hy), List.countP_cons_of_pos (by simpa using hxe)]
      omega
    | succ p =>
      rw [List.set_cons_succ, List.countP_cons, List.countP_cons]
      have := ih (p := p) hx
      omega

theorem countP_set_le {tt : List ℝ} {p : ℕ} {y thresh : ℝ} (hy : y ≤ thresh) :
    (tt.set p y).countP (fun t => decide (thresh < t)) ≤ tt.countP (fun t => decide (thresh < t)) := by
  induction tt generalizing p with
  | nil => simp
  | cons t tt ih =>
    cases p with
    | zero =>
      rw [List.set_cons_zero, List.countP_cons_of_neg (by simpa using hy), List.countP_cons]
      omega
    | succ p =>
      rw [List.set_cons_succ, List.countP_cons, List.countP_cons]
      have := ih (p := p)
      omega

theorem get_map_ok {tt : List ℝ} {i : ℤ} {k : ℕ} {x edge : ℝ} (hi : index tt.length i = .ok k) (hx : tt[k]? = some x) :
    (get tt i).map (fun y => decide (y > edge)) = .ok (decide (edge < x)) := by
  rw [get_eq hi hx]; rfl

theorem residue_lt {n : ℕ} (hn : 0 < n) (i : ℤ) : (i % n).toNat < n := by
  have := Int.emod_lt_of_pos i (Int.ofNat_lt.2 hn)
  have := Int.emod_nonneg i (by omega : (n : ℤ) ≠ 0)
  omega

theorem residue_succ {n : ℕ} (hn : 0 < n) (i : ℤ) : (((i % n).toNat + 1) % n : ℕ) = ((i + 1) % n).toNat := by
  have h0 := Int.emod_nonneg i (by omega : (n : ℤ) ≠ 0)
  have h1 := Int.emod_nonneg (i + 1) (by omega : (n : ℤ) ≠ 0)
  zify
  rw [Int.toNat_of_nonneg h0, Int.toNat_of_nonneg h1, Int.emod_add_emod]

/-- The loop to the left of a peak. -/
theorem leftLoop_spec {tt tt1 : List ℝ} {taueff thresh edge : ℝ} (hte : taueff < edge)
    (hf : Filtered tt tt1 taueff thresh edge) {m : ℕ} {x : ℝ} (hm : tt1[m]? = some x) (hx : thresh < x) (hxe : edge < x)
    (hth : taueff ≤ thresh)
    {fuel : ℕ} (hfuel : tt1.length < fuel) :
    ∃ tt2 j, leftLoop m edge taueff fuel tt1 = some (.ok (tt2, j)) ∧ Filtered tt tt2 taueff thresh edge ∧
      tt2.countP (fun t => decide (thresh < t)) < tt1.countP (fun t => decide (thresh < t)) ∧
      AroundPeak tt thresh edge m := by
  have hmlt : m < tt1.length := (List.getElem?_eq_some_iff.1 hm).1
  set n := tt1.length with hn
  have hn0 : 0 < n := by omega
  have hlen0 : tt.length = n := by rw [← hf.length]
  have hpeak : AroundPeak tt thresh edge m := by
    have h0 : tt[m]? = some x := (filtered_set hf hte hm hxe (fun h => .peak m x h hx)).1
    exact .peak m x h0 hx
  let Inv : List ℝ × ℤ → Prop := fun s => s.1.length = n ∧ 0 ≤ s.2 ∧ s.2 ≤ n ∧
    Filtered tt s.1 taueff thresh edge ∧
    (0 < s.2 → s.1[m]? = some taueff ∧ AroundPeak tt thresh edge (((m : ℤ) - s.2 + 1) % n).toNat) ∧
    s.1.countP (fun t => decide (thresh < t)) ≤ tt1.countP (fun t => decide (thresh < t)) ∧
    (0 < s.2 → s.1.countP (fun t => decide (thresh < t)) < tt1.countP (fun t => decide (thresh < t))) ∧
    (s.2 = 0 → s.1 = tt1)
  have hidx : ∀ s : List ℝ × ℤ, Inv s → index s.1.length ((m : ℤ) - s.2) = .ok (((m : ℤ) - s.2) % n).toNat := by
    rintro s ⟨h1, h2, h3, -⟩
    rw [h1]
    exact index_eq (by omega) (by omega)
  have hget : ∀ s : List ℝ × ℤ, Inv s → ∃ y, s.1[(((m : ℤ) - s.2) % n).toNat]? = some y := by
    rintro s ⟨h1, -⟩
    exact ⟨_, List.getElem?_eq_getElem (by rw [h1]; exact residue_lt hn0 _)⟩
  obtain ⟨s', a1, a2, a3⟩ := whileRun_measure
    (cond := fun s : List ℝ × ℤ => (get s.1 ((m : ℤ) - s.2)).map (fun x => decide (x > edge)))
    (body := fun s => some ((set s.1 ((m : ℤ) - s.2) taueff).map (fun t => (t, s.2 + 1))))
    Inv (fun s => s.1.countP (fun t => decide (edge < t))) (by
      intro s hs
      obtain ⟨y, hy⟩ := hget s hs
      exact ⟨_, get_map_ok (hidx s hs) hy⟩) (by
      intro s hs hc
      obtain ⟨y, hy⟩ := hget s hs
      rw [get_map_ok (hidx s hs) hy] at hc
      have hye : edge < y := by simpa using Except.ok.inj hc
      have hi := hidx s hs
      obtain ⟨h1, h2, h3, h4, h5, h6, h7, h8⟩ := hs
      set k := (((m : ℤ) - s.2) % n).toNat with hk
      have hkn : k < n := residue_lt hn0 _
      have hjn : s.2 < n := by
        rcases h3.lt_or_eq with h | h
        · exact h
        · exfalso
          have hkm : k = m := by
            rw [hk, h, Int.sub_emod_right, Int.emod_eq_of_lt (by omega) (by omega)]; simp
          rw [hkm, (h5 (by omega)).1] at hy
          have := Option.some.inj hy
          linarith
      have haround : AroundPeak tt thresh edge k := by
        rcases h2.eq_or_lt with h0 | h0
        · have : k = m := by rw [hk, ← h0, sub_zero, Int.emod_eq_of_lt (by omega) (by omega)]; simp
          rw [this]; exact hpeak
        · have hprev := (h5 h0).2
          have h0' : tt[k]? = some y := by
            have := h4.pixel k tt[k] y (List.getElem?_eq_getElem (by omega)) hy
            rcases this with e | ⟨e, -, -⟩
            · rw [List.getElem?_eq_getElem (by omega), e]
            · exfalso; linarith
          refine .left k ?_ y (by omega) h0' hye
          rw [hlen0, hk, residue_succ hn0]
          exact hprev
      obtain ⟨g1, g2⟩ := filtered_set h4 hte hy hye (fun _ => haround)
      have hcl := countP_set_le (tt := s.1) (p := k) hth
      refine ⟨(s.1.set k taueff, s.2 + 1), ?_, ⟨?_, ?_, ?_, g2, ?_, ?_, ?_, ?_⟩, ?_⟩
      · rw [set_eq hi]; rfl
      · change (s.1.set k taueff).length = n
        rw [List.length_set, h1]
      · change 0 ≤ s.2 + 1
        omega
      · change s.2 + 1 ≤ n
        omega
      · intro _
        change (s.1.set k taueff)[m]? = some taueff ∧ AroundPeak tt thresh edge (((m : ℤ) - (s.2 + 1) + 1) % n).toNat
        constructor
        · rw [List.getElem?_set]
          by_cases hkm : k = m
          · rw [if_pos hkm, if_pos (by omega)]
          · rw [if_neg hkm]
            rcases h2.eq_or_lt with h0 | h0
            · exact absurd (by rw [hk, ← h0, sub_zero, Int.emod_eq_of_lt (by omega) (by omega)]; simp) hkm
            · exact (h5 h0).1
        · rw [show ((m : ℤ) - (s.2 + 1) + 1) = m - s.2 by ring]
          exact haround
      · exact hcl.trans h6
      · intro _
        change (s.1.set k taueff).countP _ < _
        rcases h2.eq_or_lt with h0 | h0
        · have : k = m := by rw [hk, ← h0, sub_zero, Int.emod_eq_of_lt (by omega) (by omega)]; simp
          rw [h8 h0.symm, this]
          exact countP_set_lt hm hx hth
        · exact lt_of_le_of_lt hcl (h7 h0)
      · intro h
        change s.2 + 1 = 0 at h
        omega
      · exact countP_set_lt hy hye hte.le)
    fuel (tt1, 0) ⟨rfl, le_rfl, by simp, hf, fun h => absurd h (lt_irrefl _), le_rfl,
      fun h => absurd h (lt_irrefl _), fun _ => rfl⟩ (by
      have : tt1.countP (fun t => decide (edge < t)) ≤ tt1.length := List.countP_le_length
      change tt1.countP _ < fuel
      omega)
  refine ⟨s'.1, s'.2, a1, a2.2.2.2.1, ?_, hpeak⟩
  -- at least the peak itself has been replaced
  obtain ⟨h1, h2, h3, h4, h5, h6, h7, h8⟩ := a2
  rcases h2.eq_or_lt with h0 | h0
  · exfalso
    have hi : index s'.1.length ((m : ℤ) - s'.2) = .ok m := by
      rw [h1, ← h0, sub_zero, index_nonneg (by omega) (by omega)]; simp
    rw [get_map_ok hi (by rw [h8 h0.symm]; exact hm)] at a3
    have := Except.ok.inj a3
    simp at this
    linarith
  · exact h7 h0

/-- The loop to the right of a peak. -/
theorem rightLoop_spec {tt tt1 : List ℝ} {taueff thresh edge : ℝ} (hte : taueff < edge)
    (hf : Filtered tt tt1 taueff thresh edge) {m : ℕ} (hmlt : m < tt1.length) (hm : AroundPeak tt thresh edge m)
    (hth : taueff ≤ thresh) {fuel : ℕ} (hfuel : tt1.length < fuel) :
    ∃ tt2 j, rightLoop tt1.length m edge taueff fuel tt1 = some (.ok (tt2, j)) ∧ Filtered tt tt2 taueff thresh edge ∧
      tt2.countP (fun t => decide (thresh < t)) ≤ tt1.countP (fun t => decide (thresh < t)) := by
  set n := tt1.length with hn
  have hn0 : 0 < n := by omega
  have hlen0 : tt.length = n := by rw [← hf.length]
  have hwrap : ∀ j : ℤ, 0 ≤ (m : ℤ) + j → (m : ℤ) + j ≤ n →
      0 ≤ (m : ℤ) + wrapJ n m j ∧ (m : ℤ) + wrapJ n m j < n ∧ ((m : ℤ) + wrapJ n m j) % n = (m + j) % n := by
    intro j h1 h2
    unfold wrapJ
    split
    · refine ⟨by omega, by omega, ?_⟩
      rw [← add_sub_assoc, Int.sub_emod_right]
    · exact ⟨by omega, by omega, rfl⟩
  let Inv : List ℝ × ℤ → Prop := fun s => s.1.length = n ∧ 0 ≤ (m : ℤ) + s.2 ∧ (m : ℤ) + s.2 < n ∧
    Filtered tt s.1 taueff thresh edge ∧ AroundPeak tt thresh edge (((m : ℤ) + s.2 - 1) % n).toNat ∧
    s.1.countP (fun t => decide (thresh < t)) ≤ tt1.countP (fun t => decide (thresh < t))
  have hidx : ∀ s : List ℝ × ℤ, Inv s → index s.1.length ((m : ℤ) + s.2) = .ok ((m : ℤ) + s.2).toNat := by
    rintro s ⟨h1, h2, h3, -⟩
    rw [h1]
    exact index_nonneg h2 h3
  have hget : ∀ s : List ℝ × ℤ, Inv s → ∃ y, s.1[((m : ℤ) + s.2).toNat]? = some y := by
    rintro s ⟨h1, h2, h3, -⟩
    exact ⟨_, List.getElem?_eq_getElem (by omega)⟩
  obtain ⟨w1, w2, w3⟩ := hwrap 1 (by omega) (by omega)
  obtain ⟨s', a1, a2, a3⟩ := whileRun_measure
    (cond := fun s : List ℝ × ℤ => (get s.1 ((m : ℤ) + s.2)).map (fun x => decide (x > edge)))
    (body := fun s => some ((set s.1 ((m : ℤ) + s.2) taueff).map (fun t => (t, wrapJ n m (s.2 + 1)))))
    Inv (fun s => s.1.countP (fun t => decide (edge < t))) (by
      intro s hs
      obtain ⟨y, hy⟩ := hget s hs
      exact ⟨_, get_map_ok (hidx s hs) hy⟩) (by
      intro s hs hc
      obtain ⟨y, hy⟩ := hget s hs
      rw [get_map_ok (hidx s hs) hy] at hc
      have hye : edge < y := by simpa using Except.ok.inj hc
      have hi := hidx s hs
      obtain ⟨h1, h2, h3, h4, h5, h6⟩ := hs
      set k := ((m : ℤ) + s.2).toNat with hk
      have hkn : k < n := by omega
      have hkz : (k : ℤ) = (m : ℤ) + s.2 := Int.toNat_of_nonneg h2
      have haround : AroundPeak tt thresh edge k := by
        have h0' : tt[k]? = some y := by
          have := h4.pixel k tt[k] y (List.getElem?_eq_getElem (by omega)) hy
          rcases this with e | ⟨e, -, -⟩
          · rw [List.getElem?_eq_getElem (by omega), e]
          · exfalso; linarith
        have he : ((((m : ℤ) + s.2 - 1) % n).toNat + 1) % n = k := by
          rw [residue_succ hn0, sub_add_cancel, Int.emod_eq_of_lt h2 h3]
        have := AroundPeak.right _ h5 y (by rw [hlen0, he]; exact h0') hye
        rw [hlen0, he] at this
        exact this
      obtain ⟨g1, g2⟩ := filtered_set h4 hte hy hye (fun _ => haround)
      have hcl := countP_set_le (tt := s.1) (p := k) hth
      obtain ⟨v1, v2, v3⟩ := hwrap (s.2 + 1) (by omega) (by omega)
      refine ⟨(s.1.set k taueff, wrapJ n m (s.2 + 1)), ?_, ⟨?_, v1, v2, g2, ?_, ?_⟩, ?_⟩
      · rw [set_eq hi]; rfl
      · change (s.1.set k taueff).length = n
        rw [List.length_set, h1]
      · change AroundPeak tt thresh edge (((m : ℤ) + wrapJ n m (s.2 + 1) - 1) % n).toNat
        rw [Int.sub_emod, v3, ← Int.sub_emod, show (m : ℤ) + (s.2 + 1) - 1 = m + s.2 by ring, ← hkz,
          Int.emod_eq_of_lt (by omega) (by omega)]
        simpa using haround
      · exact hcl.trans h6
      · exact countP_set_lt hy hye hte.le)
    fuel (tt1, wrapJ n m 1) ⟨rfl, w1, w2, hf, (by
      change AroundPeak tt thresh edge (((m : ℤ) + wrapJ n m 1 - 1) % n).toNat
      rw [Int.sub_emod, w3, ← Int.sub_emod, add_sub_cancel_right, Int.emod_eq_of_lt (by omega) (by omega)]
      simpa using hm), le_rfl⟩ (by
      have : tt1.countP (fun t => decide (edge < t)) ≤ tt1.length := List.countP_le_length
      change tt1.countP _ < fuel
      omega)
  exact ⟨s'.1, s'.2, a1, a2.2.2.2.1, a2.2.2.2.2.2⟩

/-- C27, one sightline (partial: the threshold must be at least `taueff + thresh2`): the filter returns; no
pixel of the result is above the threshold, and every pixel is unchanged or is a pixel around a peak lowered
to `taueff`. -/
theorem filter_single_partial {tt : List ℝ} {taueff tau_thresh thresh2 : ℝ} (hne : tt ≠ []) (h2 : 0 < thresh2)
    (hth : taueff + thresh2 ≤ tau_thresh) {fuel : ℕ} (hfuel : tt.length < fuel) :
    ∃ tt' tot, filterSingle tt.length taueff tau_thresh thresh2 fuel tt = some (.ok (tt', tot)) ∧
      Filtered tt tt' taueff tau_thresh (taueff + thresh2) ∧ ∀ x ∈ tt', x ≤ tau_thresh := by
  have hlen0 : 0 < tt.length := List.length_pos_iff.2 hne
  obtain ⟨s', a1, a2, a3⟩ := whileRun_measure
    (cond := fun s : List ℝ × ℤ => (maxOf s.1).map (fun m => decide (m > tau_thresh)))
    (body := pass tt.length (taueff + thresh2) taueff fuel)
    (fun s => Filtered tt s.1 taueff tau_thresh (taueff + thresh2))
    (fun s => s.1.countP (fun t => decide (tau_thresh < t))) (by
      intro s hs
      obtain ⟨m, hm, -⟩ := maxOf_spec (a := s.1) (by rw [← List.length_pos_iff, hs.length]; exact hlen0)
      exact ⟨_, by rw [hm]; rfl⟩) (by
      intro s hs hc
      obtain ⟨k, m, hk, hm, hkl, hkm, hmax, -⟩ := argmax_spec (a := s.1)
        (by rw [← List.length_pos_iff, hs.length]; exact hlen0)
      rw [hm] at hc
      have hmt : tau_thresh < m := by simpa using Except.ok.inj hc
      obtain ⟨tt2, j2, b1, b2, b3, b4⟩ := leftLoop_spec (m := k) (by linarith) hs hkm hmt (by linarith) (by linarith)
        (fuel := fuel) (by rw [hs.length]; exact hfuel)
      have hl2 : tt2.length = tt.length := b2.length
      obtain ⟨tt3, j3, c1, c2, c3⟩ := rightLoop_spec (m := k) (by linarith) b2 (by rw [hl2, ← hs.length]; exact hkl) b4
        (by linarith) (fuel := fuel) (by rw [hl2]; exact hfuel)
      refine ⟨(tt3, s.2 + j2 + j3), ?_, c2, lt_of_le_of_lt c3 b3⟩
      unfold pass
      rw [hk]
      change (leftLoop (k : ℤ) _ _ fuel s.1).andThen _ = _
      rw [b1]
      change (rightLoop tt.length (k : ℤ) _ _ fuel tt2).andThen _ = _
      rw [← hl2, c1]
      rfl)
    fuel (tt, 0) (filtered_refl _ _ _ _) (by
      have : tt.countP (fun t => decide (tau_thresh < t)) ≤ tt.length := List.countP_le_length
      change tt.countP _ < fuel
      omega)
  refine ⟨s'.1, s'.2, a1, a2, ?_⟩
  intro x hx
  obtain ⟨m, hm, -, hmax⟩ := maxOf_spec (a := s'.1) (List.ne_nil_of_mem hx)
  rw [hm] at a3
  have : ¬tau_thresh < m := by simpa using Except.ok.inj a3
  linarith [hmax x hx]

/-- The filter never raises a pixel. -/
theorem filtered_le {tt tt' : List ℝ} {taueff thresh edge : ℝ} (h : Filtered tt tt' taueff thresh edge)
    (hte : taueff ≤ edge) (p : ℕ) (x x' : ℝ) (hx : tt[p]? = some x) (hx' : tt'[p]? = some x') : x' ≤ x := by
  rcases h.pixel p x x' hx hx' with rfl | ⟨rfl, h1, -⟩ <;> linarith

/-- C27 (partial: the threshold must exceed the effective optical depth of the whole set by 0.25): filtering a
set of sightlines returns without an exception; sightlines without a pixel above the threshold are unchanged,
the others are filtered around their peaks, and nothing above the threshold is left. -/
theorem filter_tau_partial {n : ℕ} (hn : 0 < n) {tau : List (List ℝ)} (hne : tau ≠ []) (hrows : ∀ r ∈ tau, r.length = n)
    {th : ℝ} (hth : effective tau + 0.25 ≤ th) (hpos : 0 < th) {fuel : ℕ} (hfuel : n < fuel) :
    ∃ tau', filterTau n (some th) fuel tau = some (.ok (tau', .ok ())) ∧
      List.Forall₂ (fun r r' => Filtered r r' (effective tau) th (effective tau + 0.25) ∧ (∀ x ∈ r', x ≤ th) ∧
        ((∀ x ∈ r, x ≤ th) → r' = r)) tau tau' := by
  have H : ∀ rows : List (List ℝ), (∀ r ∈ rows, r.length = n) →
      ∃ rows', filterRows n (effective tau) th fuel rows = some (.ok rows') ∧
        List.Forall₂ (fun r r' => Filtered r r' (effective tau) th (effective tau + 0.25) ∧ (∀ x ∈ r', x ≤ th) ∧
          ((∀ x ∈ r, x ≤ th) → r' = r)) rows rows' := by
    intro rows
    induction rows with
    | nil => intro _; exact ⟨[], rfl, .nil⟩
    | cons row rows ih =>
      intro hr
      have hrl : row.length = n := hr row (by simp)
      have hrne : row ≠ [] := by rw [← List.length_pos_iff, hrl]; exact hn
      obtain ⟨rows', h1, h2⟩ := ih (fun r h => hr r (by simp [h]))
      obtain ⟨m, hm, hmem, hmax⟩ := maxOf_spec hrne
      by_cases hmt : m > th
      · obtain ⟨row', tot, g1, g2, g3⟩ := filter_single_partial (tt := row) hrne (by norm_num) hth
          (fuel := fuel) (by rw [hrl]; exact hfuel)
        rw [hrl] at g1
        refine ⟨row' :: rows', ?_, .cons ⟨g2, g3, fun h => absurd (h m hmem) (not_le.2 hmt)⟩ h2⟩
        unfold filterRows
        rw [hm]
        change Run.andThen (if m > th then _ else _) _ = _
        rw [if_pos hmt, g1]
        change (filterRows n (effective tau) th fuel rows).andThen _ = _
        rw [h1]; rfl
      · refine ⟨row :: rows', ?_, .cons ⟨filtered_refl _ _ _ _, fun x hx => (hmax x hx).trans (not_lt.1 hmt),
          fun _ => rfl⟩ h2⟩
        unfold filterRows
        rw [hm]
        change Run.andThen (if m > th then _ else _) _ = _
        rw [if_neg hmt]
        change (filterRows n (effective tau) th fuel rows).andThen _ = _
        rw [h1]; rfl
  obtain ⟨tau', h1, h2⟩ := H tau hrows
  refine ⟨tau', ?_, h2⟩
  have hall : ∀ x ∈ tau'.flatten, x ≤ th := by
    intro x hx
    obtain ⟨r', hr', hxr⟩ := List.mem_flatten.1 hx
    clear H h1
    have : ∀ (l l' : List (List ℝ)), List.Forall₂ (fun r r' => Filtered r r' (effective tau) th (effective tau + 0.25) ∧
        (∀ x ∈ r', x ≤ th) ∧ ((∀ x ∈ r, x ≤ th) → r' = r)) l l' → r' ∈ l' → x ≤ th := by
      intro l l' hl
      induction hl with
      | nil => intro h; cases h
      | cons hh _ ih =>
        intro h
        rcases List.mem_cons.1 h with rfl | h
        · exact hh.2.1 x hxr
        · exact ih h
    exact this _ _ h2 hr'
  have hne' : tau'.flatten ≠ [] := by
    cases h2 with
    | nil => exact absurd rfl hne
    | @cons r r' l l' hr hl =>
      intro he
      have h0 : r' = [] := by
        have := List.flatten_eq_nil_iff.1 he r' (by simp)
        exact this
      have h3 := hr.1.length
      have h4 := hrows r (by simp)
      rw [h0] at h3
      simp only [List.length_nil] at h3
      omega
  obtain ⟨m, hm, hmem, hmax⟩ := maxOf_spec hne'
  unfold filterTau
  dsimp only
  rw [h1]
  change Run.andThen (some (maxOf tau'.flatten)) _ = _
  rw [hm]
  change some (Except.ok (tau', if m < th * 1.01 then (Except.ok () : Py Unit) else .error .assertionError)) = _
  rw [if_pos]
  have := hall m hmem
  linarith

/-- Disagreement: where the maximum lies between the threshold and `taueff + thresh2`, the filter finds the
peak but replaces nothing, and never returns. -/
theorem filter_hangs {tt : List ℝ} {taueff tau_thresh thresh2 m : ℝ} (hm : maxOf tt = .ok m) (h1 : tau_thresh < m)
    (h2 : m ≤ taueff + thresh2) (fuel : ℕ) : filterSingle tt.length taueff tau_thresh thresh2 fuel tt = none := by
  have hne : tt ≠ [] := by rintro rfl; cases hm
  obtain ⟨k, m', hk, hm', hkl, hkm, hmax, -⟩ := argmax_spec hne
  rw [hm] at hm'
  obtain rfl := Except.ok.inj hm'
  have hn0 : 0 < tt.length := by omega
  have hget : ∀ (i : ℤ), 0 ≤ i → i < tt.length →
      (get tt i).map (fun x => decide (x > taueff + thresh2)) = .ok false := by
    intro i hi hi'
    have hlt : i.toNat < tt.length := by omega
    rw [get_map_ok (index_nonneg hi hi') (List.getElem?_eq_getElem hlt)]
    have := hmax tt[i.toNat] (List.getElem_mem hlt)
    simp only [Except.ok.injEq, decide_eq_false_iff_not, not_lt]
    linarith
  have hstay : ∀ f (tot : ℤ), ∃ tot', f ≠ 0 → pass tt.length (taueff + thresh2) taueff f (tt, tot) = some (.ok (tt, tot')) := by
    intro f tot
    have hw : 0 ≤ (k : ℤ) + wrapJ tt.length k 1 ∧ (k : ℤ) + wrapJ tt.length k 1 < tt.length := by
      unfold wrapJ; split <;> omega
    refine ⟨tot + 0 + wrapJ tt.length k 1, fun hf => ?_⟩
    obtain ⟨f, rfl⟩ := Nat.exists_eq_succ_of_ne_zero hf
    have hl : leftLoop k (taueff + thresh2) taueff (f + 1) tt = some (.ok (tt, 0)) := by
      unfold leftLoop whileRun
      rw [hget _ (by simp) (by simpa using hkl)]
    have hr : rightLoop tt.length k (taueff + thresh2) taueff (f + 1) tt = some (.ok (tt, wrapJ tt.length k 1)) := by
      unfold rightLoop whileRun
      rw [hget _ hw.1 hw.2]
    unfold pass
    rw [hk]
    change (leftLoop (k : ℤ) _ _ (f + 1) tt).andThen _ = _
    rw [hl]
    change (rightLoop tt.length (k : ℤ) _ _ (f + 1) tt).andThen _ = _
    rw [hr]
    rfl
  have : ∀ f g (tot : ℤ), whileRun (fun s : List ℝ × ℤ => (maxOf s.1).map (fun m => decide (m > tau_thresh)))
      (pass tt.length (taueff + thresh2) taueff f) g (tt, tot) = none := by
    intro f g
    induction g with
    | zero => intro tot; rfl
    | succ g ih =>
      intro tot
      unfold whileRun
      have hc : (maxOf tt).map (fun m => decide (m > tau_thresh)) = .ok true := by
        rw [hm]; simp [Except.map, h1]
      dsimp only
      rw [hc]
      dsimp only
      rcases Nat.eq_zero_or_pos f with rfl | hf
      · unfold pass
        rw [hk]
        rfl
      · obtain ⟨tot', ht⟩ := hstay f tot
        rw [ht hf.ne']
        exact ih tot'
  exact this fuel fuel 0

/-- A threshold of 0.5, a largest depth of 0.6 and an effective optical depth of 0.5. -/
example := filter_hangs (tt := [0.6, 0.1]) (taueff := 0.5) (tau_thresh := 0.5) (thresh2 := 0.25) (m := 0.6) (by norm_num [maxOf]) (by norm_num) (by norm_num)

/-- Disagreement, end to end: sightlines in which all pixels have the same optical depth `c`. For any
threshold below `c` the statistic never returns. -/
theorem filter_tau_hangs {n k : ℕ} (hn : 0 < n) (hk : 0 < k) {c th : ℝ} (hc : th < c) (fuel : ℕ) :
    filterTau n (some th) fuel (List.replicate k (List.replicate n c)) = none := by
  have heff : effective (List.replicate k (List.replicate n c)) = c := by
    unfold effective mean
    rw [List.flatten_replicate_replicate, List.map_replicate, List.sum_replicate, List.length_replicate, nsmul_eq_mul,
      mul_div_cancel_left₀ _ (by positivity), Real.log_exp]
    ring
  obtain ⟨k, rfl⟩ := Nat.exists_eq_succ_of_ne_zero hk.ne'
  obtain ⟨m, hm, hmem, -⟩ := maxOf_spec (a := List.replicate n c) (by simp; omega)
  obtain rfl := List.eq_of_mem_replicate hmem
  unfold filterTau
  dsimp only
  rw [heff, List.replicate_succ]
  unfold filterRows
  rw [hm]
  change ((if m > th then _ else _ : Run (List ℝ)).andThen _ : Run _).andThen _ = _
  rw [if_pos hc]
  have := filter_hangs (tt := List.replicate n m) (taueff := m) (thresh2 := 0.25) hm hc (by linarith) fuel
  rw [List.length_replicate] at this
  rw [this]
  rfl

/-- Witness: a spectrum of four pixels with one peak; its neighbour above the edge is replaced too. -/
example : ∃ tt' tot, filterSingle 4 0.5 10 0.25 5 [20, 3, 0.1, 0.2] = some (.ok (tt', tot)) ∧
    Filtered [20, 3, 0.1, 0.2] tt' 0.5 10 (0.5 + 0.25) ∧ ∀ x ∈ tt', x ≤ 10 :=
  filter_single_partial (tt := [20, 3, 0.1, 0.2]) (by simp) (by norm_num) (by norm_num) (by simp)

/-- Witness for the set of sightlines: the effective optical depth is below the threshold. -/
example : effective [[20, 0], [0, 0]] + 0.25 ≤ 10 := by
  unfold effective mean
  have h1 : (1 : ℝ) / 2 ≤ (List.map (fun t : ℝ => Real.exp (-t)) [[20, 0], [0, 0]].flatten).sum /
      (List.map (fun t : ℝ => Real.exp (-t)) [[20, 0], [0, 0]].flatten).length := by
    have := Real.exp_pos (-20 : ℝ)
    norm_num
    linarith
  have h2 := Real.log_le_log (by norm_num) h1
  have h3 : Real.log (1 / 2) = -Real.log 2 := by rw [one_div, Real.log_inv]
  have h4 := Real.log_le_sub_one_of_pos (show (0 : ℝ) < 2 by norm_num)
  linarith

end Verif.Props
