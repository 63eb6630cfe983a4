import Verif.Model.CTools
import Verif.Lemmas.Arrays
import Verif.Lemmas.Numpy

/-!
C45: the smoothing and the power spectrum of the stand-alone C tools.
-/

namespace Verif.Props.CTools
open Verif Verif.CTools Verif.FluxStats

/-! ### Loops -/

theorem mem_intRange {a b j : ℤ} : j ∈ intRange a b ↔ a ≤ j ∧ j < b := by
  unfold intRange
  rw [List.mem_map]
  constructor
  · rintro ⟨n, hn, rfl⟩
    rw [List.mem_range] at hn
    omega
  · rintro ⟨h1, h2⟩
    exact ⟨(j - a).toNat, by rw [List.mem_range]; omega, by omega⟩

theorem intRange_append {a b c : ℤ} (h1 : a ≤ b) (h2 : b ≤ c) : intRange a b ++ intRange b c = intRange a c := by
  unfold intRange
  have : (c - a).toNat = (b - a).toNat + (c - b).toNat := by omega
  rw [this, List.range_add, List.map_append, List.map_map]
  congr 1
  apply List.map_congr_left
  intro n _
  simp only [Function.comp, Nat.cast_add]
  omega

theorem readAt_ok {a : List ℝ} {i : ℤ} (h0 : 0 ≤ i) (h1 : i < a.length) : readAt a i = .ok (a.getD i.toNat 0) := by
  unfold readAt
  rw [if_pos h0, List.getElem?_eq_getElem (by omega : i.toNat < a.length)]
  simp [List.getD, List.getElem?_eq_getElem (by omega : i.toNat < a.length)]

theorem readAt_bad {a : List ℝ} {i : ℤ} (h1 : (a.length : ℤ) ≤ i) : readAt a i = .error .outOfBounds := by
  unfold readAt
  rw [if_pos (by omega), List.getElem?_eq_none (by omega)]

theorem addReads_ok {inp : List ℝ} {f : ℤ → ℤ} {js : List ℤ} (h : ∀ j ∈ js, 0 ≤ f j ∧ f j < inp.length) (s : ℝ) :
    addReads inp f s js = .ok (s + (js.map (fun j => inp.getD (f j).toNat 0)).sum) := by
  unfold addReads
  induction js generalizing s with
  | nil => simp [pure, Except.pure]
  | cons j js ih =>
    obtain ⟨h0, h1⟩ := h j (by simp)
    rw [List.foldlM_cons, readAt_ok h0 h1]
    have := ih (fun k hk => h k (by simp [hk])) (s + inp.getD (f j).toNat 0)
    simp only [bind, Except.bind, pure, Except.pure] at this ⊢
    rw [this, List.map_cons, List.sum_cons]
    congr 1
    ring

theorem addReads_bad {inp : List ℝ} {f : ℤ → ℤ} {js : List ℤ} {j : ℤ} (hj : j ∈ js) (h : (inp.length : ℤ) ≤ f j) (s : ℝ) :
    ∃ e, addReads inp f s js = .error e := by
  unfold addReads
  induction js generalizing s with
  | nil => simp at hj
  | cons i js ih =>
    rw [List.foldlM_cons]
    rcases List.mem_cons.1 hj with rfl | hj
    · rw [readAt_bad h]
      exact ⟨_, rfl⟩
    · cases hr : readAt inp (f i) with
      | error e => exact ⟨e, rfl⟩
      | ok x => exact ih hj (s + x)

/-- A loop `for(i=a; i<b; i++) out[i] = v(i)`. -/
theorem setLoop {step : List ℝ → ℤ → CRes (List ℝ)} {v : ℤ → ℝ} (a : ℤ) (n : ℕ) (ha : 0 ≤ a) (out : List ℝ)
    (hb : a + n ≤ out.length)
    (hs : ∀ (o : List ℝ) (i : ℤ), o.length = out.length → a ≤ i → i < a + n → step o i = setAt o i (v i)) :
    ∃ r, (intRange a (a + n)).foldlM step out = .ok r ∧ r.length = out.length ∧
      ∀ k : ℕ, r[k]? = if a ≤ k ∧ (k : ℤ) < a + n then some (v k) else out[k]? := by
  induction n with
  | zero =>
    refine ⟨out, ?_, rfl, ?_⟩
    · simp [intRange, pure, Except.pure]
    · intro k
      rw [if_neg (by omega)]
  | succ n ih =>
    obtain ⟨r, h1, h2, h3⟩ := ih (by push_cast at hb; omega) (fun o i ho h1 h2 => hs o i ho h1 (by push_cast; omega))
    have happ : intRange a (a + (n + 1 : ℕ)) = intRange a (a + n) ++ [a + n] := by
      rw [← intRange_append (b := a + n) (by omega) (by push_cast; omega)]
      congr 1
      unfold intRange
      have : (a + ((n + 1 : ℕ) : ℤ) - (a + n)).toNat = 1 := by push_cast; omega
      rw [this]
      simp
    rw [happ, List.foldlM_append, h1]
    have hstep := hs r (a + n) h2 (by omega) (by push_cast; omega)
    have hset : setAt r (a + n) (v (a + n)) = .ok (r.set (a + n).toNat (v (a + n))) := by
      unfold setAt
      rw [if_pos ⟨by omega, by push_cast at hb; omega⟩]
    refine ⟨r.set (a + n).toNat (v (a + n)), ?_, by rw [List.length_set, h2], ?_⟩
    · simp only [bind, Except.bind, List.foldlM_cons, List.foldlM_nil, hstep, hset, pure, Except.pure]
    · intro k
      rw [List.getElem?_set]
      by_cases hk : (a + n).toNat = k
      · rw [if_pos hk, if_pos (by rw [h2]; push_cast at hb; omega), if_pos (by push_cast; omega)]
        have : a + (n : ℤ) = k := by omega
        rw [this]
      · rw [if_neg hk, h3 k]
        by_cases hc : a ≤ k ∧ (k : ℤ) < a + n
        · rw [if_pos hc, if_pos (by push_cast; omega)]
        · rw [if_neg hc, if_neg (by push_cast; omega)]

/-- A loop fails if one of its steps always does. -/
theorem loop_bad {α β : Type} {step : α → β → CRes α} {xs : List β} {x : β} (hx : x ∈ xs)
    (h : ∀ a, ∃ e, step a x = .error e) (a : α) : ∃ e, xs.foldlM step a = .error e := by
  induction xs generalizing a with
  | nil => simp at hx
  | cons y ys ih =>
    rw [List.foldlM_cons]
    rcases List.mem_cons.1 hx with rfl | hx
    · obtain ⟨e, he⟩ := h a
      rw [he]
      exact ⟨e, rfl⟩
    · cases hy : step a y with
      | error e => exact ⟨e, rfl⟩
      | ok b => exact ih hx b

theorem getD_rep {c d : ℝ} {n k : ℕ} (h : k < n) : (List.replicate n c).getD k d = c := by
  simp [List.getD, h]

theorem getD_out {l : List ℝ} {d : ℝ} {k : ℕ} (h : l.length ≤ k) : l.getD k d = d := by
  simp [List.getD, h]

/-! ### Smoothing -/

/-- The array continued to the left by its first element and to the right by nothing. -/
def padded (inp : List ℝ) (k : ℤ) : ℝ := if k < 0 then inp.getD 0 0 else inp.getD k.toNat 0

theorem padded_sum (inp : List ℝ) (off : ℕ) (i : ℤ) :
    ((intRange (-(off : ℤ)) (off + 1)).map (fun j => padded inp (i + j))).sum =
      ∑ m ∈ Finset.range (2 * off + 1), padded inp (i - off + m) := by
  unfold intRange
  have : ((off : ℤ) + 1 - -(off : ℤ)).toNat = 2 * off + 1 := by omega
  rw [this, List.map_map]
  rw [Np.sum_map_range]
  apply Finset.sum_congr rfl
  intro m _
  simp only [Function.comp]
  congr 1
  omega

/-- C45. What `smooth` computes, for every length and width for which it stays inside its arrays: the mean of `slen` elements
if `slen` is odd, with the first element repeated to the left of the array and zeros to the right of it. -/
theorem smooth_spec (inp out : List ℝ) (hlen : out.length = inp.length) (slen : ℕ) (hs : 0 < slen)
    (hsafe : (slen - 1) / 2 = 0 ∨ 2 * ((slen - 1) / 2) ≤ inp.length) :
    ∃ r, smooth inp out inp.length slen = .ok r ∧ r.length = inp.length ∧ ∀ i < inp.length,
      r[i]? = some ((∑ m ∈ Finset.range (2 * ((slen - 1) / 2) + 1), padded inp (i - ((slen - 1) / 2 : ℕ) + m)) / slen) := by
  set off := (slen - 1) / 2 with hoff
  set len := inp.length with hl
  have hto : ((slen : ℤ) - 1).tdiv 2 = off := by
    have : ((slen : ℤ) - 1) = ((slen - 1 : ℕ) : ℤ) := by omega
    rw [this, hoff]
    rfl
  have hole : off ≤ len := by omega
  -- the value written for index i
  set v : ℤ → ℝ := fun i => ∑ m ∈ Finset.range (2 * off + 1), padded inp (i - off + m) with hv
  have hvl : ∀ i : ℤ, v i = ((intRange (-(off : ℤ)) (off + 1)).map (fun j => padded inp (i + j))).sum :=
    fun i => (padded_sum inp off i).symm
  have hread : ∀ (i j : ℤ), 0 ≤ i + j → inp.getD (i + j).toNat 0 = padded inp (i + j) := by
    intro i j h
    unfold padded
    rw [if_neg (by omega)]
  -- start
  have hstart := setLoop (step := fun out i => do
    let s ← addReads inp (fun _ => 0) 0 (intRange (-(off : ℤ)) (-i))
    let s ← addReads inp (fun j => i + j) s (intRange (-i) (off + 1))
    setAt out i s) (v := v) 0 off (le_refl _) out (by rw [hlen]; omega) (by
      intro o i _ h1 h2
      rw [addReads_ok (fun j _ => ⟨le_refl _, by omega⟩)]
      simp only [bind, Except.bind]
      rw [addReads_ok (fun j hj => by rw [mem_intRange] at hj; constructor <;> omega)]
      dsimp only
      congr 1
      rw [hvl, ← intRange_append (a := -(off : ℤ)) (b := -i) (c := off + 1) (by omega) (by omega), List.map_append,
        List.sum_append, zero_add]
      congr 2
      · apply List.map_congr_left
        intro j hj
        rw [mem_intRange] at hj
        unfold padded
        rw [if_pos (by omega)]
        rfl
      · apply List.map_congr_left
        intro j hj
        rw [mem_intRange] at hj
        exact hread i j (by omega))
  obtain ⟨r1, e1, l1, g1⟩ := hstart
  -- middle
  obtain ⟨nm, hnm⟩ : ∃ nm : ℕ, ((len : ℤ) - off) = off + nm ∨ (nm = 0 ∧ (len : ℤ) - off < off) := by
    by_cases h : 2 * off ≤ len
    · exact ⟨len - 2 * off, Or.inl (by omega)⟩
    · exact ⟨0, Or.inr ⟨rfl, by omega⟩⟩
  have h2off : 2 * off ≤ len := by omega
  have hnm : ((len : ℤ) - off) = off + nm := by omega
  have hmid := setLoop (step := fun out i => do
    let s ← addReads inp (fun j => i + j) 0 (intRange (-(off : ℤ)) (off + 1))
    setAt out i s) (v := v) off nm (by omega) r1 (by rw [l1, hlen]; omega) (by
      intro o i _ h1 h2
      rw [addReads_ok (fun j hj => by rw [mem_intRange] at hj; constructor <;> omega)]
      simp only [bind, Except.bind]
      congr 1
      rw [hvl, zero_add]
      congr 1
      apply List.map_congr_left
      intro j hj
      rw [mem_intRange] at hj
      exact hread i j (by omega))
  obtain ⟨r2, e2, l2, g2⟩ := hmid
  -- end
  have hend := setLoop (step := fun out i => do
    let s ← addReads inp (fun j => i + j) 0 (intRange (-(off : ℤ)) (len - i))
    let s ← addReads inp (fun _ => (len : ℤ) - 1) s (intRange (len - i) (-i + 1))
    setAt out i s) (v := v) ((len : ℤ) - off) off (by omega) r2 (by rw [l2, l1, hlen]; omega) (by
      intro o i _ h1 h2
      rw [addReads_ok (fun j hj => by rw [mem_intRange] at hj; constructor <;> omega)]
      simp only [bind, Except.bind]
      have hempty : intRange ((len : ℤ) - i) (-i + 1) = [] ∨ len = 0 := by
        by_cases h0 : len = 0
        · exact Or.inr h0
        · left
          unfold intRange
          have : (-i + 1 - ((len : ℤ) - i)).toNat = 0 := by omega
          rw [this]
          rfl
      have h0 : len ≠ 0 := by omega
      rw [hempty.resolve_right h0]
      rw [addReads_ok (fun j hj => by simp at hj)]
      dsimp only
      congr 1
      rw [hvl, ← intRange_append (a := -(off : ℤ)) (b := (len : ℤ) - i) (c := off + 1) (by omega) (by omega), List.map_append,
        List.sum_append, zero_add, List.map_nil, List.sum_nil]
      congr 1
      · congr 1
        apply List.map_congr_left
        intro j hj
        rw [mem_intRange] at hj
        exact hread i j (by omega)
      · symm
        apply List.sum_eq_zero
        intro x hx
        obtain ⟨j, hj, rfl⟩ := List.mem_map.1 hx
        rw [mem_intRange] at hj
        unfold padded
        rw [if_neg (by omega), getD_out (by omega)])
  obtain ⟨r3, e3, l3, g3⟩ := hend
  refine ⟨r3.map (fun x => x / slen), ?_, by rw [List.length_map, l3, l2, l1, hlen], ?_⟩
  · unfold smooth
    rw [hto]
    rw [zero_add] at e1
    rw [← hnm] at e2
    have he : (len : ℤ) - off + off = len := by omega
    rw [he] at e3
    simp only [bind, Except.bind] at e1 e2 e3 ⊢
    rw [e1]
    dsimp only
    rw [e2]
    dsimp only
    rw [e3]
    simp [pure, Except.pure]
  · intro i hi
    rw [List.getElem?_map, g3 i]
    have : (if (len : ℤ) - off ≤ i ∧ (i : ℤ) < (len : ℤ) - off + off then some (v i) else r2[i]?) = some (v i) := by
      split
      · rfl
      · rw [g2 i]
        split
        · rfl
        · rw [g1 i, if_pos (by omega)]
    rw [this]
    rfl

/-- Eight elements, width three. -/
example : ∃ inp : List ℝ, inp.length = 8 ∧ ((3 - 1) / 2 = 0 ∨ 2 * ((3 - 1) / 2) ≤ inp.length) :=
  ⟨List.replicate 8 1, by simp, by simp⟩

/-- C45. `smooth` stays inside its arrays exactly when the array has at least `slen - 1` elements (or nothing is smoothed):
`calc_power_spectra` does not check this. -/
theorem smooth_safe_iff (inp out : List ℝ) (hlen : out.length = inp.length) (slen : ℕ) (hs : 0 < slen) :
    (∃ r, smooth inp out inp.length slen = .ok r) ↔ ((slen - 1) / 2 = 0 ∨ 2 * ((slen - 1) / 2) ≤ inp.length) := by
  constructor
  · rintro ⟨r, hr⟩
    by_contra hc
    push Not at hc
    obtain ⟨h1, h2⟩ := hc
    have hto : ((slen : ℤ) - 1).tdiv 2 = ((slen - 1) / 2 : ℕ) := by
      have : ((slen : ℤ) - 1) = ((slen - 1 : ℕ) : ℤ) := by omega
      rw [this]
      rfl
    unfold smooth at hr
    rw [hto] at hr
    generalize (slen - 1) / 2 = off at *
    obtain ⟨e, he⟩ := loop_bad (step := fun out i => do
        let s ← addReads inp (fun _ => 0) 0 (intRange (-(off : ℤ)) (-i))
        let s ← addReads inp (fun j => i + j) s (intRange (-i) (off + 1))
        setAt out i s) (xs := intRange 0 off) (x := (off : ℤ) - 1) (by rw [mem_intRange]; omega) (by
      intro a
      cases hs : addReads inp (fun _ => 0) 0 (intRange (-(off : ℤ)) (-((off : ℤ) - 1))) with
      | error e => exact ⟨e, by simp only [bind, Except.bind, hs]⟩
      | ok s =>
        obtain ⟨e, he⟩ := addReads_bad (inp := inp) (f := fun j => (off : ℤ) - 1 + j)
          (js := intRange (-((off : ℤ) - 1)) (off + 1)) (j := off) (by rw [mem_intRange]; omega) (by omega) s
        exact ⟨e, by simp only [bind, Except.bind, hs, he]⟩) out
    simp only [bind, Except.bind] at hr he
    rw [he] at hr
    cases hr
  · intro h
    obtain ⟨r, hr, _⟩ := smooth_spec inp out hlen slen hs h
    exact ⟨r, hr⟩

/-- C45. An odd width preserves constants except for the last `(slen-1)/2` elements. -/
theorem smooth_constant (c : ℝ) (len off : ℕ) (hsafe : off = 0 ∨ 2 * off ≤ len) (out : List ℝ) (hlen : out.length = len) :
    ∃ r, smooth (List.replicate len c) out len (2 * off + 1 : ℕ) = .ok r ∧ (∀ i, i + off < len → r[i]? = some c) ∧
      ∀ i < len, r[i]? = some (c * ((min (2 * off + 1) (off + len - i) : ℕ) : ℝ) / (2 * off + 1)) := by
  have hoff : (2 * off + 1 - 1) / 2 = off := by omega
  have h := smooth_spec (List.replicate len c) out (by simpa using hlen) (2 * off + 1) (by omega)
    (by rw [hoff]; simpa using hsafe)
  rw [hoff, List.length_replicate] at h
  obtain ⟨r, h1, h2, h3⟩ := h
  have hval : ∀ i < len, r[i]? = some (c * ((min (2 * off + 1) (off + len - i) : ℕ) : ℝ) / (2 * off + 1)) := by
    intro i hi
    rw [h3 i hi]
    have hsum : ∑ m ∈ Finset.range (2 * off + 1), padded (List.replicate len c) ((i : ℤ) - off + m) =
        c * ((min (2 * off + 1) (off + len - i) : ℕ) : ℝ) := by
      have hp : ∀ m ∈ Finset.range (2 * off + 1), padded (List.replicate len c) ((i : ℤ) - off + m) =
          if m < off + len - i then c else 0 := by
        intro m _
        unfold padded
        by_cases hm : m < off + len - i
        · rw [if_pos hm]
          split
          · rw [getD_rep (by omega)]
          · rw [getD_rep (by omega)]
        · rw [if_neg hm, if_neg (by omega), getD_out (by rw [List.length_replicate]; omega)]
      rw [Finset.sum_congr rfl hp, ← Finset.sum_filter, Finset.sum_const]
      have : (Finset.range (2 * off + 1)).filter (fun m => m < off + len - i) =
          Finset.range (min (2 * off + 1) (off + len - i)) := by
        ext m
        simp
      rw [this, Finset.card_range, nsmul_eq_mul, mul_comm]
    rw [hsum]
    push_cast
    rfl
  refine ⟨r, h1, ?_, hval⟩
  intro i hi
  rw [hval i (by omega)]
  congr 1
  have : min (2 * off + 1) (off + len - i) = 2 * off + 1 := by omega
  rw [this]
  push_cast
  have : (2 * (off : ℝ) + 1) ≠ 0 := by positivity
  field_simp

/-- C45 is false at the end of the array: the loop which should repeat the last value never runs. With the width 3 of the
power spectrum tool the last element of a constant comes out as two thirds of it. -/
theorem smooth_end (c : ℝ) (hc : c ≠ 0) (len : ℕ) (hl : 2 ≤ len) :
    ∃ r, smooth (List.replicate len c) (List.replicate len 0) len 3 = .ok r ∧ r[len - 1]? = some (c * 2 / 3) ∧
      r[len - 1]? ≠ some c := by
  obtain ⟨r, h1, _, h3⟩ := smooth_constant c len 1 (Or.inr (by omega)) (List.replicate len 0) (by simp)
  have hv := h3 (len - 1) (by omega)
  have hm : min (2 * 1 + 1) (1 + len - (len - 1)) = 2 := by omega
  rw [hm] at hv
  have hv2 : r[len - 1]? = some (c * 2 / 3) := by
    rw [hv]
    norm_num
  refine ⟨r, by simpa using h1, hv2, ?_⟩
  rw [hv2]
  intro h
  have := Option.some.inj h
  apply hc
  linarith

/-- Even widths do not preserve constants anywhere: there are `slen - 1` terms in the sum, divided by `slen`. -/
theorem smooth_even : ∃ r, smooth [1, 1, 1, 1, 1] [0, 0, 0, 0, 0] 5 4 = .ok r ∧ r[2]? = some (3 / 4) := by
  obtain ⟨r, h1, _, h3⟩ := smooth_spec [1, 1, 1, 1, 1] [0, 0, 0, 0, 0] rfl 4 (by norm_num) (by norm_num)
  refine ⟨r, h1, ?_⟩
  rw [h3 2 (by norm_num)]
  norm_num [Finset.sum_range_succ, padded]
  have e2 : Int.toNat 2 = 2 := rfl
  have e3 : Int.toNat 3 = 3 := rfl
  simp only [e2, e3]
  norm_num

/-! ### Periodic smoothing -/

/-- C45. `gaussian_smooth` stays inside its arrays, whatever the width, if the kernel has `off + 1` elements, and wraps
around: each element is the sum over the neighbours in the periodic array with the kernel at their distance. -/
theorem gaussian_spec (inp out kernel : List ℝ) (off : ℕ) (hout : out.length = inp.length) (hk : off < kernel.length) :
    ∃ r, gaussian_smooth inp out inp.length off kernel = .ok r ∧ r.length = inp.length ∧ ∀ i < inp.length,
      r[i]? = some (((intRange (-(off : ℤ)) (off + 1)).map (fun j : ℤ =>
        inp.getD ((i + j) % (inp.length : ℤ)).toNat 0 * kernel.getD j.natAbs 0)).sum) := by
  have hloop := setLoop (step := fun out i => do
    let s ← (intRange (-(off : ℤ)) (off + 1)).foldlM (fun s j => do
      let ind := (i + j).tmod inp.length
      let ind := if ind < 0 then ind + (inp.length : ℤ) else ind
      let x ← readAt inp ind
      let k ← readAt kernel (pstv j)
      pure (s + x * k)) 0
    setAt out i s) (v := fun i => ((intRange (-(off : ℤ)) (off + 1)).map (fun j : ℤ =>
        inp.getD ((i + j) % (inp.length : ℤ)).toNat 0 * kernel.getD j.natAbs 0)).sum) 0 inp.length (le_refl _) out
      (by rw [hout]; omega) (by
      intro o i _ h1 h2
      dsimp only
      have hpos : 0 < inp.length := by omega
      have hinner : ∀ (js : List ℤ) (s : ℝ), (∀ j ∈ js, -(off : ℤ) ≤ j ∧ j < off + 1) →
          js.foldlM (fun s j => (do
            let ind := (i + j).tmod inp.length
            let ind := if ind < 0 then ind + (inp.length : ℤ) else ind
            let x ← readAt inp ind
            let k ← readAt kernel (pstv j)
            pure (s + x * k) : CRes ℝ)) s =
          .ok (s + (js.map (fun j : ℤ => inp.getD ((i + j) % (inp.length : ℤ)).toNat 0 * kernel.getD j.natAbs 0)).sum) := by
        intro js
        induction js with
        | nil => intro s _; simp [pure, Except.pure]
        | cons j js ih =>
          intro s hjs
          obtain ⟨a1, a2⟩ := hjs j (by simp)
          have hmod : (if (i + j).tmod inp.length < 0 then (i + j).tmod inp.length + (inp.length : ℤ)
              else (i + j).tmod inp.length) = (i + j) % (inp.length : ℤ) := by
            rw [Int.tmod_eq_emod]
            have e1 := Int.emod_nonneg (i + j) (by omega : (inp.length : ℤ) ≠ 0)
            have e2 := Int.emod_lt_of_pos (i + j) (by omega : 0 < (inp.length : ℤ))
            by_cases hd : 0 ≤ i + j ∨ (inp.length : ℤ) ∣ i + j
            · rw [if_pos hd]
              split <;> omega
            · rw [if_neg hd]
              have : ((i + j) % (inp.length : ℤ)) ≠ 0 := by
                intro h
                exact hd (Or.inr (Int.dvd_of_emod_eq_zero h))
              split <;> omega
          have e1 := Int.emod_nonneg (i + j) (by omega : (inp.length : ℤ) ≠ 0)
          have e2 := Int.emod_lt_of_pos (i + j) (by omega : 0 < (inp.length : ℤ))
          have hps : pstv j = (j.natAbs : ℤ) := by
            unfold pstv
            split <;> omega
          rw [List.foldlM_cons]
          have := ih (s + inp.getD ((i + j) % (inp.length : ℤ)).toNat 0 * kernel.getD j.natAbs 0)
            (fun k hk => hjs k (by simp [hk]))
          simp only [bind, Except.bind] at this ⊢
          rw [hmod, readAt_ok e1 e2, hps, readAt_ok (by omega) (by omega)]
          simp only [pure, Except.pure, Int.toNat_natCast] at this ⊢
          rw [this, List.map_cons, List.sum_cons]
          congr 1
          ring
      have := hinner (intRange (-(off : ℤ)) (off + 1)) 0 (fun j hj => mem_intRange.1 hj)
      simp only [bind, Except.bind] at this ⊢
      rw [this, zero_add])
  obtain ⟨r, e, l, g⟩ := hloop
  refine ⟨r, ?_, by rw [l, hout], ?_⟩
  · unfold gaussian_smooth
    rw [zero_add] at e
    exact e
  · intro i hi
    rw [g i, if_pos (by omega)]

/-- C45. A kernel whose sum over the window is 1 preserves constants everywhere. -/
theorem gaussian_constant (c : ℝ) (len off : ℕ) (out kernel : List ℝ) (hout : out.length = len) (hk : off < kernel.length)
    (hsum : ((intRange (-(off : ℤ)) (off + 1)).map (fun j : ℤ => kernel.getD j.natAbs 0)).sum = 1) :
    gaussian_smooth (List.replicate len c) out len off kernel = .ok (List.replicate len c) := by
  obtain ⟨r, h1, h2, h3⟩ := gaussian_spec (List.replicate len c) out kernel off (by simpa using hout) hk
  rw [List.length_replicate] at h1 h2 h3
  rw [h1]
  congr 1
  apply List.ext_getElem?
  intro i
  by_cases hi : i < len
  · rw [h3 i hi, List.getElem?_replicate, if_pos hi]
    congr 1
    have hmap : (intRange (-(off : ℤ)) (off + 1)).map (fun j : ℤ =>
        (List.replicate len c).getD ((i + j) % (len : ℤ)).toNat 0 * kernel.getD j.natAbs 0) =
        (intRange (-(off : ℤ)) (off + 1)).map (fun j : ℤ => c * kernel.getD j.natAbs 0) := by
      apply List.map_congr_left
      intro j _
      have e1 := Int.emod_nonneg (i + j) (by omega : (len : ℤ) ≠ 0)
      have e2 := Int.emod_lt_of_pos (i + j) (by omega : 0 < (len : ℤ))
      rw [getD_rep (by omega)]
    rw [hmap, List.sum_map_mul_left, hsum, mul_one]
  · rw [List.getElem?_eq_none (by omega), List.getElem?_eq_none (by simp; omega)]

/-- A kernel over three elements whose window has sum 1. -/
example : ((intRange (-((1 : ℕ) : ℤ)) ((1 : ℕ) + 1)).map (fun j : ℤ => ([1 / 2, 1 / 4] : List ℝ).getD j.natAbs 0)).sum = 1 := by
  have : intRange (-((1 : ℕ) : ℤ)) ((1 : ℕ) + 1) = [-1, 0, 1] := by decide
  rw [this]
  norm_num

/-! Witnesses for the theorems above. -/

example := smooth_safe_iff [1, 2, 3, 4, 5] [0, 0, 0, 0, 0] rfl 3 (by norm_num)

example := smooth_constant 2 5 1 (by norm_num) [0, 0, 0, 0, 0] rfl

example := smooth_end 2 (by norm_num) 5 (by norm_num)

example := gaussian_spec [1, 2, 3, 4, 5] [0, 0, 0, 0, 0] [1 / 2, 1 / 4] 1 rfl (by simp)

end Verif.Props.CTools
