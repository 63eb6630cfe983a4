import Verif.Model.Interp

/-!
C37: table look-ups. C38: errors of the parallel look-up. C61: the UV background.
-/

namespace Verif.Props
open Verif Verif.Interp

theorem searchsorted_spec (xs : ℕ → ℝ) (x : ℝ) (n : ℕ) :
    searchsorted xs x n ≤ n ∧ (0 < searchsorted xs x n → xs (searchsorted xs x n - 1) < x) ∧
      ∀ i, searchsorted xs x n ≤ i → i < n → x ≤ xs i := by
  induction n with
  | zero => simp [searchsorted]
  | succ n ih =>
    unfold searchsorted
    split
    · next h => exact ⟨le_rfl, fun _ => h, fun i h1 h2 => absurd h2 (by omega)⟩
    · next h =>
      obtain ⟨h1, h2, h3⟩ := ih
      refine ⟨by omega, h2, fun i hi hin => ?_⟩
      rcases Nat.lt_succ_iff_lt_or_eq.1 hin with hlt | rfl
      · exact h3 i hi hlt
      · exact not_lt.1 h

/-- `y` is on the straight line between the rows `k` and `k + 1` of the table around `x`. -/
def OnSegment (xs ys : ℕ → ℝ) (k : ℕ) (x y : ℝ) : Prop :=
  xs k ≤ x ∧ x ≤ xs (k + 1) ∧ y = ys k + (ys (k + 1) - ys k) * ((x - xs k) / (xs (k + 1) - xs k))

/-- C37: inside the table a one-dimensional look-up is linear between the neighbouring rows; outside it raises. -/
theorem interp1d_spec {n : ℕ} (hn : 2 ≤ n) (xs ys : ℕ → ℝ) (x : ℝ) :
    (xs 0 ≤ x ∧ x ≤ xs (n - 1) → ∃ k y, k + 1 < n ∧ interp1d n xs ys x = .ok y ∧ OnSegment xs ys k x y) ∧
    (x < xs 0 ∨ xs (n - 1) < x → interp1d n xs ys x = .error .valueError) := by
  constructor
  · rintro ⟨h0, h1⟩
    obtain ⟨s1, s2, s3⟩ := searchsorted_spec xs x n
    set c := searchsorted xs x n with hc
    have hcn : c ≤ n - 1 := by
      by_contra hcon
      have hcn : c = n := by omega
      have := s2 (by omega)
      rw [hcn] at this
      linarith
    unfold interp1d
    rw [if_neg (by rintro (h | h) <;> linarith)]
    dsimp only
    rw [← hc, min_eq_left hcn]
    have hhi : max 1 c = (max 1 c - 1) + 1 := by omega
    refine ⟨max 1 c - 1, _, by omega, rfl, ?_, ?_, ?_⟩
    · rcases Nat.eq_zero_or_pos c with h | h
      · rw [h]; simpa using h0
      · rw [max_eq_right (by omega)]; exact (s2 h).le
    · rw [← hhi]
      apply s3 _ (le_max_right _ _) (by omega)
    · rw [← hhi]
      ring
  · intro h
    unfold interp1d
    rw [if_pos h]

/-- C37: the value is between those of the two rows. -/
theorem onSegment_between {xs ys : ℕ → ℝ} {k : ℕ} {x y : ℝ} (hx : xs k < xs (k + 1)) (h : OnSegment xs ys k x y) :
    min (ys k) (ys (k + 1)) ≤ y ∧ y ≤ max (ys k) (ys (k + 1)) := by
  obtain ⟨h1, h2, rfl⟩ := h
  have hd : 0 < xs (k + 1) - xs k := by linarith
  set t := (x - xs k) / (xs (k + 1) - xs k) with ht
  have t0 : 0 ≤ t := div_nonneg (by linarith) hd.le
  have t1 : t ≤ 1 := by rw [ht, div_le_one hd]; linarith
  rcases le_total (ys k) (ys (k + 1)) with h | h
  · rw [min_eq_left h, max_eq_right h]
    constructor
    · nlinarith
    · nlinarith
  · rw [min_eq_right h, max_eq_left h]
    constructor
    · nlinarith
    · nlinarith

/-- C37: at a row of the table the value is that of the row. -/
theorem onSegment_node {xs ys : ℕ → ℝ} {n k j : ℕ} {x y : ℝ} (hmono : ∀ i, i + 1 < n → xs i < xs (i + 1)) (hk : k + 1 < n)
    (hj : j < n) (hx : x = xs j) (h : OnSegment xs ys k x y) : y = ys j := by
  have lt : ∀ a b, a < b → b < n → xs a < xs b := by
    intro a b hab
    induction b with
    | zero => omega
    | succ b ih =>
      intro hb
      rcases Nat.lt_succ_iff_lt_or_eq.1 hab with h | rfl
      · exact (ih h (by omega)).trans (hmono b hb)
      · exact hmono a hb
  obtain ⟨h1, h2, rfl⟩ := h
  have hd := hmono k hk
  have hj' : j = k ∨ j = k + 1 := by
    by_contra hcon
    rcases lt_trichotomy j k with h | h | h
    · have := lt j k h (by omega); linarith
    · tauto
    · have : k + 1 < j := by omega
      have := lt (k + 1) j this hj; linarith
  rcases hj' with rfl | rfl
  · rw [hx]; simp
  · rw [hx, div_self (by linarith)]; ring

/-- Witness. -/
example : interp1d 3 (fun i => (i : ℝ)) (fun i => (i : ℝ) ^ 2) 1.5 = .ok 2.5 := by
  have : searchsorted (fun i => (i : ℝ)) 1.5 3 = 2 := by norm_num [searchsorted]
  unfold interp1d
  rw [this]
  norm_num

/-- C61: inside the redshift range of the table every rate is positive and between those of the neighbouring rows;
outside the look-up raises ValueError. -/
theorem photoRate_spec {n : ℕ} (hn : 2 ≤ n) {l r : ℕ → ℝ} (hl : ∀ i, i + 1 < n → l i < l (i + 1))
    (hr : ∀ i, i < n → 0 < r i) {z : ℝ} (hz : -1 < z) :
    ((10 : ℝ) ^ l 0 ≤ 1 + z ∧ 1 + z ≤ (10 : ℝ) ^ l (n - 1) → ∃ k g, k + 1 < n ∧ (10 : ℝ) ^ l k ≤ 1 + z ∧
      1 + z ≤ (10 : ℝ) ^ l (k + 1) ∧ photoRate n l r z = .ok g ∧ 0 < g ∧
      min (r k) (r (k + 1)) ≤ g ∧ g ≤ max (r k) (r (k + 1))) ∧
    (1 + z < (10 : ℝ) ^ l 0 ∨ (10 : ℝ) ^ l (n - 1) < 1 + z → photoRate n l r z = .error .valueError) := by
  have hz' : 0 < 1 + z := by linarith
  have hlog : ∀ a : ℝ, (10 : ℝ) ^ a ≤ 1 + z ↔ a ≤ Real.logb 10 (1 + z) := fun a =>
    (Real.le_logb_iff_rpow_le (by norm_num) hz').symm
  have hlog' : ∀ a : ℝ, 1 + z ≤ (10 : ℝ) ^ a ↔ Real.logb 10 (1 + z) ≤ a := fun a =>
    (Real.logb_le_iff_le_rpow (by norm_num) hz').symm
  obtain ⟨hin, hout⟩ := interp1d_spec hn l (fun i => Real.logb 10 (r i)) (Real.logb 10 (1 + z))
  constructor
  · rintro ⟨h0, h1⟩
    obtain ⟨k, y, hk, hy, hs⟩ := hin ⟨(hlog _).1 h0, (hlog' _).1 h1⟩
    have hb := onSegment_between (hl k hk) hs
    have rk := hr k (by omega)
    have rk1 := hr (k + 1) hk
    have e1 : ∀ i, i < n → (10 : ℝ) ^ Real.logb 10 (r i) = r i := fun i hi =>
      Real.rpow_logb (by norm_num) (by norm_num) (hr i hi)
    have hmono : ∀ a b : ℝ, a ≤ b → (10 : ℝ) ^ a ≤ (10 : ℝ) ^ b := fun a b h =>
      Real.rpow_le_rpow_of_exponent_le (by norm_num) h
    refine ⟨k, (10 : ℝ) ^ y, hk, (hlog _).2 hs.1, (hlog' _).2 hs.2.1, ?_, by positivity, ?_, ?_⟩
    · unfold photoRate; rw [hy]; rfl
    · have := hmono _ _ hb.1
      rcases le_total (r k) (r (k + 1)) with h | h
      · rw [min_eq_left h]
        have hle : Real.logb 10 (r k) ≤ Real.logb 10 (r (k + 1)) := Real.logb_le_logb_of_le (by norm_num) rk h
        rw [min_eq_left hle, e1 k (by omega)] at this
        exact this
      · rw [min_eq_right h]
        have hle : Real.logb 10 (r (k + 1)) ≤ Real.logb 10 (r k) := Real.logb_le_logb_of_le (by norm_num) rk1 h
        rw [min_eq_right hle, e1 (k + 1) hk] at this
        exact this
    · have := hmono _ _ hb.2
      rcases le_total (r k) (r (k + 1)) with h | h
      · rw [max_eq_right h]
        have hle : Real.logb 10 (r k) ≤ Real.logb 10 (r (k + 1)) := Real.logb_le_logb_of_le (by norm_num) rk h
        rw [max_eq_right hle, e1 (k + 1) hk] at this
        exact this
      · rw [max_eq_left h]
        have hle : Real.logb 10 (r (k + 1)) ≤ Real.logb 10 (r k) := Real.logb_le_logb_of_le (by norm_num) rk1 h
        rw [max_eq_left hle, e1 k (by omega)] at this
        exact this
  · intro h
    have : interp1d n l (fun i => Real.logb 10 (r i)) (Real.logb 10 (1 + z)) = .error .valueError := by
      apply hout
      rcases h with h | h
      · left; exact lt_of_not_ge (fun hc => absurd ((hlog _).2 hc) (not_le.2 h))
      · right; exact lt_of_not_ge (fun hc => absurd ((hlog' _).2 hc) (not_le.2 h))
    unfold photoRate
    rw [this]
    rfl

/-! The look-up of the rate network. -/

/-- C37: energies are always clamped into the table, for limits such as the ones used (2 and 21). -/
theorem clampE_in_range {g : Grid} (h0 : 0 < g.emin) (h1 : g.emin * 1.01 ≤ g.emax) (h2 : g.emin ≤ g.emax * 0.99) (l : ℝ) :
    g.emin ≤ clampE g l ∧ clampE g l ≤ g.emax ∧ (g.emin < l → l < g.emax → clampE g l = l) := by
  unfold clampE
  dsimp only
  by_cases ha : l ≥ g.emax
  · rw [if_pos ha]
    split
    · refine ⟨by linarith, by linarith, fun _ h => absurd h (not_lt.2 ha)⟩
    · exact ⟨by linarith, by linarith, fun _ h => absurd h (not_lt.2 ha)⟩
  · rw [if_neg ha]
    split
    · next hb => exact ⟨by linarith, by linarith, fun h _ => absurd h (not_lt.2 hb)⟩
    · next hb => exact ⟨by linarith [not_le.1 hb], by linarith [not_le.1 ha], fun _ _ => rfl⟩

/-- The value for one particle: nothing above the table, else the exponential of the table at the clamped energy. -/
noncomputable def lookUp (g : Grid) (eval : ℝ → ℝ → ℝ) (p : ℝ × ℝ) : Option ℝ :=
  if p.1 < g.dmax then some (Real.exp (eval p.1 (clampE g p.2))) else none

theorem writeBack (g : Grid) (eval : ℝ → ℝ → ℝ) (clamped : List (ℝ × ℝ)) :
    writeVals g clamped ((clamped.filter (fun p => p.1 < g.dmax)).map (fun p => eval p.1 p.2)) =
    clamped.map (fun p => if p.1 < g.dmax then some (Real.exp (eval p.1 p.2)) else none) := by
  induction clamped with
  | nil => rfl
  | cons p ps ih =>
    by_cases hp : p.1 < g.dmax
    · rw [List.filter_cons_of_pos (by simpa using hp), List.map_cons, List.map_cons, writeVals, if_pos hp, if_pos hp, ih]
    · rw [List.filter_cons_of_neg (by simpa using hp), List.map_cons, writeVals.eq_def]
      dsimp only
      rw [if_neg hp, if_neg hp, ih]

/-- C37: if at least one particle is below the upper density limit and none below the lower one, the look-up gives
every particle its own value, inside the table. -/
theorem getInterp_partial {g : Grid} (h0 : 0 < g.emin) (h1 : g.emin * 1.01 ≤ g.emax) (h2 : g.emin ≤ g.emax * 0.99)
    (eval : ℝ → ℝ → ℝ) {parts : List (ℝ × ℝ)} (hne : ∃ p ∈ parts, p.1 < g.dmax) (hlow : ∀ p ∈ parts, g.dmin ≤ p.1) :
    getInterp g eval parts = .ok (parts.map (lookUp g eval)) := by
  unfold getInterp
  dsimp only
  have hii : (parts.map (fun p => (p.1, clampE g p.2))).filter (fun p => p.1 < g.dmax) ≠ [] := by
    obtain ⟨p, hp, hd⟩ := hne
    intro h
    have : (p.1, clampE g p.2) ∈ (parts.map (fun p => (p.1, clampE g p.2))).filter (fun p => p.1 < g.dmax) := by
      rw [List.mem_filter]
      exact ⟨List.mem_map.2 ⟨p, hp, rfl⟩, by simpa using hd⟩
    rw [h] at this
    simp at this
  have hmem : ∀ q ∈ (parts.map (fun p => (p.1, clampE g p.2))).filter (fun p => p.1 < g.dmax),
      g.dmin ≤ q.1 ∧ q.1 < g.dmax ∧ g.emin ≤ q.2 ∧ q.2 ≤ g.emax := by
    intro q hq
    rw [List.mem_filter] at hq
    obtain ⟨hq, hd⟩ := hq
    obtain ⟨p, hp, rfl⟩ := List.mem_map.1 hq
    have := clampE_in_range h0 h1 h2 p.2
    exact ⟨hlow p hp, by simpa using hd, this.1, this.2.1⟩
  rw [if_neg hii, if_neg]
  · unfold interpolate_2d
    rw [if_neg]
    · simp only [bind, Except.bind, pure, Except.pure]
      congr 1
      rw [writeBack, List.map_map]
      rfl
    · rw [List.any_eq_true]
      rintro ⟨q, hq, ho⟩
      obtain ⟨a, b, c, d⟩ := hmem q hq
      unfold outside at ho
      rw [decide_eq_true_eq] at ho
      rcases ho with h | h | h | h <;> linarith
  · rw [List.any_eq_true, List.any_eq_true]
    rintro (⟨q, hq, ho⟩ | ⟨q, hq, ho⟩)
    · rw [decide_eq_true_eq] at ho
      have := (hmem q hq).2.2.2
      linarith
    · rw [decide_eq_true_eq] at ho
      have := (hmem q hq).2.2.1
      linarith

/-- C37 (finding): a particle less dense than the table is not clamped: the whole look-up fails. -/
theorem low_density_fails {g : Grid} (h0 : 0 < g.emin) (h1 : g.emin * 1.01 ≤ g.emax) (h2 : g.emin ≤ g.emax * 0.99)
    (hg : g.dmin ≤ g.dmax) (eval : ℝ → ℝ → ℝ) {parts : List (ℝ × ℝ)} {p : ℝ × ℝ} (hp : p ∈ parts) (hlow : p.1 < g.dmin) :
    getInterp g eval parts = .error .attributeError := by
  have hin : (p.1, clampE g p.2) ∈ (parts.map (fun p => (p.1, clampE g p.2))).filter (fun p => p.1 < g.dmax) := by
    rw [List.mem_filter]
    exact ⟨List.mem_map.2 ⟨p, hp, rfl⟩, by simpa using hlow.trans_le hg⟩
  unfold getInterp
  dsimp only
  rw [if_neg (by intro h; rw [h] at hin; simp at hin), if_neg]
  · unfold interpolate_2d
    rw [if_pos]
    · rfl
    · rw [List.any_eq_true]
      exact ⟨_, hin, by unfold outside; rw [decide_eq_true_eq]; exact Or.inl hlow⟩
  · rw [List.any_eq_true, List.any_eq_true]
    have : ∀ q ∈ (parts.map (fun p => (p.1, clampE g p.2))).filter (fun p => p.1 < g.dmax),
        g.emin ≤ q.2 ∧ q.2 ≤ g.emax := by
      intro q hq
      rw [List.mem_filter] at hq
      obtain ⟨r, hr, rfl⟩ := List.mem_map.1 hq.1
      have := clampE_in_range h0 h1 h2 r.2
      exact ⟨this.1, this.2.1⟩
    rintro (⟨q, hq, ho⟩ | ⟨q, hq, ho⟩)
    · rw [decide_eq_true_eq] at ho; linarith [(this q hq).2]
    · rw [decide_eq_true_eq] at ho; linarith [(this q hq).1]

/-- C37 (finding): a segment in which every particle is above the upper density limit, or an empty one, raises
ValueError. -/
theorem all_dense_fails (g : Grid) (eval : ℝ → ℝ → ℝ) {parts : List (ℝ × ℝ)} (h : ∀ p ∈ parts, g.dmax ≤ p.1) :
    getInterp g eval parts = .error .valueError := by
  unfold getInterp
  dsimp only
  rw [if_pos]
  rw [List.filter_eq_nil_iff]
  intro q hq
  obtain ⟨p, hp, rfl⟩ := List.mem_map.1 hq
  simpa using h p hp

/-- C37 (finding): the clamp is not monotone: gas hotter than the table is looked up at a lower energy than gas just
inside it. -/
theorem clamp_not_monotone {g : Grid} (h0 : 0 < g.emin) (h2 : g.emin < g.emax * 0.99) :
    ∃ l l', l < l' ∧ clampE g l' < clampE g l := by
  refine ⟨g.emax * 0.995, g.emax, by nlinarith, ?_⟩
  have he : 0 < g.emax := by nlinarith
  unfold clampE
  dsimp only
  rw [if_pos le_rfl, if_neg (by linarith), if_neg (by nlinarith : ¬ g.emax * 0.995 ≥ g.emax), if_neg (by nlinarith)]
  nlinarith

/-- Witness: the grid of the code, two particles inside and one above. -/
example : getInterp ⟨-16, 5, 2, 21⟩ (fun x y => x + y) [(-10, 5), (6, 4), (0, 30)] =
    .ok ([(-10, 5), (6, 4), (0, 30)].map (lookUp ⟨-16, 5, 2, 21⟩ (fun x y => x + y))) :=
  getInterp_partial (by norm_num) (by norm_num) (by norm_num) _ ⟨(-10, 5), by simp, by norm_num⟩
    (by intro p hp; simp at hp; rcases hp with rfl | rfl | rfl <;> norm_num)

/-! The parallel loop. -/

section Race
variable {n : ℕ} {out : ℕ → Bool} {val : ℕ → ℝ}

/-- C38: an error is only raised if some particle is outside the table, whatever the schedule. -/
theorem no_false_error {queues : Fin n → List ℕ} {s : State n} (h : Ends out val queues s) {e : PyErr}
    (he : outcome s = .error e) : e = .attributeError ∧ ∃ k, ∃ i ∈ queues k, out i = true := by
  have inv : ∀ s, Relation.ReflTransGen (Step out val) (start queues) s →
      (s.err = true → ∃ k, ∃ i ∈ queues k, out i = true) ∧ ∀ k, ∀ i ∈ (s.th k).todo, i ∈ queues k := by
    intro s hs
    induction hs with
    | refl => exact ⟨fun h => absurd h (by simp [start]), fun k i hi => hi⟩
    | tail _ hstep ih =>
      obtain ⟨i1, i2⟩ := ih
      cases hstep with
      | skip k i rest hk _ =>
        refine ⟨i1, fun k' j hj => ?_⟩
        by_cases hkk : k' = k
        · subst hkk
          simp only [Function.update_self] at hj
          exact i2 k' j (by rw [hk]; exact List.mem_cons_of_mem _ hj)
        · simp only [Function.update_of_ne hkk] at hj
          exact i2 k' j hj
      | enter k i rest hk _ =>
        refine ⟨i1, fun k' j hj => ?_⟩
        by_cases hkk : k' = k
        · subst hkk
          simp only [Function.update_self] at hj
          exact i2 k' j (by rw [hk]; exact hj)
        · simp only [Function.update_of_ne hkk] at hj
          exact i2 k' j hj
      | eval k i rest hk =>
        refine ⟨fun ho => ⟨k, i, i2 k i (by rw [hk]; simp), ho⟩, fun k' j hj => ?_⟩
        by_cases hkk : k' = k
        · subst hkk
          simp only [Function.update_self] at hj
          exact i2 k' j (by rw [hk]; exact List.mem_cons_of_mem _ hj)
        · simp only [Function.update_of_ne hkk] at hj
          exact i2 k' j hj
  unfold outcome at he
  split at he
  · next herr => exact ⟨(Except.error.inj he).symm, (inv s h.1).1 herr⟩
  · simp at he

/-- C38: when every particle is inside the table, every schedule gives every particle its own value. -/
theorem all_inside {queues : Fin n → List ℕ} (hall : ∀ k, ∀ i ∈ queues k, out i = false) {s : State n}
    (h : Ends out val queues s) : ∃ res, outcome s = .ok res ∧ ∀ k, ∀ i ∈ queues k, res i = .value (val i) := by
  have inv : ∀ s, Relation.ReflTransGen (Step out val) (start queues) s → s.err = false ∧
      (∀ k, ∀ i ∈ (s.th k).todo, i ∈ queues k) ∧
      ∀ k, ∀ i ∈ queues k, i ∈ (s.th k).todo ∨ s.res i = .value (val i) := by
    intro s hs
    induction hs with
    | refl => exact ⟨rfl, fun k i hi => hi, fun k i hi => Or.inl hi⟩
    | tail _ hstep ih =>
      obtain ⟨i1, i2, i3⟩ := ih
      cases hstep with
      | skip k i rest hk he => rw [i1] at he; simp at he
      | enter k i rest hk _ =>
        refine ⟨i1, fun k' j hj => ?_, fun k' j hj => ?_⟩
        · by_cases hkk : k' = k
          · subst hkk
            simp only [Function.update_self] at hj
            exact i2 k' j (by rw [hk]; exact hj)
          · simp only [Function.update_of_ne hkk] at hj
            exact i2 k' j hj
        · by_cases hkk : k' = k
          · subst hkk
            simp only [Function.update_self]
            have := i3 k' j hj
            rw [hk] at this
            exact this
          · simp only [Function.update_of_ne hkk]
            exact i3 k' j hj
      | eval k i rest hk =>
        have hi : out i = false := hall k i (i2 k i (by rw [hk]; simp))
        refine ⟨hi, fun k' j hj => ?_, fun k' j hj => ?_⟩
        · by_cases hkk : k' = k
          · subst hkk
            simp only [Function.update_self] at hj
            exact i2 k' j (by rw [hk]; exact List.mem_cons_of_mem _ hj)
          · simp only [Function.update_of_ne hkk] at hj
            exact i2 k' j hj
        · by_cases hji : j = i
          · subst hji
            right
            simp only [Function.update_self, hi]
            rfl
          · simp only [Function.update_of_ne hji]
            rcases i3 k' j hj with hm | hm
            · by_cases hkk : k' = k
              · subst hkk
                simp only [Function.update_self]
                rw [hk] at hm
                rcases List.mem_cons.1 hm with h | h
                · exact absurd h hji
                · exact Or.inl h
              · simp only [Function.update_of_ne hkk]
                exact Or.inl hm
            · exact Or.inr hm
  obtain ⟨e, -, h3⟩ := inv s h.1
  refine ⟨s.res, by unfold outcome; rw [e]; rfl, fun k i hi => ?_⟩
  rcases h3 k i hi with hm | hm
  · rw [h.2 k] at hm; simp at hm
  · exact hm

/-- C38: with one thread a particle outside the table is always reported. -/
theorem error_reported_partial {queues : Fin 1 → List ℕ} {s : State 1} (h : Ends out val queues s)
    (hout : ∃ i ∈ queues 0, out i = true) : outcome s = .error .attributeError := by
  have inv : ∀ s : State 1, Relation.ReflTransGen (Step out val) (start queues) s →
      ((s.th 0).entered = true → s.err = false) ∧
      (s.err = true ∨ ∃ i ∈ (s.th 0).todo, out i = true) := by
    intro s hs
    induction hs with
    | refl => exact ⟨fun h => absurd h (by simp [start]), Or.inr hout⟩
    | tail _ hstep ih =>
      obtain ⟨i1, i2⟩ := ih
      cases hstep with
      | skip k i rest hk he =>
        have hk0 : k = 0 := Subsingleton.elim _ _
        subst hk0
        simp only [Function.update_self]
        exact ⟨fun h => absurd h (by simp), Or.inl he⟩
      | enter k i rest hk he =>
        have hk0 : k = 0 := Subsingleton.elim _ _
        subst hk0
        simp only [Function.update_self]
        refine ⟨fun _ => he, ?_⟩
        rcases i2 with h | ⟨j, hj, ho⟩
        · rw [he] at h; simp at h
        · rw [hk] at hj; exact Or.inr ⟨j, hj, ho⟩
      | eval k i rest hk =>
        have hk0 : k = 0 := Subsingleton.elim _ _
        subst hk0
        simp only [Function.update_self]
        refine ⟨fun h => absurd h (by simp), ?_⟩
        by_cases ho : out i = true
        · exact Or.inl ho
        · right
          have hne := i1 (by rw [hk])
          rcases i2 with h | ⟨j, hj, hoj⟩
          · rw [hne] at h; simp at h
          · rw [hk] at hj
            rcases List.mem_cons.1 hj with rfl | hj
            · exact absurd hoj ho
            · exact ⟨j, hj, hoj⟩
  obtain ⟨-, h2⟩ := inv s h.1
  unfold outcome
  rcases h2 with h2 | ⟨j, hj, -⟩
  · rw [h2]; rfl
  · rw [h.2 0] at hj; simp at hj

/-- C38 (finding): with two threads the error can be lost: one thread finds its particle outside the table while the
other is between its test and its own look-up, which then overwrites the error. The call succeeds, and the value of the
particle outside is whatever was on the stack. -/
theorem race_loses_error : ∃ (queues : Fin 2 → List ℕ) (out : ℕ → Bool) (s : State 2), Ends out (fun _ => 1) queues s ∧
    (∃ k, ∃ i ∈ queues k, out i = true) ∧ ∃ res, outcome s = .ok res ∧ res 0 = .uninit := by
  let queues : Fin 2 → List ℕ := ![[0], [1]]
  let out : ℕ → Bool := fun i => i == 0
  let s0 : State 2 := start queues
  let s1 : State 2 := { s0 with th := Function.update s0.th 0 ⟨[0], true⟩ }
  let s2 : State 2 := { s1 with th := Function.update s1.th 1 ⟨[1], true⟩ }
  let s3 : State 2 := { err := out 0, res := Function.update s2.res 0 (if out 0 then .uninit else .value 1),
                        th := Function.update s2.th 0 ⟨[], false⟩ }
  let s4 : State 2 := { err := out 1, res := Function.update s3.res 1 (if out 1 then .uninit else .value 1),
                        th := Function.update s3.th 1 ⟨[], false⟩ }
  refine ⟨queues, out, s4, ⟨?_, ?_⟩, ⟨0, 0, by simp [queues], rfl⟩, s4.res, rfl, ?_⟩
  · have t1 : Step out (fun _ => 1) s0 s1 := Step.enter s0 0 0 [] rfl rfl
    have t2 : Step out (fun _ => 1) s1 s2 := Step.enter s1 1 1 [] (by simp [s1, s0, start, queues]) rfl
    have t3 : Step out (fun _ => 1) s2 s3 := Step.eval s2 0 0 [] (by simp [s2, s1])
    have t4 : Step out (fun _ => 1) s3 s4 := Step.eval s3 1 1 [] (by simp [s3, s2])
    exact (((Relation.ReflTransGen.single t1).tail t2).tail t3).tail t4
  · intro k
    fin_cases k
    · simp [s4, s3]
    · simp [s4]
  · simp [s4, s3, out]

/-- Witness: one thread, two particles, the second outside. -/
example : ∃ s : State 1, Ends (fun i => i == 1) (fun _ => 1) (fun _ => [0, 1]) s := by
  let out : ℕ → Bool := fun i => i == 1
  let s0 : State 1 := start (fun _ => [0, 1])
  let s1 : State 1 := { s0 with th := Function.update s0.th 0 ⟨[0, 1], true⟩ }
  let s2 : State 1 := { err := out 0, res := Function.update s1.res 0 (if out 0 then .uninit else .value 1),
                        th := Function.update s1.th 0 ⟨[1], false⟩ }
  let s3 : State 1 := { s2 with th := Function.update s2.th 0 ⟨[1], true⟩ }
  let s4 : State 1 := { err := out 1, res := Function.update s3.res 1 (if out 1 then .uninit else .value 1),
                        th := Function.update s3.th 0 ⟨[], false⟩ }
  refine ⟨s4, ?_, ?_⟩
  · have t1 : Step out (fun _ => 1) s0 s1 := Step.enter s0 0 0 [1] rfl rfl
    have t2 : Step out (fun _ => 1) s1 s2 := Step.eval s1 0 0 [1] (by simp [s1])
    have t3 : Step out (fun _ => 1) s2 s3 := Step.enter s2 0 1 [] (by simp [s2]) rfl
    have t4 : Step out (fun _ => 1) s3 s4 := Step.eval s3 0 1 [] (by simp [s3])
    exact (((Relation.ReflTransGen.single t1).tail t2).tail t3).tail t4
  · intro k
    have : k = 0 := Subsingleton.elim _ _
    subst this
    simp [s4]

end Race

/-! Witnesses for the other theorems. -/

example := interp1d_spec (n := 3) (by norm_num) (fun i => (i : ℝ)) (fun i => (i : ℝ) ^ 2) 1.5

example := onSegment_between (xs := fun i => (i : ℝ)) (ys := fun i => (i : ℝ) ^ 2) (k := 1) (x := 1.5) (y := 2.5) (by norm_num)

example := photoRate_spec (n := 3) (by norm_num) (l := fun i => (i : ℝ) / 2) (r := fun _ => 1e-12) (fun i _ => by push_cast; linarith)
  (fun i _ => by norm_num) (z := 3) (by norm_num)

example := clampE_in_range (g := ⟨-16, 5, 2, 21⟩) (by norm_num) (by norm_num) (by norm_num) 30

example := low_density_fails (g := ⟨-16, 5, 2, 21⟩) (by norm_num) (by norm_num) (by norm_num) (by norm_num) (fun x y => x + y)
  (parts := [(-10, 5), (-17, 4)]) (p := (-17, 4)) (by simp) (by norm_num)

example := all_dense_fails ⟨-16, 5, 2, 21⟩ (fun x y => x + y) (parts := [(6, 5), (7, 4)]) (by norm_num)

end Verif.Props
