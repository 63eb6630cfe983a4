import Verif.Model.Construct

/-!
C18: which arguments of the constructor give an object, and what the object is. C68: an object read back from its
savefile has the velocity scale, the pixels and the sightlines of the object which was saved.
-/

namespace Verif.Props.Construct
open Verif Verif.Construct

/-- The names of kernels in the documentation. -/
def kernelNames : List (String × ℤ) := [("voronoi", 2), ("tophat", 0), ("quintic", 3), ("cubic", 1), ("sph", 1)]

/-- The arguments which give an object from a snapshot. -/
structure Usable (a : Args) (s : Snap) : Prop where
  kernel : (∃ k, a.kernel = .none ∧ s.kernel = .ok k) ∨ ∃ n k, a.kernel = .name n ∧ (n, k) ∈ kernelNames
  cofm : (∃ p, a.cofm = .single p) ∨ ∃ rows, a.cofm = .table rows
  axis : (∃ x, a.axis = .scalar x) ∨ ∃ xs, a.axis = .array xs
  pixels : (∃ n, a.nbins = some n ∧ a.res = none) ∨ ∃ r, a.nbins = none ∧ a.res = some r ∧ r ≠ 0

/-- The size of the box in km/s: its proper length in Mpc times the Hubble rate, that given by the user or that of a
flat universe. -/
noncomputable def boxVelocity (a : Args) (s : Snap) : ℝ :=
  (s.box * s.unitLength.getD 3.085678e21 * s.atime / s.hubble / 3.085678e24) *
    (match a.externalHz with
      | some h => if h = 0 then 100 * s.hubble * Real.sqrt (s.omegaM / s.atime ^ 3 + s.omegaL) else h
      | none => 100 * s.hubble * Real.sqrt (s.omegaM / s.atime ^ 3 + s.omegaL))

theorem kernel_name (n : String) (s : Snap) :
    (∃ k, kernelOf (.name n) s = .ok k ∧ (n, k) ∈ kernelNames) ∨
    (kernelOf (.name n) s = .error .typeError ∧ ∀ k, (n, k) ∉ kernelNames) := by
  by_cases h1 : n = "voronoi"
  · subst h1; exact Or.inl ⟨2, rfl, by decide⟩
  by_cases h2 : n = "tophat"
  · subst h2; exact Or.inl ⟨0, rfl, by decide⟩
  by_cases h3 : n = "quintic"
  · subst h3; exact Or.inl ⟨3, rfl, by decide⟩
  by_cases h4 : n = "cubic"
  · subst h4; exact Or.inl ⟨1, rfl, by decide⟩
  by_cases h5 : n = "sph"
  · subst h5; exact Or.inl ⟨1, rfl, by decide⟩
  right
  constructor
  · unfold kernelOf
    split <;> first | rfl | simp_all
  · intro k hk
    simp [kernelNames] at hk
    tauto

theorem kernel_cases (a : Args) (s : Snap) :
    (∃ k, kernelOf a.kernel s = .ok k) ↔
      ((∃ k, a.kernel = .none ∧ s.kernel = .ok k) ∨ ∃ n k, a.kernel = .name n ∧ (n, k) ∈ kernelNames) := by
  cases hk : a.kernel with
  | none => simp [kernelOf]
  | name n =>
    rcases kernel_name n s with ⟨k, h1, h2⟩ | ⟨h1, h2⟩
    · constructor
      · intro _; exact Or.inr ⟨n, k, rfl, h2⟩
      · intro _; exact ⟨k, h1⟩
    · constructor
      · rintro ⟨k, hk⟩; rw [h1] at hk; cases hk
      · rintro (⟨k, h, _⟩ | ⟨n', k, h, hm⟩)
        · cases h
        · cases h; exact absurd hm (h2 k)
  | num n =>
    constructor
    · rintro ⟨k, hk⟩; cases hk
    · rintro (⟨k, h, _⟩ | ⟨n', k, h, hm⟩) <;> cases h

theorem pixels_cases (vmax : ℝ) (nbins : Option ℤ) (res : Option ℝ) :
    pixels vmax nbins res = match nbins, res with
      | some n, none => .ok n
      | none, some r => if r = 0 then .error .overflowError else .ok (trunc (vmax / r))
      | none, none => .error .valueError
      | some _, some _ => .error .attributeError := by
  unfold pixels
  cases nbins <;> cases res <;> simp only [bind, Except.bind] <;> (try split_ifs) <;> rfl

/-- The object made from a snapshot. -/
theorem fromSnapshot_eq (a : Args) (s : Snap) (k : Option ℤ) (cofm : List (ℝ × ℝ × ℝ)) (axis : List ℤ)
    (h1 : cofmOf a.cofm = .ok cofm) (h2 : axisOf a.axis = .ok axis) (n : ℤ)
    (h3 : pixels (boxVelocity a s) a.nbins a.res = .ok n) :
    ∃ o, fromSnapshot a (some s) k = .ok o ∧ o.kernel = k ∧ o.cofm = cofm ∧ o.axis = axis ∧ o.numLos = axis.length ∧
      o.vmax = boxVelocity a s ∧ o.nbins = n ∧ o.dvbin = dvbinOf (boxVelocity a s) n ∧
      o.unitLength = s.unitLength.getD 3.085678e21 ∧ o.atime = s.atime ∧ o.red = 1 / s.atime - 1 ∧ o.box = s.box ∧
      o.velfac * s.box = boxVelocity a s ∧ o.hubble = s.hubble ∧ o.omegaM = s.omegaM ∧ o.omegaL = s.omegaL ∧
      o.velfac = velfacOf o.unitLength o.atime o.hubble o.hz := by
  have hv : s.box * velfacOf (s.unitLength.getD defaultLength) s.atime s.hubble ((given a.externalHz).getD (hubbleAt s.hubble s.omegaM s.omegaL s.atime)) = boxVelocity a s := by
    unfold velfacOf boxVelocity given hubbleAt defaultLength
    cases a.externalHz with
    | none => simp only [Option.getD_none]; ring
    | some h =>
      dsimp only
      split_ifs <;> simp only [Option.getD_none, Option.getD_some] <;> ring
  unfold fromSnapshot get_units noneCheck
  simp only [bind, Except.bind, pure, Except.pure, h1, h2, Option.isNone_some, Bool.false_eq_true, or_self, if_false]
  rw [hv, h3]
  refine ⟨_, rfl, rfl, rfl, rfl, rfl, rfl, rfl, rfl, rfl, rfl, rfl, rfl, ?_, rfl, rfl, rfl, rfl⟩
  dsimp only
  rw [mul_comm]
  exact hv

/-- C18. Exactly these arguments give an object from a snapshot. -/
theorem construct_iff (a : Args) (s : Snap) (saved : Py Saved) (hr : a.reload = true) :
    (∃ o, construct a (some s) saved = .ok o) ↔ Usable a s := by
  have hunf : construct a (some s) saved = (kernelOf a.kernel s).bind (fun k => fromSnapshot a (some s) (some k)) := by
    unfold construct
    rw [hr]
    dsimp only
    cases kernelOf a.kernel s <;> rfl
  rw [hunf]
  constructor
  · rintro ⟨o, ho⟩
    have hk : ∃ k, kernelOf a.kernel s = .ok k := by
      cases h : kernelOf a.kernel s with
      | error e => rw [h] at ho; cases ho
      | ok k => exact ⟨k, rfl⟩
    obtain ⟨k, hk'⟩ := hk
    rw [hk'] at ho
    have ho : fromSnapshot a (some s) (some k) = .ok o := ho
    have hc : ∃ c, cofmOf a.cofm = .ok c := by
      cases h : cofmOf a.cofm with
      | error e => simp [fromSnapshot, h, bind, Except.bind] at ho
      | ok c => exact ⟨c, rfl⟩
    obtain ⟨c, hc⟩ := hc
    have hx : ∃ x, axisOf a.axis = .ok x := by
      cases h : axisOf a.axis with
      | error e => simp [fromSnapshot, hc, h, bind, Except.bind] at ho
      | ok c => exact ⟨c, rfl⟩
    obtain ⟨x, hx⟩ := hx
    refine ⟨(kernel_cases a s).mp ⟨k, hk'⟩, ?_, ?_, ?_⟩
    · cases h : a.cofm with
      | none => rw [h] at hc; cases hc
      | single p => exact Or.inl ⟨p, rfl⟩
      | table r => exact Or.inr ⟨r, rfl⟩
      | list r => rw [h] at hc; cases hc
    · cases h : a.axis with
      | none => rw [h] at hx; cases hx
      | scalar p => exact Or.inl ⟨p, rfl⟩
      | array r => exact Or.inr ⟨r, rfl⟩
      | list r => rw [h] at hx; cases hx
    · unfold fromSnapshot get_units noneCheck at ho
      simp only [bind, Except.bind, pure, Except.pure, hc, hx, Option.isNone_some, Bool.false_eq_true, or_self, if_false] at ho
      rw [pixels_cases] at ho
      cases hn : a.nbins <;> cases hq : a.res <;> rw [hn, hq] at ho <;> dsimp only at ho
      · cases ho
      · rename_i r
        right
        refine ⟨r, rfl, rfl, ?_⟩
        intro h0
        rw [if_pos h0] at ho
        cases ho
      · exact Or.inl ⟨_, rfl, rfl⟩
      · cases ho
  · rintro ⟨hk, hc, hx, hp⟩
    obtain ⟨k, hk⟩ := (kernel_cases a s).mpr hk
    obtain ⟨c, hc⟩ : ∃ c, cofmOf a.cofm = .ok c := by
      rcases hc with ⟨p, h⟩ | ⟨p, h⟩ <;> rw [h] <;> exact ⟨_, rfl⟩
    obtain ⟨x, hx⟩ : ∃ x, axisOf a.axis = .ok x := by
      rcases hx with ⟨p, h⟩ | ⟨p, h⟩ <;> rw [h] <;> exact ⟨_, rfl⟩
    obtain ⟨n, hn⟩ : ∃ n, pixels (boxVelocity a s) a.nbins a.res = .ok n := by
      rw [pixels_cases]
      rcases hp with ⟨n, h1, h2⟩ | ⟨r, h1, h2, h3⟩
      · rw [h1, h2]; exact ⟨n, rfl⟩
      · rw [h1, h2]; dsimp only; rw [if_neg h3]; exact ⟨_, rfl⟩
    obtain ⟨o, ho, _⟩ := fromSnapshot_eq a s (some k) c x hc hx n hn
    exact ⟨o, by rw [hk]; exact ho⟩

/-- A header with which the box has a size. -/
structure GoodSnap (s : Snap) : Prop where
  box : 0 < s.box
  atime : 0 < s.atime
  hubble : 0 < s.hubble
  omega : 0 < s.omegaM / s.atime ^ 3 + s.omegaL
  unit : ∀ u, s.unitLength = some u → 0 < u
  kernel : ∀ k, s.kernel = .ok k → k ∈ [0, 1, 2, 3]

theorem boxVelocity_pos {a : Args} {s : Snap} (hs : GoodSnap s) (hz : ∀ h, a.externalHz = some h → 0 ≤ h) :
    0 < boxVelocity a s := by
  have hu : (0 : ℝ) < s.unitLength.getD 3.085678e21 := by
    cases h : s.unitLength with
    | none => norm_num
    | some u => exact hs.unit u h
  have hsq := Real.sqrt_pos.mpr hs.omega
  have h1 := hs.box
  have h2 := hs.atime
  have h3 := hs.hubble
  have hH : 0 < 100 * s.hubble * Real.sqrt (s.omegaM / s.atime ^ 3 + s.omegaL) := by positivity
  unfold boxVelocity
  apply mul_pos (by positivity)
  cases h : a.externalHz with
  | none => exact hH
  | some v =>
    dsimp only
    split_ifs with h0
    · exact hH
    · exact lt_of_le_of_ne (hz v h) (Ne.symm h0)

/-- C18. With usable arguments, and a number of pixels or a pixel which fits in the box, the object has a positive
number of pixels which fill the box exactly and are at least as wide as asked for and less than twice as wide, and one of
the four kernels. -/
theorem construct_good {a : Args} {s : Snap} (saved : Py Saved) (hr : a.reload = true) (hu : Usable a s) (hs : GoodSnap s)
    (hz : ∀ h, a.externalHz = some h → 0 ≤ h) (hn : ∀ n, a.nbins = some n → 0 < n)
    (hp : ∀ r, a.res = some r → 0 < r ∧ r ≤ boxVelocity a s) :
    ∃ o d k, construct a (some s) saved = .ok o ∧ 0 < o.nbins ∧ o.vmax = boxVelocity a s ∧ o.dvbin = some d ∧
      0 < d ∧ d * o.nbins = o.vmax ∧ (∀ n, a.nbins = some n → o.nbins = n) ∧ (∀ r, a.res = some r → r ≤ d ∧ d < 2 * r) ∧
      o.kernel = some k ∧ k ∈ [0, 1, 2, 3] ∧ o.numLos = o.axis.length := by
  have hv := boxVelocity_pos hs hz
  obtain ⟨k, hk⟩ := (kernel_cases a s).mpr hu.kernel
  have hk4 : k ∈ [0, 1, 2, 3] := by
    rcases hu.kernel with ⟨k', h1, h2⟩ | ⟨n, k', h1, h2⟩
    · rw [h1] at hk
      exact hs.kernel k hk
    · rw [h1] at hk
      rcases kernel_name n s with ⟨k2, h3, h4⟩ | ⟨h3, _⟩
      · rw [h3] at hk
        cases hk
        simp [kernelNames] at h4
        rcases h4 with ⟨_, rfl⟩ | ⟨_, rfl⟩ | ⟨_, rfl⟩ | ⟨_, rfl⟩ | ⟨_, rfl⟩ <;> decide
      · rw [h3] at hk; cases hk
  obtain ⟨c, hc⟩ : ∃ c, cofmOf a.cofm = .ok c := by
    rcases hu.cofm with ⟨p, h⟩ | ⟨p, h⟩ <;> rw [h] <;> exact ⟨_, rfl⟩
  obtain ⟨x, hx⟩ : ∃ x, axisOf a.axis = .ok x := by
    rcases hu.axis with ⟨p, h⟩ | ⟨p, h⟩ <;> rw [h] <;> exact ⟨_, rfl⟩
  obtain ⟨n, hn1, hn2, hn3, hn4⟩ : ∃ n : ℤ, pixels (boxVelocity a s) a.nbins a.res = .ok n ∧ 0 < n ∧
      (∀ m, a.nbins = some m → n = m) ∧ (∀ r, a.res = some r → r ≤ boxVelocity a s / n ∧ boxVelocity a s / n < 2 * r) := by
    rw [pixels_cases]
    rcases hu.pixels with ⟨n, h1, h2⟩ | ⟨r, h1, h2, h3⟩
    · rw [h1, h2]
      exact ⟨n, rfl, hn n h1, fun m hm => Option.some.inj hm, fun r hr => by cases hr⟩
    · obtain ⟨r0, r1⟩ := hp r h2
      rw [h1, h2]
      dsimp only
      rw [if_neg h3]
      have hq : 1 ≤ boxVelocity a s / r := by rw [le_div_iff₀ r0]; linarith
      have htr : trunc (boxVelocity a s / r) = ⌊boxVelocity a s / r⌋ := by
        unfold trunc
        rw [if_pos (by linarith)]
      have hf : 1 ≤ ⌊boxVelocity a s / r⌋ := by rw [Int.le_floor]; simpa using hq
      have hfr : (1 : ℝ) ≤ ⌊boxVelocity a s / r⌋ := by exact_mod_cast hf
      refine ⟨trunc (boxVelocity a s / r), rfl, (by rw [htr]; omega), fun m hm => (by cases hm), fun r' hr' => ?_⟩
      cases hr'
      rw [htr]
      have h4 := Int.floor_le (boxVelocity a s / r)
      have h5 := Int.lt_floor_add_one (boxVelocity a s / r)
      constructor
      · rw [le_div_iff₀ (by linarith)]
        calc r * ⌊boxVelocity a s / r⌋ ≤ r * (boxVelocity a s / r) := by gcongr
          _ = boxVelocity a s := by field_simp
      · rw [div_lt_iff₀ (by linarith)]
        have : boxVelocity a s < r * (⌊boxVelocity a s / r⌋ + 1) := by
          rw [div_lt_iff₀ r0] at h5
          linarith
        nlinarith
  obtain ⟨o, ho, o1, o2, o3, o4, o5, o6, o7, _⟩ := fromSnapshot_eq a s (some k) c x hc hx n hn1
  have hnr : (0 : ℝ) < n := by exact_mod_cast hn2
  refine ⟨o, boxVelocity a s / n, k, ?_, by rw [o6]; exact hn2, o5, ?_, by positivity, ?_, ?_, hn4, o1, hk4, by rw [o4, o3]⟩
  · unfold construct
    simp only [hk, hr, Except.map, bind, Except.bind, if_true]
    exact ho
  · rw [o7]
    unfold dvbinOf
    rw [if_neg hn2.ne']
  · rw [o6, o5]
    field_simp
  · intro m hm
    rw [o6]
    exact hn3 m hm

/-- A snapshot and arguments which meet the hypotheses of `construct_good`. -/
example : ∃ (a : Args) (s : Snap), a.reload = true ∧ Usable a s ∧ GoodSnap s ∧
    (∀ h, a.externalHz = some h → 0 ≤ h) ∧ (∀ n, a.nbins = some n → 0 < n) ∧
    ∀ r, a.res = some r → 0 < r ∧ r ≤ boxVelocity a s := by
  refine ⟨{ cofm := .single (1, 2, 3), axis := .scalar 1, reload := true, externalHz := some 1000 },
    ⟨.ok 1, 60000, 1 / 4, 7 / 10, 3 / 10, 7 / 10, none⟩, rfl, ⟨Or.inl ⟨1, rfl, rfl⟩, Or.inl ⟨_, rfl⟩, Or.inl ⟨_, rfl⟩,
    Or.inr ⟨1, rfl, rfl, by norm_num⟩⟩, ⟨by norm_num, by norm_num, by norm_num, by norm_num, fun u hu => (by cases hu),
    fun k hk => (by cases hk; decide)⟩, fun h hh => (by cases hh; norm_num), fun n hn => (by cases hn), fun r hr => ?_⟩
  cases hr
  refine ⟨by norm_num, ?_⟩
  unfold boxVelocity
  norm_num

/-- The full statement is false. A number of pixels with the default pixel width: `AttributeError`. -/
theorem nbins_and_res_fail (a : Args) (s : Snap) (saved : Py Saved) (hr : a.reload = true) (k : ℤ)
    (hk : kernelOf a.kernel s = .ok k) (c : List (ℝ × ℝ × ℝ)) (hc : cofmOf a.cofm = .ok c) (x : List ℤ)
    (hx : axisOf a.axis = .ok x) (n : ℤ) (hn : a.nbins = some n) (r : ℝ) (hres : a.res = some r) :
    construct a (some s) saved = .error .attributeError := by
  unfold construct fromSnapshot get_units noneCheck
  simp only [hk, hr, Except.map, bind, Except.bind, hc, hx, Option.isNone_some, Bool.false_eq_true, or_self, if_false, if_true]
  rw [pixels_cases, hn, hres]

/-- An unknown kernel name: `TypeError`, not the `ValueError` which was meant. -/
theorem unknown_kernel (a : Args) (s : Snap) (saved : Py Saved) (n : String) (h : a.kernel = .name n)
    (hn : ∀ k, (n, k) ∉ kernelNames) : construct a (some s) saved = .error .typeError := by
  rcases kernel_name n s with ⟨k, h1, h2⟩ | ⟨h1, _⟩
  · exact absurd h2 (hn k)
  · unfold construct
    rw [h]
    simp only [h1, Except.map, bind, Except.bind]

/-- The `RuntimeError` for missing sightlines is never raised: whatever the arguments are, a constructor reading a
snapshot does not raise it, and missing positions raise `AttributeError`, missing axes `TypeError`. -/
theorem missing_sightlines (a : Args) (s : Snap) (saved : Py Saved) (hr : a.reload = true)
    (hk : s.kernel ≠ .error .runtimeError) :
    construct a (some s) saved ≠ .error .runtimeError ∧
    (∀ k, kernelOf a.kernel s = .ok k → a.cofm = .none → construct a (some s) saved = .error .attributeError) ∧
    (∀ k c, kernelOf a.kernel s = .ok k → cofmOf a.cofm = .ok c → a.axis = .none →
      construct a (some s) saved = .error .typeError) := by
  refine ⟨?_, ?_, ?_⟩
  · intro h
    unfold construct at h
    rw [hr] at h
    dsimp only at h
    cases hq : kernelOf a.kernel s with
    | error e =>
      rw [hq] at h
      have he : e = .runtimeError := by
        simp only [Except.map, bind, Except.bind] at h
        exact Except.error.inj h
      subst he
      cases hka : a.kernel with
      | none => rw [hka] at hq; exact hk hq
      | name n =>
        rw [hka] at hq
        rcases kernel_name n s with ⟨k, h1, _⟩ | ⟨h1, _⟩ <;> rw [h1] at hq <;> cases hq
      | num n => rw [hka] at hq; cases hq
    | ok k =>
      rw [hq] at h
      simp only [Except.map, bind, Except.bind, if_true] at h
      unfold fromSnapshot get_units noneCheck at h
      simp only [bind, Except.bind, Option.isNone_some, Bool.false_eq_true, or_self, if_false] at h
      cases hc : a.cofm <;> rw [hc] at h <;> simp only [cofmOf] at h <;> try (cases h; done)
      all_goals
        cases hx : a.axis <;> rw [hx] at h <;> simp only [axisOf] at h <;> try (cases h; done)
        all_goals
          rw [pixels_cases] at h
          cases hn : a.nbins <;> cases hq2 : a.res <;> rw [hn, hq2] at h <;> dsimp only at h <;> try (cases h; done)
          all_goals
            split_ifs at h <;> cases h
  · intro k hk h
    unfold construct fromSnapshot
    simp only [hk, hr, h, Except.map, bind, Except.bind, if_true, cofmOf]
  · intro k c hk hc h
    unfold construct fromSnapshot
    simp only [hk, hr, h, hc, Except.map, bind, Except.bind, if_true, axisOf]

/-- A pixel wider than the box: an object without pixels, and no error. -/
theorem wide_pixel (a : Args) (s : Snap) (saved : Py Saved) (hr : a.reload = true) (hu : Usable a s) (hs : GoodSnap s)
    (hz : ∀ h, a.externalHz = some h → 0 ≤ h) (r : ℝ) (hres : a.res = some r) (hw : boxVelocity a s < r) :
    ∃ o, construct a (some s) saved = .ok o ∧ o.nbins = 0 ∧ o.dvbin = none := by
  have hv := boxVelocity_pos hs hz
  obtain ⟨k, hk⟩ := (kernel_cases a s).mpr hu.kernel
  obtain ⟨c, hc⟩ : ∃ c, cofmOf a.cofm = .ok c := by
    rcases hu.cofm with ⟨p, h⟩ | ⟨p, h⟩ <;> rw [h] <;> exact ⟨_, rfl⟩
  obtain ⟨x, hx⟩ : ∃ x, axisOf a.axis = .ok x := by
    rcases hu.axis with ⟨p, h⟩ | ⟨p, h⟩ <;> rw [h] <;> exact ⟨_, rfl⟩
  have hn : pixels (boxVelocity a s) a.nbins a.res = .ok 0 := by
    rw [pixels_cases]
    rcases hu.pixels with ⟨n, h1, h2⟩ | ⟨r', h1, h2, h3⟩
    · rw [h2] at hres; cases hres
    · rw [h1, hres]
      dsimp only
      rw [if_neg (by linarith)]
      unfold trunc
      rw [if_pos (by apply div_nonneg <;> linarith)]
      congr 1
      rw [Int.floor_eq_zero_iff]
      constructor
      · apply div_nonneg <;> linarith
      · rw [div_lt_one (by linarith)]; exact hw
  obtain ⟨o, ho, _, _, _, _, _, o6, o7, _⟩ := fromSnapshot_eq a s (some k) c x hc hx 0 hn
  refine ⟨o, ?_, o6, ?_⟩
  · unfold construct
    simp only [hk, hr, Except.map, bind, Except.bind, if_true]
    exact ho
  · rw [o7]; rfl

/-- Many positions and one axis: the object says it has one sightline. -/
theorem one_axis_many_positions (a : Args) (s : Snap) (saved : Py Saved) (hr : a.reload = true) (hu : Usable a s)
    (rows : List (ℝ × ℝ × ℝ)) (hc : a.cofm = .table rows) (x : ℤ) (hx : a.axis = .scalar x) :
    ∃ o, construct a (some s) saved = .ok o ∧ o.cofm = rows ∧ o.numLos = 1 := by
  obtain ⟨k, hk⟩ := (kernel_cases a s).mpr hu.kernel
  obtain ⟨n, hn⟩ : ∃ n, pixels (boxVelocity a s) a.nbins a.res = .ok n := by
    rw [pixels_cases]
    rcases hu.pixels with ⟨n, h1, h2⟩ | ⟨r, h1, h2, h3⟩
    · rw [h1, h2]; exact ⟨n, rfl⟩
    · rw [h1, h2]; dsimp only; rw [if_neg h3]; exact ⟨_, rfl⟩
  obtain ⟨o, ho, _, o2, _, o4, _⟩ := fromSnapshot_eq a s (some k) rows [x] (by rw [hc]; rfl) (by rw [hx]; rfl) n hn
  refine ⟨o, ?_, o2, o4⟩
  unfold construct
  simp only [hk, hr, Except.map, bind, Except.bind, if_true]
  exact ho

/-- The unit system given by the user has no effect on an object made from a snapshot. -/
theorem units_ignored (a : Args) (s : Snap) (saved : Py Saved) (hr : a.reload = true) (u : Option ℝ) :
    construct { a with units := u } (some s) saved = construct a (some s) saved := by
  unfold construct fromSnapshot get_units
  simp only [hr, if_true]

/-- C68. An object made from a snapshot and read back from its savefile, with the same unit of length and no condition
on the pixel width, has the same sightlines, redshift, velocity scale and pixels. -/
theorem reload_same_partial {a : Args} {s : Snap} {saved : Py Saved} {o : Obj} (hr : a.reload = true) (hs : GoodSnap s)
    (ho : construct a (some s) saved = .ok o) (b : Args) (hb : b.reload = false) (hbr : b.res = none)
    (hbu : b.units.getD 3.085678e21 = o.unitLength) (hbz : b.externalHz = none) :
    ∃ o', construct b none (.ok (saveHeader o)) = .ok o' ∧ o'.cofm = o.cofm ∧ o'.axis = o.axis ∧ o'.numLos = o.numLos ∧
      o'.red = o.red ∧ o'.atime = o.atime ∧ o'.hz = o.hz ∧ o'.velfac = o.velfac ∧ o'.vmax = o.vmax ∧ o'.nbins = o.nbins ∧
      o'.dvbin = o.dvbin ∧ o'.box = o.box := by
  obtain ⟨k, c, x, n, hk, hc, hx, hn⟩ : ∃ k c x n, kernelOf a.kernel s = .ok k ∧ cofmOf a.cofm = .ok c ∧
      axisOf a.axis = .ok x ∧ pixels (boxVelocity a s) a.nbins a.res = .ok n := by
    have hu := (construct_iff a s saved hr).mp ⟨o, ho⟩
    obtain ⟨k, hk⟩ := (kernel_cases a s).mpr hu.kernel
    obtain ⟨c, hc⟩ : ∃ c, cofmOf a.cofm = .ok c := by
      rcases hu.cofm with ⟨p, h⟩ | ⟨p, h⟩ <;> rw [h] <;> exact ⟨_, rfl⟩
    obtain ⟨x, hx⟩ : ∃ x, axisOf a.axis = .ok x := by
      rcases hu.axis with ⟨p, h⟩ | ⟨p, h⟩ <;> rw [h] <;> exact ⟨_, rfl⟩
    obtain ⟨n, hn⟩ : ∃ n, pixels (boxVelocity a s) a.nbins a.res = .ok n := by
      rw [pixels_cases]
      rcases hu.pixels with ⟨n, h1, h2⟩ | ⟨r, h1, h2, h3⟩
      · rw [h1, h2]; exact ⟨n, rfl⟩
      · rw [h1, h2]; dsimp only; rw [if_neg h3]; exact ⟨_, rfl⟩
    exact ⟨k, c, x, n, hk, hc, hx, hn⟩
  obtain ⟨o2, h1, h2, h3, h4, h5, h6, h7, h8, h9, h10, h11, h12, h13, h14, h15, h16, h17⟩ :=
    fromSnapshot_eq a s (some k) c x hc hx n hn
  have : o2 = o := by
    have : construct a (some s) saved = .ok o2 := by
      unfold construct
      simp only [hk, hr, Except.map, bind, Except.bind, if_true]
      exact h1
    rw [this] at ho
    exact Except.ok.inj ho
  subst this
  have hat : 1 / (1 + o2.red) = o2.atime := by
    rw [h11, h10]
    have := hs.atime
    field_simp
    ring
  have hvf : velfacOf (b.units.getD defaultLength) (1 / (1 + o2.red)) o2.hubble o2.hz = o2.velfac := by
    rw [h17, hat]
    congr 1
  refine ⟨⟨none, o2.cofm, o2.axis, o2.axis.length, b.units.getD defaultLength, o2.box, o2.red, 1 / (1 + o2.red), o2.hubble,
    o2.omegaM, o2.omegaL, o2.hz, o2.velfac, o2.box * o2.velfac, o2.nbins, dvbinOf (o2.box * o2.velfac) o2.nbins⟩,
    ?_, rfl, rfl, ?_, rfl, hat, rfl, rfl, ?_, rfl, ?_, rfl⟩
  · unfold construct fromSavefile saveHeader given
    simp only [hb, hbr, hbz, bind, Except.bind, pure, Except.pure, Option.getD_some, hvf]
    rfl
  · dsimp only
    rw [h5, h4]
  · dsimp only
    rw [h12, mul_comm, h13, h6]
  · dsimp only
    rw [h12, mul_comm, h13, h8, h7]

/-- The hypotheses of `reload_same_partial` are met by a snapshot in the default units. -/
example : ∃ (a : Args) (s : Snap) (o : Obj) (b : Args), a.reload = true ∧ GoodSnap s ∧
    construct a (some s) (.error .ioError) = .ok o ∧ b.reload = false ∧ b.res = none ∧
    b.units.getD 3.085678e21 = o.unitLength ∧ b.externalHz = none := by
  have hs : GoodSnap ⟨.ok 1, 60000, 1 / 4, 7 / 10, 3 / 10, 7 / 10, none⟩ :=
    ⟨by norm_num, by norm_num, by norm_num, by norm_num, fun u hu => (by cases hu), fun k hk => (by cases hk; decide)⟩
  let a : Args := { cofm := .single (1, 2, 3), axis := .scalar 1, reload := true, nbins := some 100, res := none }
  let s : Snap := ⟨.ok 1, 60000, 1 / 4, 7 / 10, 3 / 10, 7 / 10, none⟩
  obtain ⟨o, ho, o1, o2, o3, o4, o5, o6, o7, o8, _⟩ := fromSnapshot_eq a s (some 1) [(1, 2, 3)] [1] rfl rfl 100
    (by rw [pixels_cases])
  refine ⟨a, s, o, { res := none }, rfl, hs, ?_, rfl, rfl, ?_, rfl⟩
  · unfold construct
    simp only [a, s, kernelOf, Except.map, bind, Except.bind, if_true]
    exact ho
  · rw [o8]

/-- The unit of length is not in the savefile. Read back without it, the size of the box in km/s, and so the width of
the pixels, is wrong by the ratio of the units: a factor 1000 for a snapshot in Mpc/h. -/
theorem reload_wrong_units {a : Args} {s : Snap} {saved : Py Saved} {o : Obj} (hr : a.reload = true) (hs : GoodSnap s)
    (ho : construct a (some s) saved = .ok o) (b : Args) (hb : b.reload = false) (hbr : b.res = none)
    (hbu : b.units = none) (hbz : b.externalHz = none) (u : ℝ) (hu : s.unitLength = some u) :
    ∃ o', construct b none (.ok (saveHeader o)) = .ok o' ∧ o'.vmax * u = o.vmax * 3.085678e21 := by
  have hu2 := (construct_iff a s saved hr).mp ⟨o, ho⟩
  have hup := hs.unit u hu
  have hlen : o.unitLength = u := by
    unfold construct fromSnapshot get_units at ho
    obtain ⟨k, hk⟩ := (kernel_cases a s).mpr hu2.kernel
    simp only [hk, hr, Except.map, bind, Except.bind, if_true, pure, Except.pure] at ho
    split at ho
    · cases ho
    · split at ho
      · cases ho
      · split at ho
        · cases ho
        · split at ho
          · cases ho
          · cases ho
            simp [hu]
  obtain ⟨o1, h1, _, _, _, _, _, _, h7, h8, _, _, h11⟩ := reload_same_partial hr hs ho
    { b with units := some u } hb hbr (by simp [hlen]) hbz
  unfold construct fromSavefile saveHeader given at h1 ⊢
  simp only [hb, hbr, hbz, hbu, bind, Except.bind, pure, Except.pure, Option.getD_some, Option.getD_none] at h1 ⊢
  refine ⟨_, rfl, ?_⟩
  have h1 := Except.ok.inj h1
  have hv := h8
  rw [← h1] at hv
  dsimp only at hv ⊢
  rw [← hv]
  unfold velfacOf defaultLength
  ring

/-- Read back with the default arguments, an object made with pixels which are not 1 km/s wide (to one per cent) fails an
assertion. -/
theorem reload_default_res (o : Obj) (b : Args) (hb : b.reload = false) (hbr : b.res = some 1) (d : ℝ)
    (hd : dvbinOf (o.box * velfacOf (b.units.getD 3.085678e21) (1 / (1 + o.red)) o.hubble o.hz) o.nbins = some d)
    (hfar : 0.011 < |d - 1|) : construct b none (.ok (saveHeader o)) = .error .assertionError := by
  unfold construct fromSavefile saveHeader
  have hd' : dvbinOf (o.box * velfacOf (b.units.getD defaultLength) (1 / (1 + o.red)) o.hubble o.hz) o.nbins = some d := hd
  have hc : isclose d 1 1e-2 = false := by
    unfold isclose
    rw [decide_eq_false_iff_not, not_le]
    norm_num
    norm_num at hfar
    linarith
  simp only [hb, hbr, bind, Except.bind, pure, Except.pure, Option.getD_some, hd', hc]
  rfl

/-! Witnesses for the other theorems of C61: a box of 60 Mpc/h at redshift 3. -/

/-- The snapshot. -/
noncomputable def exSnap : Snap := ⟨.ok 1, 60000, 1 / 4, 7 / 10, 3 / 10, 7 / 10, none⟩

theorem exSnap_good : GoodSnap exSnap :=
  ⟨by norm_num [exSnap], by norm_num [exSnap], by norm_num [exSnap], by norm_num [exSnap], fun u hu => (by cases hu),
    fun k hk => (by cases hk; decide)⟩

example (saved : Py Saved) := construct_iff { cofm := .single (1, 2, 3), axis := .scalar 1, reload := true } exSnap saved rfl

example (saved : Py Saved) := nbins_and_res_fail { cofm := .single (1, 2, 3), axis := .scalar 1, reload := true, nbins := some 100 } exSnap saved
  rfl 1 rfl _ rfl _ rfl 100 rfl 1 rfl

example (saved : Py Saved) := unknown_kernel { cofm := .single (1, 2, 3), axis := .scalar 1, reload := true, kernel := .name "sphere" } exSnap
  saved "sphere" rfl (by simp [kernelNames])

example (saved : Py Saved) := missing_sightlines { axis := .scalar 1, reload := true } exSnap saved rfl (by simp [exSnap])

example (saved : Py Saved) := wide_pixel { cofm := .single (1, 2, 3), axis := .scalar 1, reload := true, res := some 1e6, externalHz := some 100 }
  exSnap saved rfl ⟨Or.inl ⟨1, rfl, rfl⟩, Or.inl ⟨_, rfl⟩, Or.inl ⟨_, rfl⟩, Or.inr ⟨_, rfl, rfl, by norm_num⟩⟩ exSnap_good
  (fun h hh => by cases hh; norm_num) 1e6 rfl (by norm_num [boxVelocity, exSnap])

example (saved : Py Saved) := one_axis_many_positions { cofm := .table [(1, 2, 3), (4, 5, 6)], axis := .scalar 1, reload := true }
  exSnap saved rfl ⟨Or.inl ⟨1, rfl, rfl⟩, Or.inr ⟨_, rfl⟩, Or.inl ⟨_, rfl⟩, Or.inr ⟨_, rfl, rfl, by norm_num⟩⟩ _ rfl 1 rfl

example (saved : Py Saved) := units_ignored { cofm := .single (1, 2, 3), axis := .scalar 1, reload := true } exSnap saved rfl (some 3e24)

/-- A snapshot in Mpc/h: the object exists, and reading its savefile without the unit gives a box a thousand times smaller. -/
example : ∃ o o', construct { cofm := .single (1, 2, 3), axis := .scalar 1, reload := true }
      (some { exSnap with unitLength := some 3.085678e24 }) (.error .ioError) = .ok o ∧
    construct { res := none } none (.ok (saveHeader o)) = .ok o' ∧ o'.vmax * 3.085678e24 = o.vmax * 3.085678e21 := by
  have hs : GoodSnap { exSnap with unitLength := some 3.085678e24 } :=
    ⟨by norm_num [exSnap], by norm_num [exSnap], by norm_num [exSnap], by norm_num [exSnap], fun u hu => (by cases hu; norm_num),
      fun k hk => (by cases hk; decide)⟩
  obtain ⟨o, ho⟩ := (construct_iff { cofm := .single (1, 2, 3), axis := .scalar 1, reload := true }
    { exSnap with unitLength := some 3.085678e24 } (.error .ioError) rfl).2
    ⟨Or.inl ⟨1, rfl, rfl⟩, Or.inl ⟨_, rfl⟩, Or.inl ⟨_, rfl⟩, Or.inr ⟨_, rfl, rfl, by norm_num⟩⟩
  obtain ⟨o', h1, h2⟩ := reload_wrong_units rfl hs ho { res := none } rfl rfl rfl rfl 3.085678e24 rfl
  exact ⟨o, o', ho, h1, h2⟩

end Verif.Props.Construct
