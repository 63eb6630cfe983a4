import Verif.Model.ParseArgs
import Verif.Props.PyModule

/-!
C19: the arguments of the functions of the extension module.
-/

namespace Verif.Props.ParseArgs
open Verif Verif.ComputeSpectra Verif.PartInt Verif.IndexTable Verif.PyModule Verif.Absorption Verif.ParseArgs Verif.Props.PyModule

/-! Specification: which arguments are right. -/

/-- An integer that a C `int` can hold. -/
def IsInt (a : Arg) (n : ℤ) : Prop := a = .int n ∧ -2147483648 ≤ n ∧ n ≤ 2147483647

/-- An integer that a C `long long` can hold. -/
def IsLong (a : Arg) (n : ℤ) : Prop := a = .int n ∧ -9223372036854775808 ≤ n ∧ n ≤ 9223372036854775807

/-- A number that a C `double` can hold. -/
def IsNum (a : Arg) (x : ℝ) : Prop := a = .float x ∨ ∃ n : ℤ, a = .int n ∧ |n| < 2 ^ 1024 ∧ x = n

/-- The arguments of `_Particle_Interpolate`, by name and in this order. -/
structure Interp where
  compute_tau : ℤ
  nbins : ℤ
  kernel : ℤ
  box : ℝ
  velfac : ℝ
  atime : ℝ
  lambda : ℝ
  gamma : ℝ
  fosc : ℝ
  amumass : ℝ
  tautail : ℝ
  pos : Arr ℝ
  vel : Arr ℝ
  dens : Arr ℝ
  temp : Arr ℝ
  h : Arr ℝ
  axis : Arr ℝ
  cofm : Arr ℝ

/-- The objects passed are these values. -/
def Interp.Passed (v : Interp) (args : List Arg) : Prop :=
  ∃ a0 a1 a2 a3 a4 a5 a6 a7 a8 a9 a10, args = [a0, a1, a2, a3, a4, a5, a6, a7, a8, a9, a10, .array v.pos, .array v.vel, .array v.dens, .array v.temp,
    .array v.h, .array v.axis, .array v.cofm] ∧
    IsInt a0 v.compute_tau ∧ IsInt a1 v.nbins ∧ IsInt a2 v.kernel ∧ IsNum a3 v.box ∧ IsNum a4 v.velfac ∧ IsNum a5 v.atime ∧ IsNum a6 v.lambda ∧
    IsNum a7 v.gamma ∧ IsNum a8 v.fosc ∧ IsNum a9 v.amumass ∧ IsNum a10 v.tautail

/-! Conversions. -/

theorem convert_i {a : Arg} {n : ℤ} (h : IsInt a n) : convert .i a = .ok (.int n) := by
  obtain ⟨rfl, h1, h2⟩ := h
  rw [convert, toC, if_pos]
  norm_num
  omega

theorem convert_L {a : Arg} {n : ℤ} (h : IsLong a n) : convert .L a = .ok (.int n) := by
  obtain ⟨rfl, h1, h2⟩ := h
  rw [convert, toC, if_pos]
  norm_num
  omega

theorem abs_natAbs (n : ℤ) (b : ℕ) : |n| < (b : ℤ) ↔ n.natAbs < b := by
  rw [Int.abs_eq_natAbs]
  exact Int.ofNat_lt

theorem convert_d {a : Arg} {x : ℝ} (h : IsNum a x) : convert .d a = .ok (.dbl x) := by
  rcases h with rfl | ⟨n, rfl, h, rfl⟩
  · rfl
  · have h' : n.natAbs < 2 ^ 1024 := (abs_natAbs n (2 ^ 1024)).1 (by rw [Nat.cast_pow]; exact h)
    rw [convert, if_pos h']

theorem convert_i_inv {a : Arg} {v : CVal} (h : convert .i a = .ok v) : ∃ n, IsInt a n ∧ v = .int n := by
  cases a with
  | int n =>
    rw [convert, toC] at h
    split at h
    · rename_i hn
      cases h
      refine ⟨n, ⟨rfl, ?_⟩, rfl⟩
      norm_num at hn
      omega
    · cases h
  | _ => cases h

theorem convert_L_inv {a : Arg} {v : CVal} (h : convert .L a = .ok v) : ∃ n, IsLong a n ∧ v = .int n := by
  cases a with
  | int n =>
    rw [convert, toC] at h
    split at h
    · rename_i hn
      cases h
      refine ⟨n, ⟨rfl, ?_⟩, rfl⟩
      norm_num at hn
      omega
    · cases h
  | _ => cases h

theorem convert_d_inv {a : Arg} {v : CVal} (h : convert .d a = .ok v) : ∃ x, IsNum a x ∧ v = .dbl x := by
  cases a with
  | float x => cases h; exact ⟨x, .inl rfl, rfl⟩
  | int n =>
    rw [convert] at h
    split at h
    · rename_i hn
      cases h
      refine ⟨n, .inr ⟨n, rfl, ?_, rfl⟩, rfl⟩
      have := (abs_natAbs n (2 ^ 1024)).2 hn
      rwa [Nat.cast_pow] at this
    · cases h
  | _ => cases h

theorem convert_O_inv {a : Arg} {v : CVal} (h : convert .O a = .ok v) : ∃ x, a = .array x ∧ v = .arr x := by
  cases a with
  | array x => cases h; exact ⟨x, rfl, rfl⟩
  | _ => cases h

/-- The conversions in turn. -/
theorem parse_iff (fmt : List Fmt) (args : List Arg) (vs : List CVal) :
    parseTuple fmt args = .ok vs ↔ args.length = fmt.length ∧ List.Forall₂ (fun p v => convert p.1 p.2 = .ok v) (fmt.zip args) vs := by
  have H : ∀ (l : List (Fmt × Arg)) (vs : List CVal), l.mapM (fun p => convert p.1 p.2) = .ok vs ↔
      List.Forall₂ (fun p v => convert p.1 p.2 = .ok v) l vs := by
    intro l
    induction l with
    | nil =>
      intro vs
      rw [List.mapM_nil]
      constructor
      · intro h; cases h; exact .nil
      · intro h; cases h; rfl
    | cons p l ih =>
      intro vs
      rw [List.mapM_cons]
      constructor
      · intro h
        cases hp : convert p.1 p.2 with
        | error e => rw [hp] at h; cases h
        | ok v =>
          rw [hp] at h
          cases hl : l.mapM (fun p => convert p.1 p.2) with
          | error e => rw [hl] at h; cases h
          | ok ws =>
            rw [hl] at h
            cases h
            exact .cons hp ((ih ws).1 hl)
      · intro h
        cases h with
        | cons h1 h2 =>
          rw [h1, (ih _).2 h2]
          rfl
  unfold parseTuple
  split
  · rename_i h
    exact ⟨fun h' => (by cases h'), fun h' => absurd h'.1 h⟩
  · rename_i h
    rw [H]
    exact ⟨fun h' => ⟨not_not.1 h, h'⟩, fun h' => h'.2⟩

theorem parse_error {fmt : List Fmt} {args : List Arg} (h : ∀ vs, parseTuple fmt args ≠ .ok vs) : ∃ e, parseTuple fmt args = .error e := by
  cases hp : parseTuple fmt args with
  | error e => exact ⟨e, rfl⟩
  | ok vs => exact absurd hp (h vs)

/-! `_Particle_Interpolate`. -/

theorem interp_parse {v : Interp} {args : List Arg} (h : v.Passed args) : parseTuple interpFmt args =
    .ok [.int v.compute_tau, .int v.nbins, .int v.kernel, .dbl v.box, .dbl v.velfac, .dbl v.atime, .dbl v.lambda, .dbl v.gamma, .dbl v.fosc,
      .dbl v.amumass, .dbl v.tautail, .arr v.pos, .arr v.vel, .arr v.dens, .arr v.temp, .arr v.h, .arr v.axis, .arr v.cofm] := by
  obtain ⟨a0, a1, a2, a3, a4, a5, a6, a7, a8, a9, a10, rfl, h0, h1, h2, h3, h4, h5, h6, h7, h8, h9, h10⟩ := h
  rw [parse_iff]
  refine ⟨rfl, ?_⟩
  unfold interpFmt
  simp only [List.zip_cons_cons, List.zip_nil_right]
  exact .cons (convert_i h0) (.cons (convert_i h1) (.cons (convert_i h2) (.cons (convert_d h3) (.cons (convert_d h4) (.cons (convert_d h5)
    (.cons (convert_d h6) (.cons (convert_d h7) (.cons (convert_d h8) (.cons (convert_d h9) (.cons (convert_d h10) (.cons rfl (.cons rfl (.cons rfl
    (.cons rfl (.cons rfl (.cons rfl (.cons rfl .nil)))))))))))))))))

/-- C19: each value reaches the part of the interpolator that it is named for. -/
theorem interp_call (profile : ℝ → ℝ → ℝ) {v : Interp} {args : List Arg} (h : v.Passed args) :
    particle_interpolate profile args =
      py_particle_interpolate (decide (v.compute_tau ≠ 0)) v.nbins
        (LineAbsorption.mk' (profile := profile) (lambda := v.lambda) (gamma := v.gamma) (fosc := v.fosc) (amumass := v.amumass) (velfac := v.velfac)
          (boxsize := v.box) (kernel := v.kernel) (tautail := v.tautail))
        (box := v.box) (pos := v.pos) (vel := v.vel) (dens := v.dens) (temp := v.temp) (h := v.h) (axis := intsOf v.axis) (cofm := v.cofm) := by
  unfold particle_interpolate
  rw [interp_parse h]
  rfl

/-- C19: any other objects, too few or too many, are an `AttributeError`, and nothing is read. -/
theorem interp_call_raises (profile : ℝ → ℝ → ℝ) {args : List Arg} (h : ∀ v : Interp, ¬ v.Passed args) :
    particle_interpolate profile args = .raised .attributeError := by
  obtain ⟨e, he⟩ : ∃ e, parseTuple interpFmt args = .error e := by
    apply parse_error
    intro vs hv
    rw [parse_iff] at hv
    obtain ⟨hl, hf⟩ := hv
    have hl : args.length = 18 := hl
    rcases args with _ | ⟨a0, _ | ⟨a1, _ | ⟨a2, _ | ⟨a3, _ | ⟨a4, _ | ⟨a5, _ | ⟨a6, _ | ⟨a7, _ | ⟨a8, _ | ⟨a9, _ | ⟨a10, _ | ⟨a11, _ | ⟨a12, _ | ⟨a13,
      _ | ⟨a14, _ | ⟨a15, _ | ⟨a16, _ | ⟨a17, args⟩⟩⟩⟩⟩⟩⟩⟩⟩⟩⟩⟩⟩⟩⟩⟩⟩⟩ <;> simp only [List.length_cons, List.length_nil] at hl <;> try omega
    have hn : args = [] := List.length_eq_zero_iff.1 (by omega)
    subst hn
    unfold interpFmt at hf
    simp only [List.zip_cons_cons, List.zip_nil_right] at hf
    rcases hf with _ | ⟨h0, _ | ⟨h1, _ | ⟨h2, _ | ⟨h3, _ | ⟨h4, _ | ⟨h5, _ | ⟨h6, _ | ⟨h7, _ | ⟨h8, _ | ⟨h9, _ | ⟨h10, _ | ⟨h11, _ | ⟨h12, _ | ⟨h13,
      _ | ⟨h14, _ | ⟨h15, _ | ⟨h16, _ | ⟨h17, -⟩⟩⟩⟩⟩⟩⟩⟩⟩⟩⟩⟩⟩⟩⟩⟩⟩⟩
    obtain ⟨n0, g0, -⟩ := convert_i_inv h0
    obtain ⟨n1, g1, -⟩ := convert_i_inv h1
    obtain ⟨n2, g2, -⟩ := convert_i_inv h2
    obtain ⟨x3, g3, -⟩ := convert_d_inv h3
    obtain ⟨x4, g4, -⟩ := convert_d_inv h4
    obtain ⟨x5, g5, -⟩ := convert_d_inv h5
    obtain ⟨x6, g6, -⟩ := convert_d_inv h6
    obtain ⟨x7, g7, -⟩ := convert_d_inv h7
    obtain ⟨x8, g8, -⟩ := convert_d_inv h8
    obtain ⟨x9, g9, -⟩ := convert_d_inv h9
    obtain ⟨x10, g10, -⟩ := convert_d_inv h10
    obtain ⟨b11, rfl, -⟩ := convert_O_inv h11
    obtain ⟨b12, rfl, -⟩ := convert_O_inv h12
    obtain ⟨b13, rfl, -⟩ := convert_O_inv h13
    obtain ⟨b14, rfl, -⟩ := convert_O_inv h14
    obtain ⟨b15, rfl, -⟩ := convert_O_inv h15
    obtain ⟨b16, rfl, -⟩ := convert_O_inv h16
    obtain ⟨b17, rfl, -⟩ := convert_O_inv h17
    exact h ⟨n0, n1, n2, x3, x4, x5, x6, x7, x8, x9, x10, b11, b12, b13, b14, b15, b16, b17⟩
      ⟨a0, a1, a2, a3, a4, a5, a6, a7, a8, a9, a10, rfl, g0, g1, g2, g3, g4, g5, g6, g7, g8, g9, g10⟩
  unfold particle_interpolate
  rw [he]

/-- C19: whatever objects are passed, if the arrays among them have the documented shapes whenever all objects are of the right kinds, the call
raises an exception or gives a result. Missing: the other shapes. -/
theorem interp_call_safe_partial (profile : ℝ → ℝ → ℝ) {args : List Arg}
    (hs : ∀ v : Interp, v.Passed args → 0 < v.nbins ∧ v.kernel ≠ VORONOI_MESH ∧ (∀ a ∈ (intsOf v.axis).data, IsAxis a) ∧
      ∃ n nd nh na l m, Shapes (decide (v.compute_tau ≠ 0)) v.pos v.vel v.dens v.temp v.h (intsOf v.axis) v.cofm n nd nh na l m) :
    (∃ x, particle_interpolate profile args = .value x) ∨ ∃ e, particle_interpolate profile args = .raised e := by
  by_cases h : ∃ v : Interp, v.Passed args
  · obtain ⟨v, hv⟩ := h
    obtain ⟨h1, h2, h3, n, nd, nh, na, l, m, h4⟩ := hs v hv
    rw [interp_call profile hv]
    obtain ⟨k, hk⟩ : ∃ k : ℕ, v.nbins = k := ⟨v.nbins.toNat, by omega⟩
    rw [hk]
    rcases interp_never_crashes_partial (decide (v.compute_tau ≠ 0)) (nbins := k) (by omega) (LineAbsorption.mk' profile v.lambda v.gamma v.fosc v.amumass
      v.velfac v.box v.kernel v.tautail) h2 v.box v.pos v.vel v.dens v.temp v.h (intsOf v.axis) v.cofm h4 h3 with h | h | h
    · exact .inl h
    · exact .inr ⟨_, h⟩
    · exact .inr ⟨_, h⟩
  · push Not at h
    exact .inr ⟨_, interp_call_raises profile h⟩

theorem ints_back (a : Arr ℤ) : intsOf (ofInts a) = a := by
  unfold intsOf ofInts
  dsimp only
  rw [List.map_map]
  have : (fun x : ℝ => ⌊x⌋) ∘ (fun n : ℤ => (n : ℝ)) = id := by
    funext n
    exact Int.floor_intCast n
  rw [this, List.map_id]

/-- C19: the call made by `Spectra`: the numbers of the line, the object and the species are where the interpolator expects them. -/
theorem interp_call_from_python (o : SpeciesQuery.Obj) (hn : o.nbins ≤ 2147483647) (hk : o.kernel = 0 ∨ o.kernel = 1 ∨ o.kernel = 2 ∨ o.kernel = 3)
    (c : Config) (atime : ℝ) (ln : LineData.Line) (get_tau haveTemp : Bool) (parts : List Part) (hc : c.lines = o.sightlines) (hb : c.box = o.box)
    (hnb : c.nbins = o.nbins)
    (hL : c.L = LineAbsorption.mk' (profile := o.profile) (lambda := ln.lambda / 10 ^ 8) (gamma := if o.turn_off_selfshield then 0 else ln.gamma)
      (fosc := ln.fosc) (amumass := c.amumass) (velfac := o.velfac) (boxsize := o.box) (kernel := o.kernel) (tautail := o.tautail)) :
    particle_interpolate o.profile (interpArgs o (.int o.nbins) atime c.amumass ln get_tau haveTemp parts) =
      do_interpolation_work c get_tau haveTemp parts := by
  have h : (⟨if get_tau then 1 else 0, o.nbins, o.kernel, o.box, o.velfac, atime, ln.lambda / 10 ^ 8, if o.turn_off_selfshield then 0 else ln.gamma,
      ln.fosc, c.amumass, o.tautail, vectors (parts.map Part.pos), if get_tau then vectors (parts.map Part.vel) else numbers [0],
      numbers (parts.map Part.dens), if haveTemp then numbers (parts.map Part.temp) else numbers [0], numbers (parts.map Part.h),
      ofInts (axisArr o.sightlines), cofmArr o.sightlines⟩ : Interp).Passed
      (interpArgs o (.int o.nbins) atime c.amumass ln get_tau haveTemp parts) := by
    unfold interpArgs
    refine ⟨_, _, _, _, _, _, _, _, _, _, _, rfl, ⟨rfl, ?_⟩, ⟨rfl, ?_⟩, ⟨rfl, ?_⟩, .inl rfl, .inl rfl, .inl rfl, .inl ?_, ?_, .inl rfl, .inl rfl, .inl rfl⟩
    · dsimp only; split <;> omega
    · dsimp only; omega
    · rcases hk with h | h | h | h <;> simp only [h] <;> norm_num
    · congr 1; norm_num; ring
    · dsimp only
      split
      · exact .inr ⟨0, rfl, by rw [abs_zero]; positivity, by simp⟩
      · exact .inl rfl
  rw [interp_call _ h]
  unfold do_interpolation_work
  rw [hc, hb, hnb, hL]
  dsimp only
  rw [ints_back]
  cases get_tau <;> rfl

/-- A number of bins which is not an integer is accepted when the object is made (spectra.py:224-225) and refused at every query. -/
theorem float_nbins (o : SpeciesQuery.Obj) (x atime amumass : ℝ) (ln : LineData.Line) (get_tau haveTemp : Bool) (parts : List Part) :
    particle_interpolate o.profile (interpArgs o (.float x) atime amumass ln get_tau haveTemp parts) = .raised .attributeError := by
  apply interp_call_raises
  rintro v ⟨a0, a1, a2, a3, a4, a5, a6, a7, a8, a9, a10, h, -, h1, -⟩
  unfold interpArgs at h
  have : a1 = .float x := by
    have := congrArg (fun l => l[1]?) h
    simpa using this.symm
  rw [this] at h1
  cases h1.1

/-! `_near_lines`. -/

/-- The objects passed to `_near_lines` are a number and four arrays. -/
def NearPassed (args : List Arg) (box : ℝ) (pos hh axis cofm : Arr ℝ) : Prop :=
  ∃ a, args = [a, .array pos, .array hh, .array axis, .array cofm] ∧ IsNum a box

/-- C19: `_near_lines` with a number and four arrays. -/
theorem near_call {args : List Arg} {box : ℝ} {pos hh axis cofm : Arr ℝ} (h : NearPassed args box pos hh axis cofm) :
    near_lines_call args = py_near_lines (box := box) (pos := pos) (hh := hh) (axis := intsOf axis) (cofm := cofm) := by
  obtain ⟨a, rfl, h⟩ := h
  have hp : parseTuple [.d, .O, .O, .O, .O] [a, .array pos, .array hh, .array axis, .array cofm] =
      .ok [.dbl box, .arr pos, .arr hh, .arr axis, .arr cofm] := by
    rw [parse_iff]
    refine ⟨rfl, ?_⟩
    simp only [List.zip_cons_cons, List.zip_nil_right]
    exact .cons (convert_d h) (.cons rfl (.cons rfl (.cons rfl (.cons rfl .nil))))
  unfold near_lines_call
  rw [hp]
  rfl

/-- C19: anything else is a `TypeError`, or an `OverflowError` if the size of the box is an integer beyond floating-point numbers. -/
theorem near_call_raises {args : List Arg} (h : ∀ box pos hh axis cofm, ¬ NearPassed args box pos hh axis cofm) :
    near_lines_call args = .raised .typeError ∨ (near_lines_call args = .raised .overflowError ∧ ∃ n : ℤ, args.head? = some (.int n) ∧ 2 ^ 1024 ≤ |n|) := by
  have hcases : ∀ (a : Arg) (rest : List Arg), rest.length = 4 → (∃ box, IsNum a box) → (∀ x ∈ rest, ∃ b, x = Arg.array b) →
      ∃ box pos hh axis cofm, NearPassed (a :: rest) box pos hh axis cofm := by
    rintro a rest hl ⟨box, hb⟩ hr
    rcases rest with _ | ⟨b, _ | ⟨c, _ | ⟨d, _ | ⟨e, rest⟩⟩⟩⟩ <;> simp only [List.length_cons, List.length_nil] at hl <;> try omega
    have hn : rest = [] := List.length_eq_zero_iff.1 (by omega)
    subst hn
    obtain ⟨b, rfl⟩ := hr b (by simp)
    obtain ⟨c, rfl⟩ := hr c (by simp)
    obtain ⟨d, rfl⟩ := hr d (by simp)
    obtain ⟨e, rfl⟩ := hr e (by simp)
    exact ⟨box, b, c, d, e, a, rfl, hb⟩
  by_cases hl : args.length = 5
  swap
  · left
    unfold near_lines_call parseTuple
    rw [if_pos (by simpa using hl)]
  rcases args with _ | ⟨a, rest⟩
  · simp at hl
  have hl : rest.length = 4 := by simpa using hl
  have herr : ∀ (l : List Arg), (¬ ∀ x ∈ l, ∃ b, x = Arg.array b) →
      (((List.replicate l.length Fmt.O).zip l).mapM (fun p => convert p.1 p.2) : Py (List CVal)) = .error .typeError := by
    intro l
    induction l with
    | nil => intro h; exact absurd (by simp) h
    | cons x l ih =>
      intro h
      rw [List.length_cons, List.replicate_succ, List.zip_cons_cons, List.mapM_cons]
      cases x with
      | array b =>
        have : ¬ ∀ x ∈ l, ∃ b, x = Arg.array b := by
          intro h'
          apply h
          intro y hy
          rcases List.mem_cons.1 hy with rfl | hy
          · exact ⟨b, rfl⟩
          · exact h' y hy
        dsimp only
        rw [ih this]
        rfl
      | _ => rfl
  have hz : near_lines_call (a :: rest) = match (do
      let v ← convert .d a
      let vs ← ((List.replicate rest.length Fmt.O).zip rest).mapM (fun p => convert p.1 p.2)
      pure (v :: vs) : Py (List CVal)) with
    | .error e => .raised e
    | .ok vs => py_near_lines (dblAt vs 0) (arrAt vs 1) (arrAt vs 2) (intsOf (arrAt vs 3)) (arrAt vs 4) := by
    unfold near_lines_call parseTuple
    rw [if_neg (by simp [hl]), List.zip_cons_cons, List.mapM_cons, hl]
    rfl
  rw [hz]
  by_cases hr : ∀ x ∈ rest, ∃ b, x = Arg.array b
  · have hno : ¬ ∃ box, IsNum a box := fun hb => by
      obtain ⟨box, pos, hh, axis, cofm, hp⟩ := hcases a rest hl hb hr
      exact h box pos hh axis cofm hp
    cases a with
    | float x => exact absurd ⟨x, .inl rfl⟩ hno
    | int n =>
      right
      have hn : ¬ |n| < 2 ^ 1024 := fun hn => hno ⟨n, .inr ⟨n, rfl, hn, rfl⟩⟩
      have hn' : ¬ n.natAbs < 2 ^ 1024 := fun h' => hn (by
        have := (abs_natAbs n (2 ^ 1024)).2 h'
        rwa [Nat.cast_pow] at this)
      refine ⟨?_, n, rfl, not_lt.1 hn⟩
      rw [convert, if_neg hn']
      rfl
    | array b => exact .inl rfl
    | other => exact .inl rfl
  · cases hc : convert .d a with
    | error e =>
      cases a with
      | float x => cases hc
      | int n =>
        rw [convert] at hc
        split at hc
        · cases hc
        · rename_i hn
          cases hc
          right
          refine ⟨rfl, n, rfl, ?_⟩
          rw [← not_lt]
          intro hlt
          exact hn ((abs_natAbs n (2 ^ 1024)).1 (by rw [Nat.cast_pow]; exact hlt))
      | array b => cases hc; exact .inl rfl
      | other => cases hc; exact .inl rfl
    | ok v =>
      left
      rw [herr rest hr]
      rfl

/-- C19: the call made by `particles_near_lines`. -/
theorem near_call_from_python (c : Config) (hc : GoodAxes c) (hl : c.lines ≠ []) (seg : List Raw) :
    near_lines_call (nearArgs c.box seg c.lines) = particles_near_linesM c seg := by
  unfold nearArgs
  rw [near_call (box := c.box) (pos := vectors (seg.map Raw.pos)) (hh := numbers (seg.map Raw.h)) (axis := ofInts (axisArr c.lines))
    (cofm := cofmArr c.lines) ⟨_, rfl, .inl rfl⟩, ints_back]
  unfold particles_near_linesM
  rw [if_neg hl, if_pos]
  rw [Bool.and_eq_true, List.all_eq_true, List.all_eq_true]
  constructor <;>
  · intro l hl
    rw [decide_eq_true_eq]
    rcases hc l hl with h | h | h <;> rw [h] <;> norm_num

/-! `_rescale_mean_flux` and `_interpolate_2d`. -/

/-- The objects passed to `_rescale_mean_flux`. -/
def FluxPassed (args : List Arg) (tau : Arr ℝ) (desired : ℝ) (nbins : ℤ) (tol thresh : ℝ) : Prop :=
  ∃ a b c d, args = [.array tau, a, b, c, d] ∧ IsNum a desired ∧ IsLong b nbins ∧ IsNum c tol ∧ IsNum d thresh

/-- C19: `_rescale_mean_flux` with the objects asked for; anything else is an `AttributeError`. -/
theorem mean_flux_call_cases (iterate : ℝ → ℝ → ℝ → List ℝ → ℝ) (args : List Arg) :
    (∀ tau desired nbins tol thresh, FluxPassed args tau desired nbins tol thresh →
      mean_flux_call iterate args = py_mean_flux (iterate desired tol thresh) tau nbins) ∧
    ((∀ tau desired nbins tol thresh, ¬ FluxPassed args tau desired nbins tol thresh) → mean_flux_call iterate args = .raised .attributeError) := by
  constructor
  · rintro tau desired nbins tol thresh ⟨a, b, c, d, rfl, h1, h2, h3, h4⟩
    have hp : parseTuple [.O, .d, .L, .d, .d] [.array tau, a, b, c, d] = .ok [.arr tau, .dbl desired, .int nbins, .dbl tol, .dbl thresh] := by
      rw [parse_iff]
      refine ⟨rfl, ?_⟩
      simp only [List.zip_cons_cons, List.zip_nil_right]
      exact .cons rfl (.cons (convert_d h1) (.cons (convert_L h2) (.cons (convert_d h3) (.cons (convert_d h4) .nil))))
    unfold mean_flux_call
    rw [hp]
    rfl
  · intro h
    obtain ⟨e, he⟩ : ∃ e, parseTuple [.O, .d, .L, .d, .d] args = .error e := by
      apply parse_error
      intro vs hv
      rw [parse_iff] at hv
      obtain ⟨hl, hf⟩ := hv
      rcases args with _ | ⟨a0, _ | ⟨a1, _ | ⟨a2, _ | ⟨a3, _ | ⟨a4, args⟩⟩⟩⟩⟩ <;> simp only [List.length_cons, List.length_nil] at hl <;> try omega
      have hn : args = [] := List.length_eq_zero_iff.1 (by omega)
      subst hn
      simp only [List.zip_cons_cons, List.zip_nil_right] at hf
      rcases hf with _ | ⟨h0, _ | ⟨h1, _ | ⟨h2, _ | ⟨h3, _ | ⟨h4, -⟩⟩⟩⟩⟩
      obtain ⟨x0, rfl, -⟩ := convert_O_inv h0
      obtain ⟨x1, g1, -⟩ := convert_d_inv h1
      obtain ⟨x2, g2, -⟩ := convert_L_inv h2
      obtain ⟨x3, g3, -⟩ := convert_d_inv h3
      obtain ⟨x4, g4, -⟩ := convert_d_inv h4
      exact h x0 x1 x2 x3 x4 ⟨a1, a2, a3, a4, rfl, g1, g2, g3, g4⟩
    unfold mean_flux_call
    rw [he]

/-- C19: the call made by `mean_flux`: all pixels are used, with the mean flux, the tolerance and the threshold in their places. -/
theorem mean_flux_call_from_python (iterate : ℝ → ℝ → ℝ → List ℝ → ℝ) (dims : List ℕ) (tau : List ℝ) (htau : tau.length ≤ 9223372036854775807)
    (desired tol thresh : ℝ) : mean_flux_call iterate (meanFluxArgs dims tau desired tol thresh) = .value (iterate desired tol thresh tau) := by
  unfold meanFluxArgs
  rw [(mean_flux_call_cases iterate _).1 ⟨.float64, dims, tau⟩ desired tau.length tol thresh
    ⟨_, _, _, _, rfl, .inl rfl, ⟨rfl, by omega, by omega⟩, .inl rfl, .inl rfl⟩]
  exact mean_flux_from_python _ dims tau

/-- C19: `_interpolate_2d` takes five arrays; anything else is an `AttributeError`. -/
theorem interpolate_2d_call_cases (pairs : List ℝ → List ℝ) (eval : List ℝ → List ℝ → List ℝ → ℝ → ℝ → ℝ) (args : List Arg) :
    (∀ partA partB xvals yvals grid, args = [.array partA, .array partB, .array xvals, .array yvals, .array grid] →
      interpolate_2d_call pairs eval args = py_interpolate_2d pairs eval (partA := partA) (partB := partB) (xvals := xvals) (yvals := yvals) (grid := grid)) ∧
    ((∀ partA partB xvals yvals grid, args ≠ [.array partA, .array partB, .array xvals, .array yvals, .array grid]) →
      interpolate_2d_call pairs eval args = .raised .attributeError) := by
  constructor
  · rintro A B x y g rfl
    have hp : parseTuple [.O, .O, .O, .O, .O] [.array A, .array B, .array x, .array y, .array g] = .ok [.arr A, .arr B, .arr x, .arr y, .arr g] := by
      rw [parse_iff]
      refine ⟨rfl, ?_⟩
      simp only [List.zip_cons_cons, List.zip_nil_right]
      exact .cons rfl (.cons rfl (.cons rfl (.cons rfl (.cons rfl .nil))))
    unfold interpolate_2d_call
    rw [hp]
    rfl
  · intro h
    obtain ⟨e, he⟩ : ∃ e, parseTuple [.O, .O, .O, .O, .O] args = .error e := by
      apply parse_error
      intro vs hv
      rw [parse_iff] at hv
      obtain ⟨hl, hf⟩ := hv
      rcases args with _ | ⟨a0, _ | ⟨a1, _ | ⟨a2, _ | ⟨a3, _ | ⟨a4, args⟩⟩⟩⟩⟩ <;> simp only [List.length_cons, List.length_nil] at hl <;> try omega
      have hn : args = [] := List.length_eq_zero_iff.1 (by omega)
      subst hn
      simp only [List.zip_cons_cons, List.zip_nil_right] at hf
      rcases hf with _ | ⟨h0, _ | ⟨h1, _ | ⟨h2, _ | ⟨h3, _ | ⟨h4, -⟩⟩⟩⟩⟩
      obtain ⟨x0, rfl, -⟩ := convert_O_inv h0
      obtain ⟨x1, rfl, -⟩ := convert_O_inv h1
      obtain ⟨x2, rfl, -⟩ := convert_O_inv h2
      obtain ⟨x3, rfl, -⟩ := convert_O_inv h3
      obtain ⟨x4, rfl, -⟩ := convert_O_inv h4
      exact h x0 x1 x2 x3 x4 rfl
    unfold interpolate_2d_call
    rw [he]

/-- C19: the call made by the rate network: each particle is interpolated at its density and internal energy, in that order. -/
theorem interpolate_2d_call_from_python (pairs : List ℝ → List ℝ) (eval : List ℝ → List ℝ → List ℝ → ℝ → ℝ → ℝ)
    (ldensity lienergy densgrid ienergygrid zgrid : List ℝ) (hp : lienergy.length = ldensity.length)
    (hz : zgrid.length = densgrid.length * ienergygrid.length) :
    interpolate_2d_call pairs eval (gridArgs ldensity lienergy densgrid ienergygrid zgrid) =
      .value (List.zipWith (eval densgrid ienergygrid zgrid) ldensity lienergy) := by
  unfold gridArgs
  rw [(interpolate_2d_call_cases pairs eval _).1 _ _ _ _ _ rfl]
  refine interpolate_2d_safe_partial pairs eval _ _ _ _ _ rfl rfl rfl rfl rfl (n := ldensity.length) (x := densgrid.length) (y := ienergygrid.length)
    rfl ?_ rfl rfl rfl ?_ ?_ ?_ ?_ ?_
  · rw [← hp]; rfl
  all_goals simp [Full, numbers, hz]

/-! Worked cases. -/

/-- Three whole numbers where floating-point numbers are expected are accepted; a floating-point number of bins is not. -/
example : IsNum (.int 0) 0 ∧ IsNum (.float 3.5) 3.5 ∧ IsInt (.int 1000) 1000 ∧ ¬ ∃ n, IsInt (.float 1000) n := by
  refine ⟨.inr ⟨0, rfl, by rw [abs_zero]; positivity, by simp⟩, .inl rfl, ⟨rfl, by norm_num, by norm_num⟩, ?_⟩
  rintro ⟨n, h, -⟩
  cases h

/-- More bins than an `int` can hold are refused. -/
example (o : SpeciesQuery.Obj) (atime amumass : ℝ) (ln : LineData.Line) (parts : List Part) :
    particle_interpolate o.profile (interpArgs o (.int 2147483648) atime amumass ln true true parts) = .raised .attributeError := by
  apply interp_call_raises
  rintro v ⟨a0, a1, a2, a3, a4, a5, a6, a7, a8, a9, a10, h, -, h1, -⟩
  unfold interpArgs at h
  have : a1 = .int 2147483648 := by
    have := congrArg (fun l => l[1]?) h
    simpa using this.symm
  rw [this] at h1
  obtain ⟨h2, -, h3⟩ := h1
  have h2 : (2147483648 : ℤ) = v.nbins := Arg.int.inj h2
  omega

/-- A list for the size of the box. -/
example (p : Arr ℝ) : near_lines_call [.other, .array p, .array p, .array p, .array p] = .raised .typeError := by
  rcases near_call_raises (args := [.other, .array p, .array p, .array p, .array p]) (by
    rintro box pos hh axis cofm ⟨a, h, h2⟩
    cases h
    rcases h2 with h2 | ⟨n, h2, -⟩ <;> cases h2) with h | ⟨-, n, h, -⟩
  · exact h
  · cases h

/-- An object with one sightline along the third axis and ten bins. -/
noncomputable def exCaller : SpeciesQuery.Obj where
  table _ := none
  cloudy := ⟨1e3, 1e8, 1e-6, 1, fun _ _ => .ok (fun _ _ => 1 / 2)⟩
  profile := fun _ _ => 1
  turn_off_selfshield := false
  nbins := 10
  box := 25000
  velfac := 0.1
  kernel := 1
  tautail := 1e-7
  sightlines := [⟨3, fun _ => 5⟩]
  rscale := 1

/-- One particle; its optical depth in Lyman-alpha is asked for. -/
noncomputable def exPart : Part := ⟨fun _ => 5, fun _ => 100, 1, 10000, 20⟩

noncomputable def exLyman : LineData.Line := ⟨1215.67, 0.4164, 6.265e8⟩

noncomputable def exCall : Config where
  L := LineAbsorption.mk' exCaller.profile (exLyman.lambda / 10 ^ 8) exLyman.gamma exLyman.fosc 1 exCaller.velfac exCaller.box exCaller.kernel
    exCaller.tautail
  nbins := 10
  box := 25000
  lines := exCaller.sightlines
  rscale := 1
  amumass := 1
  sp := .HI

/-- The call gives what the interpolator computes. -/
example : particle_interpolate exCaller.profile (interpArgs exCaller (.int 10) 0.25 1 exLyman true true [exPart]) =
    crash (interpolate exCall true [exPart]) (fun res => .value ([1, 10], res)) := by
  have h := interp_call_from_python exCaller (by norm_num [exCaller]) (.inr (.inl rfl)) exCall 0.25 exLyman true true [exPart] rfl rfl rfl rfl
  have h2 := interp_from_python exCall (by intro l hl; simp [exCall, exCaller] at hl; subst hl; exact .inr (.inr rfl)) true true (fun h => h) [exPart]
  exact h.trans h2

/-- Two objects are too few, whatever they are. -/
example (profile : ℝ → ℝ → ℝ) (a b : Arg) : particle_interpolate profile [a, b] = .raised .attributeError := by
  apply interp_call_raises
  rintro v ⟨a0, a1, a2, a3, a4, a5, a6, a7, a8, a9, a10, h, -⟩
  cases h

/-- A call of the documented shapes, for column densities. -/
example : (∃ x, particle_interpolate exCaller.profile (interpArgs exCaller (.int 10) 0.25 1 exLyman false false [exPart]) = .value x) ∨
    ∃ e, particle_interpolate exCaller.profile (interpArgs exCaller (.int 10) 0.25 1 exLyman false false [exPart]) = .raised e := by
  apply interp_call_safe_partial
  rintro v ⟨a0, a1, a2, a3, a4, a5, a6, a7, a8, a9, a10, h, h0, h1, h2, -⟩
  simp only [interpArgs, List.cons.injEq, Arg.array.injEq, and_true, Bool.false_eq_true, if_false] at h
  obtain ⟨rfl, rfl, rfl, -, -, -, -, -, -, -, -, hp, hv, hd, ht, hh, ha, hc⟩ := h
  have e0 := Arg.int.inj h0.1
  have e1 := Arg.int.inj h1.1
  have e2 := Arg.int.inj h2.1
  rw [← e0, ← e1, ← e2, ← hp, ← hv, ← hd, ← ht, ← hh, ← ha, ← hc, ints_back]
  refine ⟨by norm_num, by simp [exCaller, VORONOI_MESH], ?_, 1, 1, 1, 1, 1, 3, ?_⟩
  · intro a ha
    simp [axisArr, exCaller] at ha
    subst ha
    exact .inr (.inr rfl)
  · refine ⟨⟨rfl, ?_⟩, ⟨rfl, ?_⟩, ⟨rfl, ?_⟩, ⟨rfl, ?_⟩, ⟨rfl, ?_⟩, fun h => by simp at h, fun h => by simp at h⟩ <;>
      simp [Full, vectors, numbers, axisArr, cofmArr, exCaller]

end Verif.Props.ParseArgs
