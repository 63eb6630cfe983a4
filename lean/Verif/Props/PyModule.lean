import Verif.Lemmas.PyModule
import Verif.Lemmas.ComputeSpectra
import Verif.Props.Additive

/-!
C19: the extension module and the memory of the arrays it is given.

An `Arr` is a type, a shape and as many elements as the shape says (`Full`). `.crashed` is an access outside an array (or of the
dimension an array does not have), `.raised` a Python exception.

* `interp_types`, `near_types`: the exceptions for wrong types, whatever the shapes.
* `interp_lengths`: the exceptions for wrong lengths.
* `interp_safe_partial`: with the shapes the documentation asks for the function computes spectra and reads nothing else.
* `interp_never_crashes_partial`: the three together.
* `interp_from_python`, `near_from_python`: `Spectra` only makes such calls.
* `interp_*_crashes`: calls that pass all the checks and read outside the arrays, so the property as stated is false.
-/

namespace Verif.Props.PyModule
open Verif Verif.ComputeSpectra Verif.PartInt Verif.IndexTable Verif.Absorption Verif.PyModule

/-- As many elements as the shape says. -/
def Full {α : Type} (a : Arr α) : Prop := a.data.length = a.dims.prod

/-- The types the interpolator accepts. -/
structure Types (pos vel dens temp h : Arr ℝ) (axis : Arr ℤ) (cofm : Arr ℝ) : Prop where
  pos : pos.dtype = .float32
  vel : vel.dtype = .float32
  dens : dens.dtype = .float32
  temp : temp.dtype = .float32
  h : h.dtype = .float32
  axis : axis.dtype = .int32
  cofm : cofm.dtype = .float64

theorem check_type_false {α : Type} {a : Arr α} {t : DType} (h : a.dtype = t) : check_type a t = false := by
  simp [check_type, h]

theorem check_type_true {α : Type} {a : Arr α} {t : DType} (h : a.dtype ≠ t) : check_type a t = true := by
  simp [check_type, h]

/-- Wrong types are a `TypeError`, before anything is read. -/
theorem interp_types (tau : Bool) (nbins : ℤ) (L : LineAbsorption) (box : ℝ) (pos vel dens temp h : Arr ℝ) (axis : Arr ℤ) (cofm : Arr ℝ)
    (ht : ¬ Types pos vel dens temp h axis cofm) :
    py_particle_interpolate tau nbins L box pos vel dens temp h axis cofm = .raised .typeError := by
  unfold py_particle_interpolate
  by_cases h1 : (check_type pos .float32 || check_type vel .float32 || check_type dens .float32 || check_type temp .float32 ||
      check_type h .float32) = true
  · rw [if_pos h1]
  rw [if_neg h1]
  by_cases h2 : check_type cofm .float64 = true
  · rw [if_pos h2]
  rw [if_neg h2]
  by_cases h3 : check_type axis .int32 = true
  · rw [if_pos h3]
  exfalso
  simp [check_type] at h1 h2 h3
  exact ht ⟨h1.1.1.1.1, h1.1.1.1.2, h1.1.1.2, h1.1.2, h1.2, h3, h2⟩

/-- The checks of the types are passed by the right types. -/
theorem types_pass {tau : Bool} {nbins : ℤ} {L : LineAbsorption} {box : ℝ} {pos vel dens temp h : Arr ℝ} {axis : Arr ℤ} {cofm : Arr ℝ}
    (ht : Types pos vel dens temp h axis cofm) {n nd nh na l m : ℕ} {r1 r2 r3 r4 r5 : List ℕ} (hp : pos.dims = n :: r1)
    (hd : dens.dims = nd :: r2) (hh : h.dims = nh :: r3) (ha : axis.dims = na :: r4) (hc : cofm.dims = l :: m :: r5) :
    py_particle_interpolate tau nbins L box pos vel dens temp h axis cofm =
      if n ≠ nd then .raised .valueError else if n ≠ nh then .raised .valueError else if l ≠ na then .raised .valueError
      else if 3 ≠ m then .raised .valueError else crash (do
        let t ← buildM axis.data cofm.data l 0 ([], [])
        if nbins < 0 then .error .outOfBounds
        else do
          let out := List.replicate (l * nbins.toNat) (0 : ℝ)
          let res ← (if tau then
              overLinesM (tauStepM L nbins.toNat pos.data vel.data dens.data temp.data h.data) L.kernel box axis.data cofm.data
                l t pos.data h.data n out
            else overLinesM (coldenStepM L nbins.toNat pos.data dens.data h.data) L.kernel box axis.data cofm.data
                l t pos.data h.data n out)
          .ok ([(l : ℤ), nbins], res)) .value := by
  unfold py_particle_interpolate
  rw [check_type_false ht.pos, check_type_false ht.vel, check_type_false ht.dens, check_type_false ht.temp, check_type_false ht.h,
    check_type_false ht.axis, check_type_false ht.cofm]
  simp only [Bool.or_self, Bool.false_eq_true, if_false]
  have e1 : dim cofm 0 = .ok l := by unfold dim; rw [hc]; rfl
  have e2 : dim pos 0 = .ok n := by unfold dim; rw [hp]; rfl
  have e3 : dim dens 0 = .ok nd := by unfold dim; rw [hd]; rfl
  have e4 : dim h 0 = .ok nh := by unfold dim; rw [hh]; rfl
  have e5 : dim axis 0 = .ok na := by unfold dim; rw [ha]; rfl
  have e6 : dim cofm 1 = .ok m := by unfold dim; rw [hc]; rfl
  rw [e1, e2, e3, e4, e5, e6]
  rfl

/-- Lengths that do not agree are a `ValueError`. -/
theorem interp_lengths (tau : Bool) (nbins : ℤ) (L : LineAbsorption) (box : ℝ) (pos vel dens temp h : Arr ℝ) (axis : Arr ℤ) (cofm : Arr ℝ)
    (ht : Types pos vel dens temp h axis cofm) {n nd nh na l m : ℕ} {r1 r2 r3 r4 r5 : List ℕ} (hp : pos.dims = n :: r1)
    (hd : dens.dims = nd :: r2) (hh : h.dims = nh :: r3) (ha : axis.dims = na :: r4) (hc : cofm.dims = l :: m :: r5)
    (hbad : n ≠ nd ∨ n ≠ nh ∨ l ≠ na ∨ m ≠ 3) :
    py_particle_interpolate tau nbins L box pos vel dens temp h axis cofm = .raised .valueError := by
  rw [types_pass ht hp hd hh ha hc]
  by_cases h1 : n ≠ nd
  · rw [if_pos h1]
  rw [if_neg h1]
  by_cases h2 : n ≠ nh
  · rw [if_pos h2]
  rw [if_neg h2]
  by_cases h3 : l ≠ na
  · rw [if_pos h3]
  rw [if_neg h3]
  have h4 : 3 ≠ m := by
    rcases hbad with h | h | h | h
    · exact absurd h h1
    · exact absurd h h2
    · exact absurd h h3
    · exact fun e => h e.symm
  rw [if_pos h4]

/-- The general form: what the arrays must hold for the result to be that of the interpolator without memory. -/
theorem interp_value {tau : Bool} {nbins : ℕ} (L : LineAbsorption) (box : ℝ) {pos vel dens temp h : Arr ℝ} {axis : Arr ℤ} {cofm : Arr ℝ}
    (ht : Types pos vel dens temp h axis cofm) {n l : ℕ} {r1 r2 r3 r4 r5 : List ℕ} (hp : pos.dims = n :: r1)
    (hd : dens.dims = n :: r2) (hh : h.dims = n :: r3) (ha : axis.dims = l :: r4) (hc : cofm.dims = l :: 3 :: r5)
    (rp : 3 * n ≤ pos.data.length) (rd : n ≤ dens.data.length) (rh : n ≤ h.data.length) (ra : l ≤ axis.data.length)
    (rc : 3 * l ≤ cofm.data.length) (rv : tau = true → 3 * n ≤ vel.data.length) (rt : tau = true → n ≤ temp.data.length)
    (hax : ∀ i < l, IsAxis (axis.data.getD i 0)) (Vel temp' : List ℝ) (eV : tau = true → Vel = vel.data) (eT : tau = true → temp' = temp.data) :
    py_particle_interpolate tau nbins L box pos vel dens temp h axis cofm =
      crash (if tau then PartInt.compute_tau L nbins box (flatLines axis.data cofm.data l) (flatParts pos.data Vel dens.data temp' h.data n)
          (List.replicate (l * nbins) 0)
        else compute_colden L nbins box (flatLines axis.data cofm.data l) (flatParts pos.data Vel dens.data temp' h.data n)
          (List.replicate (l * nbins) 0)) (fun res => .value ([(l : ℤ), (nbins : ℤ)], res)) := by
  rw [types_pass ht hp hd hh ha hc, if_neg (by simp), if_neg (by simp), if_neg (by simp), if_neg (by simp), buildM_eq ra rc box, ok_bind,
    if_neg (by omega)]
  dsimp only
  rw [Int.toNat_natCast]
  have hr : LineRoom axis.data cofm.data l := ⟨ra, rc⟩
  cases tau with
  | false =>
    simp only [Bool.false_eq_true, if_false]
    rw [coldenM_eq hr hax L nbins box Vel temp' rp rh rd]
    cases compute_colden L nbins box (flatLines axis.data cofm.data l) (flatParts pos.data Vel dens.data temp' h.data n)
      (List.replicate (l * nbins) 0) <;> rfl
  | true =>
    simp only [if_true]
    rw [tauM_eq hr hax L nbins box rp rh rd (rv rfl) (rt rfl), eV rfl, eT rfl]
    cases PartInt.compute_tau L nbins box (flatLines axis.data cofm.data l) (flatParts pos.data vel.data dens.data temp.data h.data n)
      (List.replicate (l * nbins) 0) <;> rfl

theorem flatLines_axes {axis : List ℤ} {cofm : List ℝ} {l : ℕ} (hax : ∀ i < l, IsAxis (axis.getD i 0)) :
    ∀ x ∈ flatLines axis cofm l, x.axis = 1 ∨ x.axis = 2 ∨ x.axis = 3 := by
  intro x hx
  obtain ⟨i, hi, rfl⟩ := List.mem_map.1 hx
  exact hax i (List.mem_range.1 hi)

theorem out_length {tau : Bool} (L : LineAbsorption) (hk : L.kernel ≠ VORONOI_MESH) {nbins : ℕ} (hn : 0 < nbins) (box : ℝ)
    (lines : List Line) (hax : ∀ l ∈ lines, l.axis = 1 ∨ l.axis = 2 ∨ l.axis = 3) (parts : List Part) :
    ∃ out, (if tau then PartInt.compute_tau L nbins box lines parts (List.replicate (lines.length * nbins) 0)
      else compute_colden L nbins box lines parts (List.replicate (lines.length * nbins) 0)) = .ok out ∧
      out.length = lines.length * nbins := by
  cases tau with
  | false =>
    refine ⟨_, by simpa using compute_colden_eq L hk hn box lines hax parts _ (by simp), ?_⟩
    simp
  | true =>
    refine ⟨_, by simpa using compute_tau_eq L hk hn box lines hax parts _ (by simp), ?_⟩
    simp

/-- The shapes the documentation asks for: `n` particles with three coordinates, `l` lines; velocities and temperatures only matter
for an optical depth. -/
structure Shapes (tau : Bool) (pos vel dens temp h : Arr ℝ) (axis : Arr ℤ) (cofm : Arr ℝ) (n nd nh na l m : ℕ) : Prop where
  pos : pos.dims = [n, 3] ∧ Full pos
  dens : dens.dims = [nd] ∧ Full dens
  h : h.dims = [nh] ∧ Full h
  axis : axis.dims = [na] ∧ Full axis
  cofm : cofm.dims = [l, m] ∧ Full cofm
  vel : tau = true → Full vel ∧ ∃ nv, n ≤ nv ∧ vel.dims = [nv, 3]
  temp : tau = true → Full temp ∧ ∃ nt, n ≤ nt ∧ temp.dims = [nt]

/-- Arrays of the right types and lengths: the result has a row per line, and is what the interpolator computes from the lines and
particles in the arrays. Missing from the property: arrays of other shapes, axes other than 1, 2, 3, no or negatively many bins. -/
theorem interp_safe_partial (tau : Bool) {nbins : ℕ} (hn : 0 < nbins) (L : LineAbsorption) (hk : L.kernel ≠ VORONOI_MESH) (box : ℝ)
    (pos vel dens temp h : Arr ℝ) (axis : Arr ℤ) (cofm : Arr ℝ) (ht : Types pos vel dens temp h axis cofm) {n l : ℕ}
    (hs : Shapes tau pos vel dens temp h axis cofm n n n l l 3) (hax : ∀ i < l, IsAxis (axis.data.getD i 0)) :
    ∃ out, py_particle_interpolate tau nbins L box pos vel dens temp h axis cofm = .value ([(l : ℤ), (nbins : ℤ)], out) ∧
      out.length = l * nbins ∧
      (if tau then PartInt.compute_tau L nbins box (flatLines axis.data cofm.data l)
          (flatParts pos.data vel.data dens.data temp.data h.data n) (List.replicate (l * nbins) 0)
        else compute_colden L nbins box (flatLines axis.data cofm.data l)
          (flatParts pos.data vel.data dens.data temp.data h.data n) (List.replicate (l * nbins) 0)) = .ok out := by
  obtain ⟨out, h1, h2⟩ := out_length (tau := tau) L hk hn box (flatLines axis.data cofm.data l) (flatLines_axes hax)
    (flatParts pos.data vel.data dens.data temp.data h.data n)
  rw [flatLines_length] at h1 h2
  refine ⟨out, ?_, h2, h1⟩
  have f1 := hs.pos.2; have f2 := hs.dens.2; have f3 := hs.h.2; have f4 := hs.axis.2; have f5 := hs.cofm.2
  unfold Full at f1 f2 f3 f4 f5
  rw [hs.pos.1] at f1; rw [hs.dens.1] at f2; rw [hs.h.1] at f3; rw [hs.axis.1] at f4; rw [hs.cofm.1] at f5
  simp only [List.prod_cons, List.prod_nil, mul_one] at f1 f2 f3 f4 f5
  rw [interp_value L box ht hs.pos.1 hs.dens.1 hs.h.1 hs.axis.1 hs.cofm.1 (by omega) (by omega) (by omega) (by omega) (by omega) ?_ ?_ hax
    vel.data temp.data (fun _ => rfl) (fun _ => rfl), h1]
  · rfl
  · intro e
    obtain ⟨f, nv, hv, g⟩ := hs.vel e
    unfold Full at f
    rw [g] at f
    simp only [List.prod_cons, List.prod_nil, mul_one] at f
    omega
  · intro e
    obtain ⟨f, nv, hv, g⟩ := hs.temp e
    unfold Full at f
    rw [g] at f
    simp only [List.prod_cons, List.prod_nil, mul_one] at f
    omega

/-- For all types and lengths, with the number of dimensions the documentation asks for: an exception or a result. -/
theorem interp_never_crashes_partial (tau : Bool) {nbins : ℕ} (hn : 0 < nbins) (L : LineAbsorption) (hk : L.kernel ≠ VORONOI_MESH) (box : ℝ)
    (pos vel dens temp h : Arr ℝ) (axis : Arr ℤ) (cofm : Arr ℝ) {n nd nh na l m : ℕ}
    (hs : Shapes tau pos vel dens temp h axis cofm n nd nh na l m) (hax : ∀ a ∈ axis.data, IsAxis a) :
    (∃ v, py_particle_interpolate tau nbins L box pos vel dens temp h axis cofm = .value v) ∨
    py_particle_interpolate tau nbins L box pos vel dens temp h axis cofm = .raised .typeError ∨
    py_particle_interpolate tau nbins L box pos vel dens temp h axis cofm = .raised .valueError := by
  by_cases ht : Types pos vel dens temp h axis cofm
  swap
  · exact Or.inr (Or.inl (interp_types tau nbins L box pos vel dens temp h axis cofm ht))
  by_cases hbad : n ≠ nd ∨ n ≠ nh ∨ l ≠ na ∨ m ≠ 3
  · exact Or.inr (Or.inr (interp_lengths tau nbins L box pos vel dens temp h axis cofm ht hs.pos.1 hs.dens.1 hs.h.1 hs.axis.1 hs.cofm.1 hbad))
  push Not at hbad
  obtain ⟨rfl, rfl, rfl, rfl⟩ := hbad
  refine Or.inl ?_
  obtain ⟨out, ho, _⟩ := interp_safe_partial tau hn L hk box pos vel dens temp h axis cofm ht hs (by
    intro i hi
    have f := hs.axis.2
    unfold Full at f
    rw [hs.axis.1] at f
    simp only [List.prod_cons, List.prod_nil, mul_one] at f
    rw [List.getD, List.getElem?_eq_getElem (by omega)]
    exact hax _ (List.getElem_mem _))
  exact ⟨_, ho⟩

/-! ### The calls made by `Spectra` -/

theorem flat_get {α : Type} (f : α → Vec3) (xs : List α) {i : ℕ} {x : α} (hx : xs[i]? = some x) (k : Fin 3) :
    flatVec (xs.flatMap (fun v => [f v 0, f v 1, f v 2])) i k = f x k := by
  unfold flatVec
  induction xs generalizing i with
  | nil => simp at hx
  | cons y ys ih =>
    cases i with
    | zero =>
      simp only [List.getElem?_cons_zero, Option.some.injEq] at hx
      subst hx
      fin_cases k <;> simp
    | succ i =>
      rw [List.getElem?_cons_succ] at hx
      rw [← ih hx, List.flatMap_cons, List.getD, List.getD, List.getElem?_append_right (by simp; omega)]
      congr 2
      simp only [List.length_cons, List.length_nil]
      omega

theorem flat_vec {α : Type} (f : α → Vec3) (xs : List α) {i : ℕ} {x : α} (hx : xs[i]? = some x) :
    flatVec (xs.flatMap (fun v => [f v 0, f v 1, f v 2])) i = f x := by
  funext k
  exact flat_get f xs hx k

theorem flat_length {α : Type} (f : α → Vec3) (xs : List α) : (xs.flatMap (fun v => [f v 0, f v 1, f v 2])).length = 3 * xs.length := by
  simp [List.length_flatMap, mul_comm]

theorem getD_map' {α β : Type} (f : α → β) (xs : List α) {i : ℕ} {x : α} (hx : xs[i]? = some x) (d : β) : (xs.map f).getD i d = f x := by
  simp [List.getD, hx]

theorem lines_back (lines : List Line) : flatLines (axisArr lines).data (cofmArr lines).data lines.length = lines := by
  apply List.ext_getElem?
  intro i
  by_cases hi : i < lines.length
  · have hx := List.getElem?_eq_getElem hi
    rw [flatLines_get hi, hx]
    unfold axisArr cofmArr
    dsimp only
    rw [getD_map' Line.axis lines hx, flat_vec Line.cofm lines hx]
  · rw [List.getElem?_eq_none (by rw [flatLines_length]; omega), List.getElem?_eq_none (by omega)]

theorem parts_back (parts : List Part) :
    flatParts (vectors (parts.map Part.pos)).data (vectors (parts.map Part.vel)).data (parts.map Part.dens) (parts.map Part.temp)
      (parts.map Part.h) parts.length = parts := by
  apply List.ext_getElem?
  intro i
  by_cases hi : i < parts.length
  · have hx := List.getElem?_eq_getElem hi
    rw [flatParts_get hi, hx]
    unfold vectors
    dsimp only
    rw [List.flatMap_map, List.flatMap_map, flat_vec Part.pos parts hx, flat_vec Part.vel parts hx, getD_map' _ parts hx,
      getD_map' _ parts hx, getD_map' _ parts hx]
  · rw [List.getElem?_eq_none (by rw [flatParts_length]; omega), List.getElem?_eq_none (by omega)]

theorem axes_ok {lines : List Line} (h : ∀ l ∈ lines, l.axis = 1 ∨ l.axis = 2 ∨ l.axis = 3) :
    ∀ i < lines.length, IsAxis ((axisArr lines).data.getD i 0) := by
  intro i hi
  unfold axisArr
  dsimp only
  rw [getD_map' Line.axis lines (List.getElem?_eq_getElem hi)]
  exact h _ (List.getElem_mem hi)

/-- `_do_interpolation_work` gives the extension arrays it can read: the result is that of the interpolator on the particles, with a row
per line, for column densities although velocities (and temperatures) are then only an array of one zero. -/
theorem interp_from_python (c : Config) (hc : GoodAxes c) (get_tau haveTemp : Bool) (ht : get_tau = true → haveTemp = true)
    (parts : List Part) :
    do_interpolation_work c get_tau haveTemp parts =
      crash (interpolate c get_tau parts) (fun res => .value ([(c.lines.length : ℤ), (c.nbins : ℤ)], res)) := by
  unfold do_interpolation_work
  have hP : 3 * parts.length ≤ (vectors (parts.map Part.pos)).data.length := by
    unfold vectors
    dsimp only
    rw [flat_length (fun v => v), List.length_map]
  have hC : 3 * c.lines.length ≤ (cofmArr c.lines).data.length := by
    unfold cofmArr
    dsimp only
    rw [flat_length Line.cofm]
  have hT : Types (vectors (parts.map Part.pos)) (if get_tau = true then vectors (parts.map Part.vel) else numbers [0])
      (numbers (parts.map Part.dens)) (if haveTemp = true then numbers (parts.map Part.temp) else numbers [0])
      (numbers (parts.map Part.h)) (axisArr c.lines) (cofmArr c.lines) :=
    ⟨rfl, (by split <;> rfl), rfl, (by split <;> rfl), rfl, rfl, rfl⟩
  rw [interp_value c.L c.box hT (n := parts.length) (l := c.lines.length) (r1 := [3]) (r2 := []) (r3 := []) (r4 := []) (r5 := [])
    (by simp [vectors]) (by simp [numbers]) (by simp [numbers]) (by simp [axisArr]) (by simp [cofmArr]) hP (by simp [numbers])
    (by simp [numbers]) (by simp [axisArr]) hC ?_ ?_ (axes_ok hc) (vectors (parts.map Part.vel)).data (parts.map Part.temp) ?_ ?_]
  · have hb : flatParts (vectors (parts.map Part.pos)).data (vectors (parts.map Part.vel)).data (numbers (parts.map Part.dens)).data
        (parts.map Part.temp) (numbers (parts.map Part.h)).data parts.length = parts := parts_back parts
    rw [lines_back, hb]
    rfl
  · intro e
    rw [if_pos e]
    unfold vectors
    dsimp only
    rw [flat_length (fun v => v), List.length_map]
  · intro e
    rw [if_pos (ht e)]
    simp [numbers]
  · intro e
    rw [if_pos e]
  · intro e
    rw [if_pos (ht e)]
    rfl

/-- In particular the calls made by `Spectra` never read outside an array (SPH and top hat kernels). -/
theorem interp_from_python_safe (c : Config) (hc : GoodConfig c) (get_tau haveTemp : Bool) (ht : get_tau = true → haveTemp = true)
    (parts : List Part) :
    ∃ out, do_interpolation_work c get_tau haveTemp parts = .value ([(c.lines.length : ℤ), (c.nbins : ℤ)], out) ∧
      out.length = c.lines.length * c.nbins ∧ interpolate c get_tau parts = .ok out := by
  rw [interp_from_python c hc.axes get_tau haveTemp ht]
  refine ⟨_, ?_, ?_, interpolate_eq hc get_tau parts⟩
  · rw [interpolate_eq hc get_tau parts]
    rfl
  · simp [zeros]

/-! ### `_near_lines` -/

/-- The exceptions of `_near_lines`: sightlines of the wrong shape or type, and particles of the wrong type. -/
theorem near_raises (box : ℝ) (pos hh : Arr ℝ) (axis : Arr ℤ) (cofm : Arr ℝ) {n : ℕ} {r : List ℕ} (hp : pos.dims = n :: r) :
    ((cofm.dims.length < 2 ∨ axis.dims = [] ∨ cofm.dims[0]? ≠ axis.dims[0]? ∨ cofm.dims[1]? ≠ some 3 ∨ cofm.dtype ≠ .float64 ∨
      axis.dtype ≠ .int32) → py_near_lines box pos hh axis cofm = .raised .valueError) ∧
    (¬ (cofm.dims.length < 2 ∨ axis.dims = [] ∨ cofm.dims[0]? ≠ axis.dims[0]? ∨ cofm.dims[1]? ≠ some 3 ∨ cofm.dtype ≠ .float64 ∨
      axis.dtype ≠ .int32) → (pos.dtype ≠ .float32 ∨ hh.dtype ≠ .float32) → py_near_lines box pos hh axis cofm = .raised .typeError) := by
  unfold py_near_lines
  by_cases h1 : 2 > cofm.dims.length ∨ 1 > axis.dims.length
  · rw [if_pos h1]
    refine ⟨fun _ => rfl, fun hg => ?_⟩
    exfalso
    apply hg
    rcases h1 with h | h
    · exact Or.inl h
    · exact Or.inr (Or.inl (List.eq_nil_of_length_eq_zero (by omega)))
  rw [if_neg h1]
  push Not at h1
  obtain ⟨l, m, r5, hc⟩ : ∃ l m r, cofm.dims = l :: m :: r := by
    match hd : cofm.dims with
    | [] => rw [hd] at h1; simp at h1
    | [a] => rw [hd] at h1; simp at h1
    | a :: b :: r => exact ⟨a, b, r, rfl⟩
  obtain ⟨na, r4, ha⟩ : ∃ l r, axis.dims = l :: r := by
    match hd : axis.dims with
    | [] => rw [hd] at h1; simp at h1
    | a :: r => exact ⟨a, r, rfl⟩
  have e1 : dim cofm 0 = .ok l := by unfold dim; rw [hc]; rfl
  have e2 : dim pos 0 = .ok n := by unfold dim; rw [hp]; rfl
  have e5 : dim axis 0 = .ok na := by unfold dim; rw [ha]; rfl
  have e6 : dim cofm 1 = .ok m := by unfold dim; rw [hc]; rfl
  rw [e1, e2, e5, e6]
  unfold crash
  dsimp only
  rw [hc, ha]
  simp only [List.length_cons, List.getElem?_cons_zero, List.getElem?_cons_succ, ne_eq, Option.some.injEq, reduceCtorEq, false_or]
  by_cases h3 : l = na
  swap
  · rw [if_pos h3]
    exact ⟨fun _ => rfl, fun hg => absurd (Or.inr (Or.inl h3)) hg⟩
  rw [if_neg (not_not.2 h3)]
  by_cases h4 : m = 3
  swap
  · rw [if_pos (fun e => h4 e.symm)]
    exact ⟨fun _ => rfl, fun hg => absurd (Or.inr (Or.inr (Or.inl h4))) hg⟩
  rw [if_neg (not_not.2 h4.symm)]
  by_cases h5 : cofm.dtype = .float64 ∧ axis.dtype = .int32
  swap
  · rw [if_pos (by
      rw [Bool.or_eq_true]
      by_contra hcon
      push Not at hcon
      apply h5
      simpa [check_type] using hcon)]
    exact ⟨fun _ => rfl, fun hg => absurd (Or.inr (Or.inr (Or.inr (by tauto)))) hg⟩
  rw [check_type_false h5.1, check_type_false h5.2]
  simp only [Bool.or_self, Bool.false_eq_true, if_false]
  refine ⟨fun hg => ?_, fun _ hg => ?_⟩
  · exfalso
    rcases hg with h | h | h | h | h
    · omega
    · exact h h3
    · exact h h4
    · exact h h5.1
    · exact h h5.2
  · rw [if_pos]
    rw [Bool.or_eq_true]
    rcases hg with h | h
    · exact Or.inl (check_type_true h)
    · exact Or.inr (check_type_true h)

theorem near_value (box : ℝ) {pos hh : Arr ℝ} {axis : Arr ℤ} {cofm : Arr ℝ} (h1 : pos.dtype = .float32) (h2 : hh.dtype = .float32)
    (h3 : axis.dtype = .int32) (h4 : cofm.dtype = .float64) {n l : ℕ} {r1 r4 r5 : List ℕ} (hp : pos.dims = n :: r1)
    (ha : axis.dims = l :: r4) (hc : cofm.dims = l :: 3 :: r5)
    (rp : 3 * n ≤ pos.data.length) (rh : n ≤ hh.data.length) (ra : l ≤ axis.data.length) (rc : 3 * l ≤ cofm.data.length) :
    py_near_lines box pos hh axis cofm = .value (near_lines box ((List.range n).map (fun i => (flatVec pos.data i, hh.data.getD i 0)))
      (flatLines axis.data cofm.data l)) := by
  unfold py_near_lines
  have e1 : dim cofm 0 = .ok l := by unfold dim; rw [hc]; rfl
  have e2 : dim pos 0 = .ok n := by unfold dim; rw [hp]; rfl
  have e5 : dim axis 0 = .ok l := by unfold dim; rw [ha]; rfl
  have e6 : dim cofm 1 = .ok 3 := by unfold dim; rw [hc]; rfl
  rw [if_neg (by rw [hc, ha]; simp), e1, e2, e5, e6, check_type_false h1, check_type_false h2, check_type_false h3, check_type_false h4]
  unfold crash
  simp only [ne_eq, not_true_eq_false, if_false, Bool.or_self, Bool.false_eq_true]
  rw [buildM_eq ra rc box, ok_bind, nearM_eq ⟨ra, rc⟩ box rp rh]

/-- `_near_lines` on arrays of the right types, positions of shape `(n, 3)` and at least `n` smoothing lengths: the indices of the
particles near a line. Missing from the property: arrays of other shapes. -/
theorem near_safe_partial (box : ℝ) (pos hh : Arr ℝ) (axis : Arr ℤ) (cofm : Arr ℝ) (h1 : pos.dtype = .float32) (h2 : hh.dtype = .float32)
    (h3 : axis.dtype = .int32) (h4 : cofm.dtype = .float64) {n nh l : ℕ} (hp : pos.dims = [n, 3]) (hd : hh.dims = [nh]) (hnh : n ≤ nh)
    (ha : axis.dims = [l]) (hc : cofm.dims = [l, 3]) (f1 : Full pos) (f2 : Full hh) (f3 : Full axis) (f4 : Full cofm) :
    py_near_lines box pos hh axis cofm = .value (near_lines box ((List.range n).map (fun i => (flatVec pos.data i, hh.data.getD i 0)))
      (flatLines axis.data cofm.data l)) := by
  unfold Full at f1 f2 f3 f4
  rw [hp] at f1; rw [hd] at f2; rw [ha] at f3; rw [hc] at f4
  simp only [List.prod_cons, List.prod_nil, mul_one] at f1 f2 f3 f4
  exact near_value box h1 h2 h3 h4 hp ha hc (by omega) (by omega) (by omega) (by omega)

/-- `particles_near_lines` gives it such arrays. -/
theorem near_from_python (c : Config) (hc : GoodAxes c) (hl : c.lines ≠ []) (seg : List Raw) :
    particles_near_linesM c seg = .value (near_lines c.box (seg.map (fun r => (r.pos, r.h))) c.lines) := by
  unfold particles_near_linesM
  rw [if_neg hl, if_pos]
  swap
  · rw [Bool.and_eq_true, List.all_eq_true, List.all_eq_true]
    constructor <;>
    · intro l hl
      rw [decide_eq_true_eq]
      rcases hc l hl with h | h | h <;> rw [h] <;> norm_num
  have hP : 3 * seg.length ≤ (vectors (seg.map Raw.pos)).data.length := by
    unfold vectors
    dsimp only
    rw [flat_length (fun v => v), List.length_map]
  have hC : 3 * c.lines.length ≤ (cofmArr c.lines).data.length := by
    unfold cofmArr
    dsimp only
    rw [flat_length Line.cofm]
  rw [near_value c.box rfl rfl rfl rfl (n := seg.length) (l := c.lines.length) (r1 := [3]) (r4 := []) (r5 := [])
    (by simp [vectors]) (by simp [axisArr]) (by simp [cofmArr]) hP (by simp [numbers]) (by simp [axisArr]) hC, lines_back]
  congr 2
  apply List.ext_getElem?
  intro i
  by_cases hi : i < seg.length
  · have hx := List.getElem?_eq_getElem hi
    rw [List.getElem?_map, List.getElem?_map, List.getElem?_range hi, hx]
    unfold vectors numbers
    simp only [Option.map_some]
    rw [List.flatMap_map, flat_vec Raw.pos seg hx, getD_map' _ seg hx]
  · rw [List.getElem?_eq_none (by simp; omega), List.getElem?_eq_none (by simp; omega)]

/-! ### `_rescale_mean_flux` and `_interpolate_2d` -/

theorem read_all {a : List ℝ} {n : ℕ} (h : n ≤ a.length) :
    (List.range n).mapM (fun (i : ℕ) => readAt a (i : ℤ)) = .ok (a.take n) := by
  rw [mapM_ok' (g := fun i => a.getD i 0) (fun i hi => readAt_getD (by have := List.mem_range.1 hi; omega) 0)]
  congr 1
  apply List.ext_getElem?
  intro i
  rw [List.getElem?_map]
  by_cases hi : i < n
  · rw [List.getElem?_range hi, List.getElem?_take_of_lt hi, List.getElem?_eq_getElem (by omega)]
    simp [List.getD, List.getElem?_eq_getElem (show i < a.length by omega)]
  · rw [List.getElem?_eq_none (by simp; omega), List.getElem?_eq_none (by simp; omega)]
    rfl

theorem read_beyond {a : List ℝ} {n : ℕ} (h : a.length < n) :
    (List.range n).mapM (fun (i : ℕ) => readAt a (i : ℤ)) = .error .outOfBounds := by
  obtain ⟨k, rfl⟩ := Nat.exists_eq_add_of_lt h
  have : List.range (a.length + k + 1) = List.range a.length ++ (a.length :: (List.range k).map (fun i => a.length + 1 + i)) := by
    apply List.ext_getElem?
    intro i
    by_cases hi : i < a.length
    · rw [List.getElem?_append_left (by simpa using hi), List.getElem?_range hi, List.getElem?_range (by omega)]
    · rw [List.getElem?_append_right (by simp; omega), List.length_range]
      by_cases hj : i = a.length
      · subst hj
        simp
      · obtain ⟨j, rfl⟩ : ∃ j, i = a.length + (j + 1) := ⟨i - a.length - 1, by omega⟩
        rw [show a.length + (j + 1) - a.length = j + 1 by omega, List.getElem?_cons_succ, List.getElem?_map]
        by_cases hjk : j < k
        · rw [List.getElem?_range hjk, List.getElem?_range (by omega)]
          simp only [Option.map_some]
          congr 1
          omega
        · rw [List.getElem?_eq_none (by simp; omega), List.getElem?_eq_none (by simp; omega)]
          rfl
  rw [this, List.mapM_append, read_all (le_refl _), List.mapM_cons, readAt_none (List.getElem?_eq_none (le_refl _))]
  rfl

/-- `_rescale_mean_flux`: a `TypeError` for other types; with at most as many pixels as there are elements the result is that of
the iteration on them. -/
theorem mean_flux_safe (iterate : List ℝ → ℝ) (tau : Arr ℝ) (nbins : ℤ) :
    (tau.dtype ≠ .float64 → py_mean_flux iterate tau nbins = .raised .typeError) ∧
    (tau.dtype = .float64 → nbins ≤ tau.data.length → py_mean_flux iterate tau nbins = .value (iterate (tau.data.take nbins.toNat))) ∧
    (tau.dtype = .float64 → (tau.data.length : ℤ) < nbins → py_mean_flux iterate tau nbins = .crashed .outOfBounds) := by
  unfold py_mean_flux
  refine ⟨fun h => ?_, fun h hn => ?_, fun h hn => ?_⟩
  · rw [check_type_true h, if_pos rfl]
  · rw [check_type_false h, if_neg (by simp), read_all (by omega)]
    rfl
  · rw [check_type_false h, if_neg (by simp), read_beyond (by omega)]
    rfl

/-- `mean_flux` (fluxstatistics.py:26-39) gives `np.size(tau)` pixels: all of them are used. -/
theorem mean_flux_from_python (iterate : List ℝ → ℝ) (dims : List ℕ) (tau : List ℝ) :
    py_mean_flux iterate ⟨.float64, dims, tau⟩ (tau.length : ℤ) = .value (iterate tau) := by
  rw [(mean_flux_safe iterate _ _).2.1 rfl (le_refl _)]
  simp

/-- `_interpolate_2d` with a grid of doubles of the shape of the two axes, and as many second as first coordinates. -/
theorem interpolate_2d_safe_partial (pairs : List ℝ → List ℝ) (eval : List ℝ → List ℝ → List ℝ → ℝ → ℝ → ℝ)
    (partA partB xvals yvals grid : Arr ℝ) (hA : partA.dtype = .float32) (hB : partB.dtype = .float32) (hx : xvals.dtype = .float64)
    (hy : yvals.dtype = .float64) (hg : grid.dtype = .float64) {n x y : ℕ} (dA : partA.dims = [n]) (dB : partB.dims = [n])
    (dx : xvals.dims = [x]) (dy : yvals.dims = [y]) (dg : grid.dims = [x, y]) (fA : Full partA) (fB : Full partB) (fx : Full xvals)
    (fy : Full yvals) (fg : Full grid) :
    py_interpolate_2d pairs eval partA partB xvals yvals grid =
      .value (List.zipWith (eval xvals.data yvals.data grid.data) partA.data partB.data) := by
  unfold Full at fA fB fx fy fg
  rw [dA] at fA; rw [dB] at fB; rw [dx] at fx; rw [dy] at fy; rw [dg] at fg
  simp only [List.prod_cons, List.prod_nil, mul_one] at fA fB fx fy fg
  unfold py_interpolate_2d
  have e1 : dim xvals 0 = .ok x := by unfold dim; rw [dx]; rfl
  have e2 : dim yvals 0 = .ok y := by unfold dim; rw [dy]; rfl
  have e3 : dim partA 0 = .ok n := by unfold dim; rw [dA]; rfl
  have gx : asDoubles pairs xvals = xvals.data := by simp [asDoubles, hx]
  have gy : asDoubles pairs yvals = yvals.data := by simp [asDoubles, hy]
  have gg : asDoubles pairs grid = grid.data := by simp [asDoubles, hg]
  rw [check_type_false hA, check_type_false hB, if_neg (by simp), e1, e2, e3, gx, gy, gg]
  unfold crash
  dsimp only
  rw [read_all (by omega), ok_bind, read_all (by omega), ok_bind, read_all (by omega), ok_bind,
    mapM_ok' (g := fun i => eval (xvals.data.take x) (yvals.data.take y) (grid.data.take (x * y)) (partA.data.getD i 0) (partB.data.getD i 0))
      (fun i hi => by
        have hi := List.mem_range.1 hi
        rw [readAt_getD (by omega) 0, ok_bind, readAt_getD (by omega) 0, ok_bind])]
  dsimp only
  congr 1
  rw [List.take_of_length_le (by omega), List.take_of_length_le (by omega), List.take_of_length_le (by omega)]
  apply List.ext_getElem?
  intro i
  rw [List.getElem?_map]
  by_cases hi : i < n
  · rw [List.getElem?_range hi, List.getElem?_zipWith, List.getElem?_eq_getElem (show i < partA.data.length by omega),
      List.getElem?_eq_getElem (show i < partB.data.length by omega)]
    simp [List.getD, List.getElem?_eq_getElem (show i < partA.data.length by omega),
      List.getElem?_eq_getElem (show i < partB.data.length by omega)]
  · rw [List.getElem?_eq_none (by simp; omega), List.getElem?_eq_none (by simp; omega)]
    rfl

/-! ### Calls that read outside the arrays -/

/-- Any line. -/
noncomputable def exL : LineAbsorption := (exConfig .HI).L

/-- One line along `a` through the middle of a box of side 10. -/
noncomputable def exLine (a : ℤ) : Line := ⟨a, fun _ => 5⟩

/-- Positions without dimensions, although they are not an array of particles at all, are not an exception. -/
theorem interp_0d_crashes (tau : Bool) (nbins : ℤ) (x : ℝ) (L : LineAbsorption) (lines : List Line) :
    py_particle_interpolate tau nbins L 10 ⟨.float32, [], [x]⟩ (numbers [0]) (numbers [x]) (numbers [0]) (numbers [x]) (axisArr lines)
      (cofmArr lines) = .crashed .outOfBounds := by
  have e : dim (⟨.float32, [], [x]⟩ : Arr ℝ) 0 = .error .outOfBounds := rfl
  have e1 : dim (cofmArr lines) 0 = .ok lines.length := rfl
  unfold py_particle_interpolate
  rw [e, e1]
  rfl

theorem interp_1d_cofm_crashes (tau : Bool) (nbins : ℤ) (L : LineAbsorption) (parts : List Part) (x : ℝ) :
    py_particle_interpolate tau nbins L 10 (vectors (parts.map Part.pos)) (numbers [0]) (numbers (parts.map Part.dens)) (numbers [0])
      (numbers (parts.map Part.h)) ⟨.int32, [1], [1]⟩ ⟨.float64, [1], [x]⟩ = .crashed .outOfBounds := by
  have e1 : dim (⟨.float64, [1], [x]⟩ : Arr ℝ) 0 = .ok 1 := rfl
  have e6 : dim (⟨.float64, [1], [x]⟩ : Arr ℝ) 1 = .error .outOfBounds := rfl
  have e2 : dim (vectors (parts.map Part.pos)) 0 = .ok parts.length := by simp [dim, vectors, readAt]
  have e3 : dim (numbers (parts.map Part.dens)) 0 = .ok parts.length := by simp [dim, numbers, readAt]
  have e4 : dim (numbers (parts.map Part.h)) 0 = .ok parts.length := by simp [dim, numbers, readAt]
  unfold py_particle_interpolate
  rw [e1, e2, e3, e4, e6]
  simp [check_type, vectors, numbers, crash, dim, readAt]

/-- Negatively many bins: the failed allocation is used before it is looked at. -/
theorem interp_negative_crashes (c : Config) (get_tau : Bool) (nbins : ℤ) (hn : nbins < 0) (parts : List Part) :
    py_particle_interpolate get_tau nbins c.L c.box (vectors (parts.map Part.pos)) (vectors (parts.map Part.vel))
      (numbers (parts.map Part.dens)) (numbers (parts.map Part.temp)) (numbers (parts.map Part.h)) (axisArr c.lines) (cofmArr c.lines) =
      .crashed .outOfBounds := by
  have hC : 3 * c.lines.length ≤ (cofmArr c.lines).data.length := by
    unfold cofmArr
    dsimp only
    rw [flat_length Line.cofm]
  rw [types_pass ⟨rfl, rfl, rfl, rfl, rfl, rfl, rfl⟩ (n := parts.length) (nd := parts.length) (nh := parts.length) (na := c.lines.length)
    (l := c.lines.length) (m := 3) (r1 := [3]) (r2 := []) (r3 := []) (r4 := []) (r5 := []) (by simp [vectors]) (by simp [numbers])
    (by simp [numbers]) rfl rfl, if_neg (by simp), if_neg (by simp), if_neg (by simp), if_neg (by simp),
    buildM_eq (by simp [axisArr]) hC c.box, ok_bind, if_pos hn]
  rfl

theorem ex_bounds : MultiMap.lowerBound [((5 : ℝ), 0)] (5 - 1) = 0 ∧ MultiMap.lowerBound [((5 : ℝ), 0)] (5 + 1) = 1 := by
  constructor <;> norm_num [MultiMap.lowerBound]

/-- The particle in the middle is near the line. -/
theorem ex_near (a : ℤ) (pos : ℤ → CRes ℝ) (h0 : pos 0 = .ok 5) (h1 : pos 1 = .ok 5) (h2 : pos 2 = .ok 5) :
    get_near_linesM 10 [a] [5, 5, 5] ([(5, 0)], []) pos 1 = .ok [(0, 0)] := by
  have hstep : rangeStepM 10 [a] [5, 5, 5] pos 1 5 [] (5, 0) = .ok [(0, 0)] := by
    unfold rangeStepM
    have e1 : readAt [a] ((0 : ℕ) : ℤ) = .ok a := rfl
    have e2 : readAt [(5 : ℝ), 5, 5] (3 * ((0 : ℕ) : ℤ) + 1) = .ok 5 := rfl
    have e3 : readAt [(5 : ℝ), 5, 5] (3 * ((0 : ℕ) : ℤ) + 2) = .ok 5 := rfl
    dsimp only
    rw [e1, ok_bind]
    by_cases ha : a = 3
    · simp only [ha, if_true]
      rw [h1, ok_bind, e2, ok_bind]
      norm_num [second_close, calc_dr2, StdMap.assign]
    · simp only [ha, if_false]
      rw [h2, ok_bind, e3, ok_bind]
      norm_num [second_close, calc_dr2, StdMap.assign]
  unfold get_near_linesM get_nearbyM
  dsimp only
  rw [if_pos (by simp), h0, ok_bind, if_neg (by norm_num : ¬ ((5 : ℝ) + 1 > 10)), if_neg (by norm_num : ¬ ((5 : ℝ) - 1 < 0)), ex_bounds.1, ex_bounds.2,
    if_pos (by norm_num : (5 : ℝ) - 1 ≤ 5 + 1)]
  have hr : MultiMap.range [((5 : ℝ), 0)] 0 1 = [(5, 0)] := rfl
  rw [hr]
  unfold get_nearby_from_rangeM
  rw [List.foldlM_cons, hstep]
  rfl

/-- The checks are passed by one particle and one line. -/
theorem ex_pass {tau : Bool} {nbins : ℕ} {L : LineAbsorption} {vel temp : List ℝ} (a : ℤ) (ha : a ≠ 1)
    (bad : (if tau then tauStepM L nbins [5, 5, 5] vel [1] temp [1] 0 a (List.replicate (1 * nbins) 0) ((0, 0), (0, 0))
      else coldenStepM L nbins [5, 5, 5] [1] [1] 0 a (List.replicate (1 * nbins) 0) ((0, 0), (0, 0))) = .error .outOfBounds)
    (hk : L.kernel ≠ VORONOI_MESH) (r1 r2 : List ℕ) :
    py_particle_interpolate tau nbins L 10 ⟨.float32, [1, 3], [5, 5, 5]⟩ ⟨.float32, r1, vel⟩ (numbers [1]) ⟨.float32, r2, temp⟩ (numbers [1])
      (axisArr [exLine a]) (cofmArr [exLine a]) = .crashed .outOfBounds := by
  rw [types_pass ⟨rfl, rfl, rfl, rfl, rfl, rfl, rfl⟩ (n := 1) (nd := 1) (nh := 1) (na := 1) (l := 1) (m := 3) (r1 := [3]) (r2 := [])
    (r3 := []) (r4 := []) (r5 := []) rfl rfl rfl rfl rfl, if_neg (by simp), if_neg (by simp), if_neg (by simp), if_neg (by simp)]
  have e0 : (axisArr [exLine a]).data = [a] := rfl
  have e1 : (cofmArr [exLine a]).data = [5, 5, 5] := rfl
  rw [e0, e1]
  have hb : buildM [a] [5, 5, 5] 1 0 ([], []) = .ok ([(5, 0)], []) := by
    rw [buildM, show readAt [a] ((0 : ℕ) : ℤ) = .ok a from rfl, ok_bind, if_neg ha]
    rfl
  have hnear : get_near_particlesM 10 [a] [5, 5, 5] 1 ([(5, 0)], []) [5, 5, 5] (numbers [1]).data 1 = .ok [[(0, 0)]] := by
    unfold get_near_particlesM
    rw [show List.range 1 = [0] from rfl, List.foldlM_cons, show readAt (numbers [1]).data ((0 : ℕ) : ℤ) = .ok 1 from rfl, ok_bind,
      ex_near a _ rfl rfl rfl]
    rfl
  rw [hb, ok_bind, if_neg (by omega), Int.toNat_natCast]
  unfold overLinesM
  rw [hnear]
  have hl : lineEntriesM L.kernel 10 [a] [5, 5, 5] [5, 5, 5] 0 [(0, 0)] = .ok [((0, 0), (0, 0))] := by
    unfold lineEntriesM
    rw [if_neg hk]
    rfl
  cases tau with
  | false =>
    simp only [Bool.false_eq_true, if_false] at bad ⊢
    rw [ok_bind, show List.range [[((0 : ℕ), (0 : ℝ))]].length = [0] from rfl, List.foldlM_cons]
    rw [show readAt [[((0 : ℕ), (0 : ℝ))]] ((0 : ℕ) : ℤ) = .ok [(0, 0)] from rfl, ok_bind, hl, ok_bind,
      show readAt [a] ((0 : ℕ) : ℤ) = .ok a from rfl, ok_bind, List.foldlM_cons]
    have : coldenStepM L nbins [5, 5, 5] (numbers [1]).data (numbers [1]).data 0 a (List.replicate (1 * nbins) 0) ((0, 0), (0, 0)) =
      .error .outOfBounds := bad
    rw [this]
    rfl
  | true =>
    simp only [if_true] at bad ⊢
    rw [ok_bind, show List.range [[((0 : ℕ), (0 : ℝ))]].length = [0] from rfl, List.foldlM_cons]
    rw [show readAt [[((0 : ℕ), (0 : ℝ))]] ((0 : ℕ) : ℤ) = .ok [(0, 0)] from rfl, ok_bind, hl, ok_bind,
      show readAt [a] ((0 : ℕ) : ℤ) = .ok a from rfl, ok_bind, List.foldlM_cons]
    have : tauStepM L nbins [5, 5, 5] vel (numbers [1]).data temp (numbers [1]).data 0 a (List.replicate (1 * nbins) 0) ((0, 0), (0, 0)) =
      .error .outOfBounds := bad
    rw [this]
    rfl

/-- The lengths of the velocities are not checked: an optical depth with the velocities that are given for a column density. -/
theorem interp_velocities_crashes (nbins : ℕ) (L : LineAbsorption) (hk : L.kernel ≠ VORONOI_MESH) :
    py_particle_interpolate true nbins L 10 ⟨.float32, [1, 3], [5, 5, 5]⟩ (numbers [0]) (numbers [1]) (numbers [10000]) (numbers [1])
      (axisArr [exLine 2]) (cofmArr [exLine 2]) = .crashed .outOfBounds := by
  refine ex_pass (tau := true) (vel := [0]) (temp := [10000]) 2 (by norm_num) ?_ hk [1] [1]
  rfl

/-- Nor are those of the temperatures. -/
theorem interp_temperatures_crashes (nbins : ℕ) (L : LineAbsorption) (hk : L.kernel ≠ VORONOI_MESH) :
    py_particle_interpolate true nbins L 10 ⟨.float32, [1, 3], [5, 5, 5]⟩ ⟨.float32, [1, 3], [0, 0, 0]⟩ (numbers [1]) (numbers [])
      (numbers [1]) (axisArr [exLine 2]) (cofmArr [exLine 2]) = .crashed .outOfBounds := by
  refine ex_pass (tau := true) (vel := [0, 0, 0]) (temp := []) 2 (by norm_num) ?_ hk [1, 3] [0]
  rfl

/-- Nor are the values of the axes. -/
theorem interp_axis_crashes (nbins : ℕ) (L : LineAbsorption) (hk : L.kernel ≠ VORONOI_MESH) (a : ℤ) (ha : a ≤ 0 ∨ 4 ≤ a) :
    py_particle_interpolate false nbins L 10 ⟨.float32, [1, 3], [5, 5, 5]⟩ (numbers [0]) (numbers [1]) (numbers [0]) (numbers [1])
      (axisArr [exLine a]) (cofmArr [exLine a]) = .crashed .outOfBounds := by
  refine ex_pass (tau := false) (vel := [0]) (temp := [0]) a (by omega) ?_ hk [1] [1]
  simp only [Bool.false_eq_true, if_false]
  unfold coldenStepM posAt
  have : readAt [(5 : ℝ), 5, 5] (3 * ((0 : ℕ) : ℤ) + (a - 1)) = .error .outOfBounds := by
    unfold readAt
    rcases ha with h | h
    · rw [if_neg (by omega)]
    · rw [if_pos (by omega), List.getElem?_eq_none (by simp; omega)]
  rw [this]
  rfl

/-- Nor is the second dimension of the positions: particles with two coordinates. -/
theorem interp_positions_crashes (tau : Bool) (nbins : ℕ) (L : LineAbsorption) (vel temp : Arr ℝ) (hv : vel.dtype = .float32)
    (ht : temp.dtype = .float32) :
    py_particle_interpolate tau nbins L 10 ⟨.float32, [1, 2], [5, 5]⟩ vel (numbers [1]) temp (numbers [1])
      (axisArr [exLine 1]) (cofmArr [exLine 1]) = .crashed .outOfBounds := by
  rw [types_pass ⟨rfl, hv, rfl, ht, rfl, rfl, rfl⟩ (n := 1) (nd := 1) (nh := 1) (na := 1) (l := 1) (m := 3) (r1 := [2]) (r2 := [])
    (r3 := []) (r4 := []) (r5 := []) rfl rfl rfl rfl rfl, if_neg (by simp), if_neg (by simp), if_neg (by simp), if_neg (by simp)]
  have e0 : (axisArr [exLine 1]).data = [1] := rfl
  have e1 : (cofmArr [exLine 1]).data = [5, 5, 5] := rfl
  rw [e0, e1]
  have hb : buildM [1] [5, 5, 5] 1 0 ([], []) = .ok ([], [(5, 0)]) := by
    rw [buildM, show readAt [(1 : ℤ)] ((0 : ℕ) : ℤ) = .ok 1 from rfl, ok_bind, if_pos rfl]
    rfl
  have hnear : get_near_linesM 10 [1] [5, 5, 5] ([], [(5, 0)]) (posAt [5, 5] 0) 1 = .error .outOfBounds := by
    unfold get_near_linesM get_nearbyM
    dsimp only
    rw [if_neg (by simp), ok_bind, if_pos (by simp), show posAt [(5 : ℝ), 5] 0 1 = .ok 5 from rfl, ok_bind,
      if_neg (by norm_num : ¬ ((5 : ℝ) + 1 > 10)), if_neg (by norm_num : ¬ ((5 : ℝ) - 1 < 0)), ex_bounds.1, ex_bounds.2,
      if_pos (by norm_num : (5 : ℝ) - 1 ≤ 5 + 1)]
    rfl
  have hall : get_near_particlesM 10 [1] [5, 5, 5] 1 ([], [(5, 0)]) [5, 5] (numbers [1]).data 1 = .error .outOfBounds := by
    unfold get_near_particlesM
    rw [show List.range 1 = [0] from rfl, List.foldlM_cons, show readAt (numbers [1]).data ((0 : ℕ) : ℤ) = .ok 1 from rfl, ok_bind, hnear]
    rfl
  rw [hb, ok_bind, if_neg (by omega), Int.toNat_natCast]
  unfold overLinesM
  rw [hall]
  cases tau <;> rfl

/-- `_near_lines` does not check that there are as many smoothing lengths as particles. -/
theorem near_lengths_crashes (c : Config) (r : Raw) (seg : List Raw) :
    py_near_lines c.box (vectors ((r :: seg).map Raw.pos)) (numbers []) (axisArr c.lines) (cofmArr c.lines) = .crashed .outOfBounds := by
  have hC : 3 * c.lines.length ≤ (cofmArr c.lines).data.length := by
    unfold cofmArr
    dsimp only
    rw [flat_length Line.cofm]
  unfold py_near_lines
  have e1 : dim (cofmArr c.lines) 0 = .ok c.lines.length := rfl
  have e2 : dim (vectors ((r :: seg).map Raw.pos)) 0 = .ok (seg.length + 1) := by simp [dim, vectors, readAt]
  have e5 : dim (axisArr c.lines) 0 = .ok c.lines.length := rfl
  have e6 : dim (cofmArr c.lines) 1 = .ok 3 := rfl
  rw [if_neg (by simp [cofmArr, axisArr]), e1, e2, e5, e6]
  unfold crash
  dsimp only
  rw [if_neg (by simp), if_neg (by simp), if_neg (by simp [check_type, cofmArr, axisArr]), if_neg (by simp [check_type, vectors, numbers]),
    buildM_eq (by simp [axisArr]) hC c.box, ok_bind, List.range_succ_eq_map, List.foldlM_cons]
  rfl

/-- `_interpolate_2d` does not check the type of the grid: half of a grid of floats is missing. -/
theorem interpolate_2d_grid_crashes (pairs : List ℝ → List ℝ) (eval : List ℝ → List ℝ → List ℝ → ℝ → ℝ → ℝ) (a b : List ℝ)
    (xs ys zs : List ℝ) (hz : zs.length = xs.length * ys.length) (hne : zs ≠ []) :
    py_interpolate_2d pairs eval (numbers a) (numbers b) ⟨.float64, [xs.length], xs⟩ ⟨.float64, [ys.length], ys⟩
      ⟨.float32, [xs.length, ys.length], zs⟩ = .crashed .outOfBounds := by
  have h0 : 0 < zs.length := List.length_pos_iff.2 hne
  unfold py_interpolate_2d
  rw [if_neg (by simp [check_type, numbers])]
  have e1 : dim (⟨.float64, [xs.length], xs⟩ : Arr ℝ) 0 = .ok xs.length := rfl
  have e2 : dim (⟨.float64, [ys.length], ys⟩ : Arr ℝ) 0 = .ok ys.length := rfl
  have e3 : dim (numbers a) 0 = .ok a.length := rfl
  rw [e1, e2, e3]
  unfold crash
  dsimp only [asDoubles]
  rw [read_all (le_refl _), ok_bind, read_all (le_refl _), ok_bind, read_beyond (by
    rw [List.length_take]
    omega)]
  rfl

/-- Nor that there are as many second as first coordinates. -/
theorem interpolate_2d_lengths_crashes (pairs : List ℝ → List ℝ) (eval : List ℝ → List ℝ → List ℝ → ℝ → ℝ → ℝ) (x : ℝ) (a : List ℝ)
    (xs ys zs : List ℝ) (hz : zs.length = xs.length * ys.length) :
    py_interpolate_2d pairs eval (numbers (x :: a)) (numbers []) ⟨.float64, [xs.length], xs⟩ ⟨.float64, [ys.length], ys⟩
      ⟨.float64, [xs.length, ys.length], zs⟩ = .crashed .outOfBounds := by
  unfold py_interpolate_2d
  rw [if_neg (by simp [check_type, numbers])]
  have e1 : dim (⟨.float64, [xs.length], xs⟩ : Arr ℝ) 0 = .ok xs.length := rfl
  have e2 : dim (⟨.float64, [ys.length], ys⟩ : Arr ℝ) 0 = .ok ys.length := rfl
  have e3 : dim (numbers (x :: a)) 0 = .ok (a.length + 1) := rfl
  rw [e1, e2, e3]
  unfold crash
  dsimp only [asDoubles]
  rw [read_all (le_refl _), ok_bind, read_all (le_refl _), ok_bind, read_all (by omega), ok_bind, List.range_succ_eq_map, List.mapM_cons]
  rfl

/-! ### The hypotheses are met -/

/-- Two particles and two lines. -/
noncomputable def exParts : List Part := [⟨fun _ => 5, fun _ => 0, 1, 10000, 1⟩, ⟨fun _ => 2, fun _ => 1, 2, 20000, 1⟩]

example : Types (vectors (exParts.map Part.pos)) (vectors (exParts.map Part.vel)) (numbers (exParts.map Part.dens))
    (numbers (exParts.map Part.temp)) (numbers (exParts.map Part.h)) (axisArr [exLine 1, exLine 3]) (cofmArr [exLine 1, exLine 3]) ∧
    Shapes true (vectors (exParts.map Part.pos)) (vectors (exParts.map Part.vel)) (numbers (exParts.map Part.dens))
    (numbers (exParts.map Part.temp)) (numbers (exParts.map Part.h)) (axisArr [exLine 1, exLine 3]) (cofmArr [exLine 1, exLine 3])
    2 2 2 2 2 3 ∧ (∀ a ∈ (axisArr [exLine 1, exLine 3]).data, IsAxis a) ∧ exL.kernel ≠ VORONOI_MESH := by
  refine ⟨⟨rfl, rfl, rfl, rfl, rfl, rfl, rfl⟩, ⟨⟨rfl, rfl⟩, ⟨rfl, rfl⟩, ⟨rfl, rfl⟩, ⟨rfl, rfl⟩, ⟨rfl, rfl⟩,
    fun _ => ⟨rfl, 2, le_refl _, rfl⟩, fun _ => ⟨rfl, 2, le_refl _, rfl⟩⟩, ?_, (exConfig_good .HI).kernel⟩
  intro a ha
  simp [axisArr, exLine] at ha
  rcases ha with rfl | rfl
  · exact Or.inl rfl
  · exact Or.inr (Or.inr rfl)

/-- Densities for only one of the two particles. -/
example : py_particle_interpolate false 4 exL 10 (vectors (exParts.map Part.pos)) (numbers [0]) (numbers [1]) (numbers [0])
    (numbers (exParts.map Part.h)) (axisArr [exLine 1]) (cofmArr [exLine 1]) = .raised .valueError :=
  interp_lengths false 4 exL 10 _ _ _ _ _ _ _ ⟨rfl, rfl, rfl, rfl, rfl, rfl, rfl⟩ (r1 := [3]) (r2 := []) (r3 := []) (r4 := []) (r5 := []) rfl rfl rfl rfl rfl
    (Or.inl (by decide : (2 : ℕ) ≠ 1))

example : GoodConfig (exConfig .HI) ∧ (exConfig .HI).lines ≠ [] := ⟨exConfig_good .HI, by simp [exConfig]⟩

/-! The theorems at work on the two particles and two lines of the example. -/

theorem exL_kernel : exL.kernel ≠ VORONOI_MESH := (exConfig_good .HI).kernel

theorem exTypes : Types (vectors (exParts.map Part.pos)) (vectors (exParts.map Part.vel)) (numbers (exParts.map Part.dens))
    (numbers (exParts.map Part.temp)) (numbers (exParts.map Part.h)) (axisArr [exLine 1, exLine 3]) (cofmArr [exLine 1, exLine 3]) :=
  ⟨rfl, rfl, rfl, rfl, rfl, rfl, rfl⟩

theorem exShapes : Shapes true (vectors (exParts.map Part.pos)) (vectors (exParts.map Part.vel)) (numbers (exParts.map Part.dens))
    (numbers (exParts.map Part.temp)) (numbers (exParts.map Part.h)) (axisArr [exLine 1, exLine 3]) (cofmArr [exLine 1, exLine 3]) 2 2 2 2 2 3 :=
  ⟨⟨rfl, rfl⟩, ⟨rfl, rfl⟩, ⟨rfl, rfl⟩, ⟨rfl, rfl⟩, ⟨rfl, rfl⟩, fun _ => ⟨rfl, 2, le_refl _, rfl⟩, fun _ => ⟨rfl, 2, le_refl _, rfl⟩⟩

theorem exAxes : ∀ a ∈ (axisArr [exLine 1, exLine 3]).data, IsAxis a := by
  intro a ha
  simp [axisArr, exLine] at ha
  rcases ha with rfl | rfl
  · exact Or.inl rfl
  · exact Or.inr (Or.inr rfl)

/-- Positions in double precision. -/
example := interp_types true 4 exL 10 ⟨.float64, [1, 3], [5, 5, 5]⟩ (numbers [0]) (numbers [1]) (numbers [0]) (numbers [1]) (axisArr [exLine 1])
  (cofmArr [exLine 1]) (by rintro ⟨h, -⟩; cases h)

example := interp_safe_partial true (nbins := 4) (by norm_num) exL exL_kernel 10 _ _ _ _ _ _ _ exTypes exShapes (by
  intro i hi
  refine exAxes _ ?_
  rcases i with - | - | i
  · simp [axisArr]
  · simp [axisArr]
  · omega)

example := interp_never_crashes_partial true (nbins := 4) (by norm_num) exL exL_kernel 10 _ _ _ _ _ _ _ exShapes exAxes

example := interp_from_python_safe (exConfig .HI) (exConfig_good .HI) true true (fun _ => rfl) exParts

example := near_safe_partial 10 (vectors (exParts.map Part.pos)) (numbers (exParts.map Part.h)) (axisArr [exLine 1, exLine 3]) (cofmArr [exLine 1, exLine 3])
  rfl rfl rfl rfl (n := 2) (nh := 2) (l := 2) rfl rfl (le_refl _) rfl rfl rfl rfl rfl rfl

/-- Centres in single precision. -/
example : py_near_lines 10 (vectors (exParts.map Part.pos)) (numbers (exParts.map Part.h)) (axisArr [exLine 1]) ⟨.float32, [1, 3], [5, 5, 5]⟩ =
    .raised .valueError :=
  (near_raises 10 (vectors (exParts.map Part.pos)) (numbers (exParts.map Part.h)) (axisArr [exLine 1]) ⟨.float32, [1, 3], [5, 5, 5]⟩ (n := 2) (r := [3])
    rfl).1 (by simp)

example := interp_negative_crashes (exConfig .HI) true (-3) (by norm_num) exParts

example := interp_velocities_crashes 4 exL exL_kernel

example := interp_temperatures_crashes 4 exL exL_kernel

example := interp_axis_crashes 4 exL exL_kernel 0 (by norm_num)

example := interp_positions_crashes true 4 exL (numbers [0]) (numbers [1]) rfl rfl

example (pairs : List ℝ → List ℝ) (eval : List ℝ → List ℝ → List ℝ → ℝ → ℝ → ℝ) :=
  interpolate_2d_safe_partial pairs eval (numbers [1, 2]) (numbers [3, 4]) ⟨.float64, [2], [0, 1]⟩ ⟨.float64, [3], [0, 1, 2]⟩
    ⟨.float64, [2, 3], [1, 2, 3, 4, 5, 6]⟩ rfl rfl rfl rfl rfl (n := 2) (x := 2) (y := 3) rfl rfl rfl rfl rfl rfl rfl rfl rfl rfl

example (pairs : List ℝ → List ℝ) (eval : List ℝ → List ℝ → List ℝ → ℝ → ℝ → ℝ) :=
  interpolate_2d_grid_crashes pairs eval [1, 2] [3, 4] [0, 1] [0, 1, 2] [1, 2, 3, 4, 5, 6] rfl (by simp)

end Verif.Props.PyModule
