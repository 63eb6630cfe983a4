import Verif.Model.Gridded
import Verif.Props.Construct
import Verif.Props.Catalogue

/-!
C91: the sightlines of gridded spectra. C92: the line tables of objects.
-/

namespace Verif.Props
open Verif Verif.Construct Verif.Gridded Verif.Catalogue Verif.Props.Construct

/-- Point `(a, b)` of the grid of spacing `dx` on the face of the box across the axis. -/
def facePoint (dx : ℝ) (axis a b : ℕ) : ℝ × ℝ × ℝ :=
  if axis = 1 then (0, dx * a, dx * b) else if axis = 2 then (dx * a, 0, dx * b) else (dx * a, dx * b, 0)

theorem trunc_nat (k : ℕ) : trunc (k : ℝ) = k := by
  unfold trunc
  rw [if_pos (by positivity)]
  simp

/-- C91: a grid made from a snapshot has `nspec²` sightlines along the axis asked for, or along all three for a negative one: exactly
the points of the grid on the faces of the box, each once. -/
theorem gridded_spec {g : GridArgs} {s : Snap} (saved : Py Saved) (hr : g.base.reload = true) (hg : g.grid_cofm = .none) (hb : 0 < s.box)
    (hn : 0 < g.nspec) (ha : g.axis < 0 ∨ g.axis = 1 ∨ g.axis = 2 ∨ g.axis = 3)
    (hk : (∃ k, g.base.kernel = .none ∧ s.kernel = .ok k) ∨ ∃ n k, g.base.kernel = .name n ∧ (n, k) ∈ kernelNames)
    (hp : (∃ n, g.base.nbins = some n ∧ g.base.res = none) ∨ ∃ r, g.base.nbins = none ∧ g.base.res = some r ∧ r ≠ 0) :
    ∃ o, gridded g (some s) saved = .ok o ∧ o.numLos = (if g.axis < 0 then 3 * g.nspec ^ 2 else g.nspec ^ 2) ∧
      o.axis.length = o.numLos ∧ o.cofm.length = o.numLos ∧ (o.axis.zip o.cofm).Nodup ∧
      ∀ ax p, (ax, p) ∈ o.axis.zip o.cofm ↔ ∃ k a b : ℕ, ax = k ∧ (k = 1 ∨ k = 2 ∨ k = 3) ∧ (0 ≤ g.axis → ax = g.axis) ∧
        a < g.nspec ∧ b < g.nspec ∧ p = facePoint (s.box / g.nspec) k a b := by
  obtain ⟨r, h1, h2, h3, h4, h5⟩ := grid_spec hb hn g.axis ha
  set a : Args := { g.base with cofm := .table (r.2.map (fun p => (p.x, p.y, p.z))), axis := .array (r.1.map trunc) } with hadef
  obtain ⟨k, hk'⟩ := (kernel_cases a s).mpr hk
  obtain ⟨n, hn'⟩ : ∃ n, pixels (boxVelocity a s) a.nbins a.res = .ok n := by
    rw [pixels_cases]
    rcases hp with ⟨n, e1, e2⟩ | ⟨x, e1, e2, e3⟩
    · exact ⟨n, by rw [show a.nbins = some n from e1, show a.res = none from e2]⟩
    · exact ⟨_, by rw [show a.nbins = none from e1, show a.res = some x from e2]; dsimp only; rw [if_neg e3]⟩
  obtain ⟨o, ho, -, hcofm, haxis, hnum, -⟩ := fromSnapshot_eq a s (some k) (r.2.map (fun p => (p.x, p.y, p.z))) (r.1.map trunc) rfl rfl n hn'
  have hinit : gridded g (some s) saved = .ok o := by
    unfold gridded
    rw [if_neg (by rw [hr]; simp)]
    dsimp only
    rw [hg]
    dsimp only
    rw [h1]
    change construct a (some s) saved = _
    unfold construct
    rw [show a.reload = true from hr]
    dsimp only
    rw [hk']
    exact ho
  have hzip : o.axis.zip o.cofm = (sightlines r).map (fun q => (trunc q.1, (q.2.x, q.2.y, q.2.z))) := by
    rw [hcofm, haxis, sightlines, List.zip_map]
    rfl
  have hface : ∀ dx k a b, ((gridPos dx k a b).x, (gridPos dx k a b).y, (gridPos dx k a b).z) = facePoint dx k a b := by
    intro dx k a b
    unfold gridPos facePoint
    split_ifs <;> rfl
  refine ⟨o, hinit, ?_, ?_, ?_, ?_, ?_⟩
  · rw [hnum, List.length_map, h3]
  · rw [hnum, haxis]
  · rw [hnum, hcofm, List.length_map, List.length_map, h2]
  · rw [hzip]
    refine h4.map_on ?_
    rintro ⟨x, p⟩ hx ⟨y, q⟩ hy he
    obtain ⟨kx, _, _, rfl, -⟩ := (h5 x p).1 hx
    obtain ⟨ky, _, _, rfl, -⟩ := (h5 y q).1 hy
    simp only [trunc_nat, Prod.mk.injEq, Nat.cast_inj] at he
    obtain ⟨rfl, e1, e2, e3⟩ := he
    cases p; cases q
    simp_all
  · intro ax p
    rw [hzip, List.mem_map]
    constructor
    · rintro ⟨⟨x, q⟩, hm, he⟩
      obtain ⟨k', a', b', rfl, c1, c2, c3, c4, rfl⟩ := (h5 x q).1 hm
      simp only [trunc_nat, Prod.mk.injEq] at he
      obtain ⟨rfl, e⟩ := he
      refine ⟨k', a', b', rfl, c1, c2, c3, c4, ?_⟩
      rw [← hface, ← e]
    · rintro ⟨k', a', b', rfl, c1, c2, c3, c4, rfl⟩
      refine ⟨(k', gridPos (s.box / g.nspec) k' a' b'), (h5 _ _).2 ⟨k', a', b', rfl, c1, c2, c3, c4, rfl⟩, ?_⟩
      simp only [trunc_nat, hface]

example : ∃ (g : GridArgs) (s : Snap), g.base.reload = true ∧ 0 < s.box ∧ 0 < g.nspec ∧ (g.axis < 0 ∨ g.axis = 1 ∨ g.axis = 2 ∨ g.axis = 3) ∧
    (∃ k, g.base.kernel = .none ∧ s.kernel = .ok k) ∧ ∃ n, g.base.nbins = some n ∧ g.base.res = none :=
  ⟨⟨{ reload := true, nbins := some 1024, res := none }, 10, -1, .none, .none⟩, ⟨.ok 1, 25000, 0.25, 0.7, 0.3, 0.7, none⟩, rfl, by norm_num,
    by norm_num, by simp, ⟨1, rfl, rfl⟩, 1024, rfl, rfl⟩

/-- The documentation says that `reload_file`, true by default, is to "try to load the spectra file if it exists". It never is: what
the savefile holds makes no difference. -/
theorem gridded_never_loads (g : GridArgs) (s : Option Snap) (saved saved' : Py Saved) (hr : g.base.reload = true) :
    gridded g s saved = gridded g s saved' := by
  have hc : ∀ (a : Args) (s : Option Snap), a.reload = true → construct a s saved = construct a s saved' := by
    intro a s h
    unfold construct
    rw [h]
    rfl
  unfold gridded
  rw [if_neg (by rw [hr]; simp), if_neg (by rw [hr]; simp)]
  cases s with
  | none => rfl
  | some s =>
    dsimp only
    cases g.grid_cofm with
    | none =>
      dsimp only
      cases get_axes_and_cofm s.box g.nspec g.axis with
      | error e => rfl
      | ok r =>
        exact hc { g.base with cofm := .table (r.2.map (fun p => (p.x, p.y, p.z))), axis := .array (r.1.map trunc) } (some s) hr
    | single p => exact hc { g.base with cofm := .single p, axis := g.grid_axes } _ hr
    | table p => exact hc { g.base with cofm := .table p, axis := g.grid_axes } _ hr
    | list p => exact hc { g.base with cofm := .list p, axis := g.grid_axes } _ hr

theorem fromSavefile_lines {a : Args} {saved : Py Saved} {k : Option ℤ} {o : Obj} (h : fromSavefile a saved k = .ok o) :
    ∃ f, saved = .ok f ∧ o.cofm = f.cofm ∧ o.axis = f.axis ∧ o.numLos = f.axis.length := by
  unfold fromSavefile at h
  cases saved with
  | error e => exact absurd h (by simp [bind, Except.bind])
  | ok f =>
    refine ⟨f, rfl, ?_⟩
    simp only [bind, Except.bind, pure, Except.pure] at h
    all_goals repeat' split at h
    all_goals cases h <;> exact ⟨rfl, rfl, rfl⟩

/-- C91: with `reload_file=False` the sightlines are those of the savefile, whatever grid is asked for. -/
theorem gridded_from_savefile {g : GridArgs} {s : Option Snap} {saved : Py Saved} {o : Obj} (hr : g.base.reload = false)
    (h : gridded g s saved = .ok o) : ∃ f, saved = .ok f ∧ o.cofm = f.cofm ∧ o.axis = f.axis ∧ o.numLos = f.axis.length := by
  unfold gridded at h
  rw [if_pos hr] at h
  set a : Args := { g.base with cofm := .none, axis := .none } with ha
  unfold construct at h
  rw [show a.reload = false from hr] at h
  cases s with
  | none => exact fromSavefile_lines h
  | some s =>
    cases hk : (kernelOf a.kernel s).map some with
    | error e => dsimp only at h; rw [hk] at h; exact absurd h (by simp [bind, Except.bind])
    | ok k => dsimp only at h; rw [hk] at h; exact fromSavefile_lines h

/-- C91: positions without axes raise, for every snapshot with a kernel. -/
theorem gridded_no_axes {g : GridArgs} {s : Snap} (saved : Py Saved) (hr : g.base.reload = true) {rows : List (ℝ × ℝ × ℝ)}
    (hc : g.grid_cofm = .table rows) (hx : g.grid_axes = .none) {k : ℤ} (hk : kernelOf g.base.kernel s = .ok k) :
    gridded g (some s) saved = .error .typeError := by
  unfold gridded
  rw [if_neg (by rw [hr]; simp)]
  dsimp only
  rw [hc]
  dsimp only
  unfold construct fromSnapshot
  simp only [hr, hk, hx, Except.map, bind, Except.bind, if_true, cofmOf, axisOf]

/-- C92, partial: every object made without a file of its own has the lines of the file that comes with the code, whatever objects were
made before; if that file cannot be read each of them fails. Missing: objects with a file of their own, which cannot be made
(`own_lines_fail`). -/
theorem line_table_partial (float : List Char → Option ℝ) (files : String → Py (List (List Char))) (bundled : String)
    (before : List (Option String)) :
    (lineData float files bundled none (lineDatas float files bundled before none)).1 =
      (match files bundled with
        | .ok rows => LineData.read_vpfit float LineData.species rows
        | .error e => .error e) := by
  have hread : (match files bundled with
        | .ok rows => LineData.read_vpfit float LineData.species rows
        | .error e => .error e) = readTable float files bundled := by
    unfold readTable
    cases files bundled <;> rfl
  rw [hread]
  have key : ∀ (l : List (Option String)) (c : Cache), (∀ t, c = some t → readTable float files bundled = .ok t) →
      ∀ t, lineDatas float files bundled l c = some t → readTable float files bundled = .ok t := by
    intro l
    induction l with
    | nil => intro c hc t h; exact hc t h
    | cons v l ih =>
      intro c hc t h
      refine ih _ ?_ t h
      intro u hu
      unfold lineData at hu
      cases v with
      | some _ => exact hc u hu
      | none =>
        cases c with
        | some x => exact hc u hu
        | none =>
          simp only [Option.isNone_none, if_true, localVar, bind, Except.bind] at hu
          cases hr : readTable float files bundled with
          | error e => rw [hr] at hu; simp at hu
          | ok x => rw [hr] at hu; exact congrArg _ (Option.some.inj hu)
  have hk := key before none (by simp)
  unfold lineData
  simp only [Option.isNone_none, if_true, localVar, bind, Except.bind]
  cases hc : lineDatas float files bundled before none with
  | some t => exact (hk t hc).symm
  | none =>
    dsimp only
    cases readTable float files bundled <;> rfl

/-- A table of lines given by the user is never read: the constructor raises for every file, even one that reads well, such as the
table that comes with the code. -/
theorem own_lines_fail (float : List Char → Option ℝ) (files : String → Py (List (List Char))) (bundled file : String) (c : Cache) :
    (lineData float files bundled (some file) c).1 = .error .unboundLocalError ∧ (lineData float files bundled (some file) c).2 = c :=
  ⟨rfl, rfl⟩

/-- The number of protons and neutrons of the commonest isotope of an element. -/
def nucleons : List Char → Option ℕ
  | ['H'] => some 1
  | ['H', 'e'] => some 4
  | ['C'] => some 12
  | ['N'] => some 14
  | ['O'] => some 16
  | ['N', 'e'] => some 20
  | ['M', 'g'] => some 24
  | ['S', 'i'] => some 28
  | ['F', 'e'] => some 56
  | _ => none

/-- C92: there is a mass for every species that is read, and no other; in atomic mass units it is within a third of the number of
nucleons of the commonest isotope of that element. -/
theorem mass_of_species (sp : List Char) : (∀ m, get_mass sp = .ok m → ∃ A, nucleons sp = some A ∧ |m - A| < 1 / 3) ∧
    ((∃ m, get_mass sp = .ok m) ↔ sp ∈ LineData.species) ∧ (sp ∉ LineData.species → get_mass sp = .error .keyError) := by
  have hnot : sp ∉ LineData.species → get_mass sp = .error .keyError := by
    intro hc
    simp only [LineData.species, List.mem_cons, List.not_mem_nil, or_false, not_or] at hc
    obtain ⟨c1, c2, c3, c4, c5, c6, c7, c8, c9⟩ := hc
    unfold get_mass
    simp only [List.lookup, beq_eq_false_iff_ne.2 c1, beq_eq_false_iff_ne.2 c2, beq_eq_false_iff_ne.2 c3, beq_eq_false_iff_ne.2 c4,
      beq_eq_false_iff_ne.2 c5, beq_eq_false_iff_ne.2 c6, beq_eq_false_iff_ne.2 c7, beq_eq_false_iff_ne.2 c8, beq_eq_false_iff_ne.2 c9]
  have hin : sp ∈ LineData.species → ∃ m A, get_mass sp = .ok m ∧ nucleons sp = some A ∧ |m - (A : ℕ)| < 1 / 3 := by
    intro h
    simp only [LineData.species, List.mem_cons, List.not_mem_nil, or_false] at h
    rcases h with rfl | rfl | rfl | rfl | rfl | rfl | rfl | rfl | rfl <;>
      exact ⟨_, _, rfl, rfl, by rw [abs_lt]; constructor <;> norm_num⟩
  refine ⟨fun m hm => ?_, ⟨fun ⟨m, hm⟩ => ?_, fun h => ?_⟩, hnot⟩
  · by_cases h : sp ∈ LineData.species
    · obtain ⟨m', A, h1, h2, h3⟩ := hin h
      obtain rfl : m' = m := by rw [h1] at hm; cases hm; rfl
      exact ⟨A, h2, h3⟩
    · rw [hnot h] at hm; cases hm
  · by_contra h
    rw [hnot h] at hm; cases hm
  · obtain ⟨m, A, h1, -, -⟩ := hin h
    exact ⟨m, h1⟩

/-! Witnesses for the other theorems. -/

example (s : Option Snap) (saved saved' : Py Saved) := gridded_never_loads ⟨{ reload := true, nbins := some 1024, res := none }, 10, -1, .none, .none⟩ s saved saved' rfl

example (s : Option Snap) (saved : Py Saved) (o : Obj) := gridded_from_savefile (o := o) (s := s) (saved := saved)
  (g := ⟨{ nbins := some 1024, res := none }, 10, -1, .none, .none⟩) rfl

example (saved : Py Saved) := gridded_no_axes (g := ⟨{ reload := true, nbins := some 1024, res := none }, 10, -1, .table [(1, 2, 3)], .none⟩)
  (s := ⟨.ok 1, 25000, 0.25, 0.7, 0.3, 0.7, none⟩) saved rfl rfl rfl (k := 1) rfl

end Verif.Props
