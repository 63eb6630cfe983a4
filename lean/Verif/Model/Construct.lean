import Verif.Common
import Mathlib.Analysis.SpecialFunctions.Pow.Real

/-!
Model of `Spectra.__init__`, `fake_spectra/spectra.py:85-264`: how the arguments, the snapshot and the savefile
decide the sightlines, the kernel, the unit of length, the velocity scale and the pixels; and of the header of the
savefile, `fake_spectra/spectra.py:295-308, 443-453, 493-499`.

Not modelled: messages, the path of the savefile, MPI, the cached arrays (Model/Store), and the gas properties object
(Model/HandOff). `rscale` is rounded to 32 bits in the code.
-/

namespace Verif.Construct

/-- What the constructor reads from a snapshot, spectra.py:137-195. `kernel` is `get_kernel()`, which can raise
`AssertionError` (abstractsnapshot.py:377-397); `unitLength` is the header attribute, if there is one. -/
structure Snap where
  kernel : Py ℤ
  box : ℝ
  atime : ℝ
  hubble : ℝ
  omegaM : ℝ
  omegaL : ℝ
  unitLength : Option ℝ

/-- The `kernel` argument. -/
inductive KernelArg where
  | none
  | name (s : String)
  | num (n : ℤ)

/-- The `cofm` argument: `None`, one position (shape `(3,)`), an array of shape `(n, 3)`, or a list of lists. -/
inductive CofmArg where
  | none
  | single (p : ℝ × ℝ × ℝ)
  | table (rows : List (ℝ × ℝ × ℝ))
  | list (rows : List (ℝ × ℝ × ℝ))

/-- The `axis` argument: `None`, a number, an array, or a list of numbers. -/
inductive AxisArg where
  | none
  | scalar (a : ℤ)
  | array (as : List ℤ)
  | list (as : List ℤ)

/-- The arguments. The default of `res` is 1, that of `reload` is false, the others are `None`. -/
structure Args where
  cofm : CofmArg := .none
  axis : AxisArg := .none
  nbins : Option ℤ := none
  res : Option ℝ := some 1
  reload : Bool := false
  units : Option ℝ := none
  kernel : KernelArg := .none
  externalHz : Option ℝ := none

/-- The header of a savefile and its sightlines, spectra.py:295-308. Files of older versions have no `Hz`. -/
structure Saved where
  red : ℝ
  nbins : ℤ
  hubble : ℝ
  box : ℝ
  omegaM : ℝ
  omegaL : ℝ
  hz : Option ℝ
  cofm : List (ℝ × ℝ × ℝ)
  axis : List ℤ

/-- The attributes of the object. `kernel` is absent when there is no snapshot; `dvbin` is absent when it is not a
number (no pixels). -/
structure Obj where
  kernel : Option ℤ
  cofm : List (ℝ × ℝ × ℝ)
  axis : List ℤ
  numLos : ℕ
  unitLength : ℝ
  box : ℝ
  red : ℝ
  atime : ℝ
  hubble : ℝ
  omegaM : ℝ
  omegaL : ℝ
  hz : ℝ
  velfac : ℝ
  vmax : ℝ
  nbins : ℤ
  dvbin : Option ℝ

/-- The unit of length of `UnitSystem()`, unitsystem.py:7. -/
noncomputable def defaultLength : ℝ := 3.085678e21

/-- `snapshot_set.get_units()`, abstractsnapshot.py:102-112: missing attributes give the default, never `KeyError`. -/
noncomputable def get_units (s : Snap) : Py ℝ := .ok (s.unitLength.getD defaultLength)

/-- The kernel, spectra.py:139-153. The format `%d` of the error message fails on a string. -/
def kernelOf (k : KernelArg) (s : Snap) : Py ℤ :=
  match k with
  | .none => s.kernel
  | .name "voronoi" => .ok 2
  | .name "tophat" => .ok 0
  | .name "quintic" => .ok 3
  | .name "cubic" => .ok 1
  | .name "sph" => .ok 1
  | .name _ => .error .typeError
  | .num _ => .error .valueError

/-- spectra.py:169-171. -/
def cofmOf : CofmArg → Py (List (ℝ × ℝ × ℝ))
  | .none => .error .attributeError
  | .single p => .ok [p]
  | .table rows => .ok rows
  | .list _ => .error .attributeError

/-- spectra.py:172-174. `np.shape(None)` is `()`, and `None` is not an integer. -/
def axisOf : AxisArg → Py (List ℤ)
  | .none => .error .typeError
  | .scalar a => .ok [a]
  | .array as => .ok as
  | .list _ => .error .attributeError

/-- spectra.py:175-176: the error for a missing argument. The names are those of the arguments, which by now are
arrays. -/
def noneCheck (cofm : Option (List (ℝ × ℝ × ℝ))) (axis : Option (List ℤ)) : Py Unit :=
  if cofm.isNone ∨ axis.isNone then .error .runtimeError else .ok ()

/-- `int(x)` for a float: towards zero. -/
noncomputable def trunc (x : ℝ) : ℤ := if 0 ≤ x then ⌊x⌋ else ⌈x⌉

open Classical in
/-- The pixels of a new object, spectra.py:220-232; `int` of infinity raises `OverflowError`. The attribute `nbins` is
not set when both arguments are given. -/
noncomputable def pixels (vmax : ℝ) (nbins : Option ℤ) (res : Option ℝ) : Py ℤ := do
  let (attr, _res) ← match res, nbins with
    | none, some n => .ok (some n, vmax / n)
    | none, none => .error .valueError
    | some r, _ => .ok (none, r)
  let attr ← match nbins, res with
    | none, some r => if r = 0 then .error .overflowError else .ok (some (trunc (vmax / r)))
    | _, _ => .ok attr
  match attr with
  | some n => .ok n
  | none => .error .attributeError

/-- `vmax / (1.*nbins)`, spectra.py:232, 235. -/
noncomputable def dvbinOf (vmax : ℝ) (n : ℤ) : Option ℝ := if n = 0 then none else some (vmax / n)

/-- `np.isclose(a, b, rtol=rtol)`. -/
noncomputable def isclose (a b rtol : ℝ) : Bool := decide (|a - b| ≤ 1e-8 + rtol * |b|)

/-- The truth value of a number which may be `None`. -/
noncomputable def given (x : Option ℝ) : Option ℝ :=
  match x with
  | none => none
  | some v => if v = 0 then none else some v

/-- spectra.py:212-214, flat cosmology. -/
noncomputable def hubbleAt (hubble omegaM omegaL atime : ℝ) : ℝ := 100 * hubble * Real.sqrt (omegaM / atime ^ 3 + omegaL)

/-- `velfac`, spectra.py:210-216. -/
noncomputable def velfacOf (unitLength atime hubble hz : ℝ) : ℝ := unitLength * atime / hubble * hz / 3.085678e24

/-- The branch of `__init__` for a snapshot, spectra.py:165-203 and 209-232. -/
noncomputable def fromSnapshot (a : Args) (snap : Option Snap) (kernel : Option ℤ) : Py Obj := do
  let cofm ← cofmOf a.cofm
  let axis ← axisOf a.axis
  noneCheck (some cofm) (some axis)
  match snap with
  | none => .error .ioError
  | some s => do
    let u ← match get_units s with
      | .error .keyError => .ok (a.units.getD defaultLength)
      | r => r
    let hz := (given a.externalHz).getD (hubbleAt s.hubble s.omegaM s.omegaL s.atime)
    let velfac := velfacOf u s.atime s.hubble hz
    let vmax := s.box * velfac
    let n ← pixels vmax a.nbins a.res
    pure ⟨kernel, cofm, axis, axis.length, u, s.box, 1 / s.atime - 1, s.atime, s.hubble, s.omegaM, s.omegaL, hz, velfac,
      vmax, n, dvbinOf vmax n⟩

/-- The branch of `__init__` for a savefile, spectra.py:204-218 and 233-241. -/
noncomputable def fromSavefile (a : Args) (saved : Py Saved) (kernel : Option ℤ) : Py Obj := do
  let f ← saved
  let u := a.units.getD defaultLength
  let atime := 1 / (1 + f.red)
  let hz := f.hz.getD (hubbleAt f.hubble f.omegaM f.omegaL atime)
  let velfac := velfacOf u atime f.hubble hz
  let vmax := f.box * velfac
  let dv := dvbinOf vmax f.nbins
  match a.res with
  | some r =>
    match dv with
    | none => .error .assertionError
    | some d => if isclose d r 1e-2 then pure () else .error .assertionError
  | none => pure ()
  match given a.externalHz with
  | some h => if isclose hz h 1e-4 then pure () else .error .assertionError
  | none => pure ()
  pure ⟨kernel, f.cofm, f.axis, f.axis.length, u, f.box, f.red, atime, f.hubble, f.omegaM, f.omegaL, hz, velfac, vmax,
    f.nbins, dv⟩

/-- `Spectra.__init__`, spectra.py:85-264. `snap` is the snapshot found, if any (`IOError` is passed over, lines
154-155); `saved` is the savefile, or the error of opening it. -/
noncomputable def construct (a : Args) (snap : Option Snap) (saved : Py Saved) : Py Obj := do
  let kernel ← match snap with
    | none => .ok none
    | some s => (kernelOf a.kernel s).map some
  if a.reload then fromSnapshot a snap kernel else fromSavefile a saved kernel

/-- The header written by `_save_file`, spectra.py:295-308. -/
def saveHeader (o : Obj) : Saved := ⟨o.red, o.nbins, o.hubble, o.box, o.omegaM, o.omegaL, some o.hz, o.cofm, o.axis⟩

end Verif.Construct
