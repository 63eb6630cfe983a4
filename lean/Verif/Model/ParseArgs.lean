import Verif.Model.PyModule
import Verif.Model.SpeciesQuery

/-!
The functions of the extension module as Python calls them: a list of Python objects, taken apart by `PyArg_ParseTuple`
(fake_spectra/py_module.cpp:33, 115, 268, 298), and the lists which the callers in spectra.py, fluxstatistics.py and ratenetworkspectra.py pass.

Objects other than integers, floating-point numbers and arrays are `other`. What Python converts without being asked is written as the result:
numpy numbers and booleans are `int` or `float`, and so are arrays with a single number in the place of a number. Integers become doubles if they are
less than `2 ^ 1024` in absolute value (Python rounds first, which matters for the last few of them).
-/

namespace Verif.ParseArgs
open Verif Verif.ComputeSpectra Verif.PartInt Verif.IndexTable Verif.PyModule Verif.Absorption

/-- A Python object. Elements of integer arrays are written as real numbers. -/
inductive Arg where
  | int (n : ℤ)
  | float (x : ℝ)
  | array (a : Arr ℝ)
  | other

/-- The units of format strings: `i`, `L`, `d` and `O!` with `&PyArray_Type`. -/
inductive Fmt where
  | i
  | L
  | d
  | O
  deriving DecidableEq

/-- A C value. -/
inductive CVal where
  | int (n : ℤ)
  | dbl (x : ℝ)
  | arr (a : Arr ℝ)

/-- An integer for a C type of `bits` bits. -/
def toC (bits : ℕ) (n : ℤ) : Py CVal := if -2 ^ (bits - 1) ≤ n ∧ n < 2 ^ (bits - 1) then .ok (.int n) else .error .overflowError

/-- The conversion of one argument: a floating-point number is not taken for an integer, and an integer is for a floating-point number. -/
noncomputable def convert : Fmt → Arg → Py CVal
  | .i, .int n => toC 32 n
  | .L, .int n => toC 64 n
  | .d, .float x => .ok (.dbl x)
  | .d, .int n => if n.natAbs < 2 ^ 1024 then .ok (.dbl n) else .error .overflowError
  | .O, .array a => .ok (.arr a)
  | _, _ => .error .typeError

/-- `PyArg_ParseTuple`: the number of arguments, then each of them in turn. -/
noncomputable def parseTuple (fmt : List Fmt) (args : List Arg) : Py (List CVal) :=
  if args.length ≠ fmt.length then .error .typeError
  else (fmt.zip args).mapM (fun p => convert p.1 p.2)

/-- The C variables that `PyArg_ParseTuple` has set. -/
def intAt (vs : List CVal) (k : ℕ) : ℤ := match vs[k]? with | some (.int n) => n | _ => 0
noncomputable def dblAt (vs : List CVal) (k : ℕ) : ℝ := match vs[k]? with | some (.dbl x) => x | _ => 0
def arrAt (vs : List CVal) (k : ℕ) : Arr ℝ := match vs[k]? with | some (.arr a) => a | _ => ⟨.other, [], []⟩

/-- An array of integers read as such. -/
noncomputable def intsOf (a : Arr ℝ) : Arr ℤ := ⟨a.dtype, a.dims, a.data.map (fun x => ⌊x⌋)⟩

/-- An array of integers as an argument. -/
noncomputable def ofInts (a : Arr ℤ) : Arr ℝ := ⟨a.dtype, a.dims, a.data.map (fun (n : ℤ) => (n : ℝ))⟩

/-- `"iiiddddddddO!O!O!O!O!O!O!"`, py_module.cpp:115. -/
def interpFmt : List Fmt := [.i, .i, .i, .d, .d, .d, .d, .d, .d, .d, .d, .O, .O, .O, .O, .O, .O, .O]

/-- `_Particle_Interpolate`, py_module.cpp:103-233. The variables are in the order of line 115: compute_tau, nbins, kernel, box100, velfac, atime,
lambda, gamma, fosc, amumass, tautail, pos, vel, dens, temp, h, axis, cofm. Whatever was wrong with the arguments, the exception is replaced
(line 117). The interpolator is made at line 171, with the order of arguments of part_int.h:26-31. -/
noncomputable def particle_interpolate (profile : ℝ → ℝ → ℝ) (args : List Arg) : Outcome (List ℤ × List ℝ) :=
  match parseTuple interpFmt args with
  | .error _ => .raised .attributeError
  | .ok vs =>
    py_particle_interpolate (intAt vs 0 ≠ 0) (intAt vs 1)
      (LineAbsorption.mk' profile (dblAt vs 6) (dblAt vs 7) (dblAt vs 8) (dblAt vs 9) (dblAt vs 4) (dblAt vs 3) (intAt vs 2) (dblAt vs 10))
      (dblAt vs 3) (arrAt vs 11) (arrAt vs 12) (arrAt vs 13) (arrAt vs 14) (arrAt vs 15) (intsOf (arrAt vs 16)) (arrAt vs 17)

/-- `_near_lines`, py_module.cpp:25-99, format `"dO!O!O!O!"`: the exception is that of `PyArg_ParseTuple`. -/
noncomputable def near_lines_call (args : List Arg) : Outcome (List ℕ) :=
  match parseTuple [.d, .O, .O, .O, .O] args with
  | .error e => .raised e
  | .ok vs => py_near_lines (dblAt vs 0) (arrAt vs 1) (arrAt vs 2) (intsOf (arrAt vs 3)) (arrAt vs 4)

/-- `_rescale_mean_flux`, py_module.cpp:263-282, format `"O!dLdd"`. `iterate` is given the mean flux, the tolerance, the threshold and the pixels. -/
noncomputable def mean_flux_call (iterate : ℝ → ℝ → ℝ → List ℝ → ℝ) (args : List Arg) : Outcome ℝ :=
  match parseTuple [.O, .d, .L, .d, .d] args with
  | .error _ => .raised .attributeError
  | .ok vs => py_mean_flux (iterate (dblAt vs 1) (dblAt vs 3) (dblAt vs 4)) (arrAt vs 0) (intAt vs 2)

/-- `_interpolate_2d`, py_module.cpp:291-345, format `"O!O!O!O!O!"`. -/
noncomputable def interpolate_2d_call (pairs : List ℝ → List ℝ) (eval : List ℝ → List ℝ → List ℝ → ℝ → ℝ → ℝ) (args : List Arg) : Outcome (List ℝ) :=
  match parseTuple [.O, .O, .O, .O, .O] args with
  | .error _ => .raised .attributeError
  | .ok vs => py_interpolate_2d pairs eval (arrAt vs 0) (arrAt vs 1) (arrAt vs 2) (arrAt vs 3) (arrAt vs 4)

/-! ### The callers -/

/-- `_do_interpolation_work`, spectra.py:666-673. `self.nbins` is what the user gave as `nbins` (spectra.py:224), the whole number at spectra.py:230,
or the attribute of a savefile. -/
noncomputable def interpArgs (o : SpeciesQuery.Obj) (nbins : Arg) (atime amumass : ℝ) (ln : LineData.Line) (get_tau haveTemp : Bool) (parts : List Part) :
    List Arg :=
  [.int (if get_tau then 1 else 0), nbins, .int o.kernel, .float o.box, .float o.velfac, .float atime, .float (ln.lambda * 1e-8),
    if o.turn_off_selfshield then .int 0 else .float ln.gamma, .float ln.fosc, .float amumass, .float o.tautail,
    .array (vectors (parts.map Part.pos)), .array (if get_tau then vectors (parts.map Part.vel) else numbers [0]),
    .array (numbers (parts.map Part.dens)), .array (if haveTemp then numbers (parts.map Part.temp) else numbers [0]),
    .array (numbers (parts.map Part.h)), .array (ofInts (axisArr o.sightlines)), .array (cofmArr o.sightlines)]

/-- `_near_lines(self.box, pos, hh, axis, cofm)`, spectra.py:684. -/
noncomputable def nearArgs (box : ℝ) (seg : List Raw) (lines : List Line) : List Arg :=
  [.float box, .array (vectors (seg.map Raw.pos)), .array (numbers (seg.map Raw.h)), .array (ofInts (axisArr lines)), .array (cofmArr lines)]

/-- `_rescale_mean_flux(tau.astype(np.float64), mean_flux_desired, np.size(tau), tol, thresh)`, fluxstatistics.py:39. -/
noncomputable def meanFluxArgs (dims : List ℕ) (tau : List ℝ) (desired tol thresh : ℝ) : List Arg :=
  [.array ⟨.float64, dims, tau⟩, .float desired, .int tau.length, .float tol, .float thresh]

/-- `_interpolate_2d(ldensity[ii], lienergy[ii], self.densgrid, self.ienergygrid, zgrid)`, ratenetworkspectra.py:80. The grids are float64. -/
def gridArgs (ldensity lienergy densgrid ienergygrid : List ℝ) (zgrid : List ℝ) : List Arg :=
  [.array (numbers ldensity), .array (numbers lienergy), .array ⟨.float64, [densgrid.length], densgrid⟩,
    .array ⟨.float64, [ienergygrid.length], ienergygrid⟩, .array ⟨.float64, [densgrid.length, ienergygrid.length], zgrid⟩]

end Verif.ParseArgs
