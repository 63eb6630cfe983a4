import Verif.Model.PyModule
import Verif.Model.WeightMean

/-!
The types of the arrays which the averages over the gas hand to the C++ extension (fake_spectra/spectra.py:945-956, 994-1002, 1015-1024), under the two rules
NumPy has had for operations on an array and a number. The extension takes no array that is not in single precision (py_module.cpp:121-124).
No version of NumPy is asked for in setup.py:115, requirements.txt:2 or pyproject.toml:6.
-/

namespace Verif.NumTypes
open Verif Verif.ComputeSpectra Verif.PartInt Verif.PyModule Verif.Absorption

/-- The rules of NumPy for types in the products of fake_spectra/spectra.py:593, 952-955, 1000-1001, 1022-1023: before version 2, where a number does not change the precision of an array, and since, where one with a NumPy type does. -/
inductive Rule where
  | numpy1
  | numpy2

/-- The types of the numbers in those products: of Python, and single and double precision of NumPy. -/
inductive Num where
  | python
  | single
  | double
  deriving DecidableEq

/-- An operation on two numbers, as in fake_spectra/spectra.py:216, 230, 952. A number of Python is in double precision for the first rule and in that of its partner for the second. -/
def numOp : Rule → Num → Num → Num
  | _, .python, .python => .python
  | _, .single, .single => .single
  | .numpy2, .single, .python => .single
  | .numpy2, .python, .single => .single
  | _, _, _ => .double

/-- An operation on an array of real numbers and a number, as in fake_spectra/spectra.py:954-955. Simplified: for the first rule a number too large for single
precision would change the array. -/
def arrNum : Rule → DType → Num → DType
  | .numpy2, .float32, .double => .float64
  | _, a, _ => a

/-- An operation on two arrays of real numbers, as in fake_spectra/spectra.py:593, 1001. -/
def arrArr : DType → DType → DType
  | .float32, .float32 => .float32
  | _, _ => .float64

/-- `np.sqrt` of a number, fake_spectra/spectra.py:954, is a number of NumPy. -/
def sqrtNum : Num → Num
  | .single => .single
  | _ => .double

/-- `self.velfac`, fake_spectra/spectra.py:216, with `rscale` in single precision (210). -/
def velfac (r : Rule) (hz : Num) : Num := numOp r (numOp r .single hz) .python

/-- `self.dvbin`, fake_spectra/spectra.py:217, 230, 233. -/
def dvbin (r : Rule) (box hz : Num) : Num := numOp r (numOp r box (velfac r hz)) .python

/-- `phys`, fake_spectra/spectra.py:952. -/
def phys (r : Rule) (box hz : Num) : Num := numOp r (numOp r (dvbin r box hz) (velfac r hz)) .single

/-- The types of numbers read from a snapshot or a file with spectra: the expansion factor, the size of the box and the Hubble rate,
fake_spectra/spectra.py:182-183, 214, 445, 452, 497. -/
structure Header where
  atime : Num
  box : Num
  hz : Num

/-- An operation in place, `a *= b` or `a /= b`, fake_spectra/spectra.py:597, 615: the array keeps its type. -/
def inPlace (a : DType) : DType := a

/-- The kinds of queries that `_read_particle_data` tells apart, fake_spectra/spectra.py:595-598. -/
inductive Query where
  | HI
  | element
  | ion

/-- The type of the densities returned by `_read_particle_data`, fake_spectra/spectra.py:576, 593-617: density and mass fraction are converted to single
precision when read (576, 690-710), `rscale` is in it (210), as are the fractions of ions (597, 664). -/
def readType (r : Rule) (q : Query) : DType :=
  let elem_den := arrArr (arrNum r .float32 .single) .float32
  inPlace (match q with
    | .HI => inPlace elem_den
    | .element => elem_den
    | .ion => arrArr elem_den .float32)

/-- `elem_den*weight/phys` of `_vel_single_file`, fake_spectra/spectra.py:952-955. -/
def velocityType (r : Rule) (q : Query) (hd : Header) : DType :=
  arrNum r (arrArr (readType r q) (arrNum r .float32 (sqrtNum hd.atime))) (phys r hd.box hd.hz)

/-- `elem_den*temp/phys` of `_temp_single_file`, fake_spectra/spectra.py:1000-1001: `phys` is made a single precision number. -/
def tempType (r : Rule) (q : Query) (_hd : Header) : DType := arrNum r (arrArr (readType r q) .float32) .single

/-- `(elem_den/phys)*(species_den/self.rscale)` of `_densweightdens`, fake_spectra/spectra.py:1022-1023. -/
def densweightType (r : Rule) (q : Query) (_hd : Header) : DType := arrArr (arrNum r (readType r q) .single) (arrNum r (readType r .element) .single)

/-- `_do_interpolation_work`, fake_spectra/spectra.py:666-673, on the arrays of `_read_particle_data` with `get_tau` set, and densities of a given type in
place of those read. -/
noncomputable def interpolateTyped (c : Config) (t : DType) (parts : List Part) : Outcome (List ℤ × List ℝ) :=
  py_particle_interpolate false c.nbins c.L c.box (vectors (parts.map Part.pos)) (vectors (parts.map Part.vel))
    ⟨t, [parts.length], parts.map Part.dens⟩ (numbers (parts.map Part.temp)) (numbers (parts.map Part.h)) (axisArr c.lines) (cofmArr c.lines)

/-- The kind of a query for a species, fake_spectra/spectra.py:595-598. -/
def query : Species → Query
  | .HI => .HI
  | .all => .element
  | .ion _ => .ion
  | .Hion _ => .ion

/-- `_interpolate_single_file`, fake_spectra/spectra.py:501-548, as in `ComputeSpectra.interpolate_single_file` but with the checks of the
extension. Velocities are in single precision, as an array of one zero without an optical depth (571-575), and so are the temperatures, if they are read or not
(572, 586). -/
noncomputable def interpolate_single_file (r : Rule) (c : Config) (get_tau haveTemp : Bool) (seg : List Raw) : Outcome (List ℝ) :=
  match read_particle_data c get_tau seg with
  | .error e => .raised e
  | .ok none => .value (zeros c)
  | .ok (some parts) => match py_particle_interpolate get_tau c.nbins c.L c.box (vectors (parts.map Part.pos))
      (if get_tau then vectors (parts.map Part.vel) else numbers [0])
      ⟨readType r (query c.sp), [parts.length], parts.map Part.dens⟩ (if haveTemp then numbers (parts.map Part.temp) else numbers [0])
      (numbers (parts.map Part.h)) (axisArr c.lines) (cofmArr c.lines) with
    | .raised e => .raised e
    | .crashed e => .crashed e
    | .value a => .value a.2

/-- One segment of an average with a weight for each particle, fake_spectra/spectra.py:945-956 (one component), 994-1002, as in
`WeightMean.weighted_single_file` but with the checks of the extension. `len` is the number `phys`. -/
noncomputable def weighted_single_file (c : Config) (t : DType) (len : ℝ) (w : Part → ℝ) (seg : List Raw) : Outcome (List ℝ) :=
  match read_particle_data c true seg with
  | .error e => .raised e
  | .ok none => .value (zeros c)
  | .ok (some parts) => match interpolateTyped c t (parts.map (fun p => { p with dens := p.dens * w p / len })) with
    | .raised e => .raised e
    | .crashed e => .crashed e
    | .value a => .value a.2

/-- The sum over segments for a temperature, fake_spectra/spectra.py:964-972, 994-1013. -/
noncomputable def temp_sum (r : Rule) (hd : Header) (c : Config) (len : ℝ) (segs : List (List Raw)) : Outcome (List ℝ) :=
  WeightMean.sumFiles (weighted_single_file c (tempType r (query c.sp) hd) len (fun p => p.temp)) segs

/-- The sum over segments for a component of the velocity, fake_spectra/spectra.py:945-956, 964-972. -/
noncomputable def velocity_sum (r : Rule) (hd : Header) (c : Config) (len atime : ℝ) (ax : Fin 3) (segs : List (List Raw)) : Outcome (List ℝ) :=
  WeightMean.sumFiles (weighted_single_file c (velocityType r (query c.sp) hd) len (fun p => p.vel ax * Real.sqrt atime)) segs

/-- The type of the radii of stars, `hhmult*np.ones(..., dtype=np.float32)`, fake_spectra/emission.py:52. -/
def starType (r : Rule) (hhmult : Num) : DType := arrNum r .float32 hhmult

/-- The type of a size found by `distance`, fake_spectra/emission.py:28-40: the integral in `calculator` (139-146) is over arrays in double precision, so it
is a double precision number of NumPy, and so are its products with any other numbers. -/
def distanceType (r : Rule) (arcsec hubble atime : Num) : Num :=
  numOp r (numOp r (numOp r .double hubble) arcsec) (numOp r atime hubble)

/-- The search for stars near sightlines in `_read_stellar_data`, fake_spectra/emission.py:50-54, and `particles_near_lines`, fake_spectra/spectra.py:675-685. -/
noncomputable def starSearch (r : Rule) (c : Config) (t : Num) (hhmult : ℝ) (stars : List Vec3) : Outcome (List ℕ) :=
  if c.lines = [] then .raised .valueError
  else if c.lines.all (fun l => decide (0 < l.axis)) && c.lines.all (fun l => decide (l.axis < 4)) then
    py_near_lines c.box (vectors stars) ⟨starType r t, [stars.length], stars.map (fun _ => hhmult)⟩ (axisArr c.lines) (cofmArr c.lines)
  else .raised .assertionError

end Verif.NumTypes
