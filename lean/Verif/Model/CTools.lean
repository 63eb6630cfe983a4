import Verif.Model.CRes
import Verif.Model.FluxStats

/-!
Model of parts of the stand-alone C tools in `cextract/`: smoothing (smooth.c), the flux power spectrum (powerspectrum.c,
calc_power.c), the table of sightlines (init.c) and the loop over the files of a snapshot (main.cpp).
-/

namespace Verif.CTools
open Verif.FluxStats

/-- The values of `j` in `for(j=a; j<b; j++)`. -/
def intRange (a b : ℤ) : List ℤ := (List.range (b - a).toNat).map (fun n : ℕ => a + n)

/-- `a[i] = x`, checked. -/
def setAt (a : List ℝ) (i : ℤ) (x : ℝ) : CRes (List ℝ) :=
  if 0 ≤ i ∧ i < a.length then .ok (a.set i.toNat x) else .error .outOfBounds

/-- `for(j ...) s += in[f(j)]`. -/
noncomputable def addReads (inp : List ℝ) (f : ℤ → ℤ) (s : ℝ) (js : List ℤ) : CRes ℝ :=
  js.foldlM (fun s j => do
    let x ← readAt inp (f j)
    pure (s + x)) s

/-- `smooth`, smooth.c:28-59, on arrays of `len` elements. -/
noncomputable def smooth (inp out : List ℝ) (len slen : ℤ) : CRes (List ℝ) := do
  let off := (slen - 1).tdiv 2
  let out ← (intRange 0 off).foldlM (fun out i => do
    let s ← addReads inp (fun _ => 0) 0 (intRange (-off) (-i))
    let s ← addReads inp (fun j => i + j) s (intRange (-i) (off + 1))
    setAt out i s) out
  let out ← (intRange off (len - off)).foldlM (fun out i => do
    let s ← addReads inp (fun j => i + j) 0 (intRange (-off) (off + 1))
    setAt out i s) out
  let out ← (intRange (len - off) len).foldlM (fun out i => do
    let s ← addReads inp (fun j => i + j) 0 (intRange (-off) (len - i))
    let s ← addReads inp (fun _ => len - 1) s (intRange (len - i) (-i + 1))
    setAt out i s) out
  pure (out.map (fun x => x / slen))

/-- `pstv`, smooth.c:8-10. -/
def pstv (a : ℤ) : ℤ := if a > 0 then a else -a

/-- `gaussian_smooth`, smooth.c:11-25, with `off` for `(int)(3*sigma)`. The C remainder has the sign of the dividend. -/
noncomputable def gaussian_smooth (inp out : List ℝ) (len off : ℤ) (kernel : List ℝ) : CRes (List ℝ) :=
  (intRange 0 len).foldlM (fun out i => do
    let s ← (intRange (-off) (off + 1)).foldlM (fun s j => do
      let ind := (i + j).tmod len
      let ind := if ind < 0 then ind + len else ind
      let x ← readAt inp ind
      let k ← readAt kernel (pstv j)
      pure (s + x * k)) 0
    setAt out i s) out

/-- `powerspectrum`, powerspectrum.c:17-30: element `k < (dims+1)/2`. `F` is the output of the transform. -/
noncomputable def powerspectrum (dims : ℕ) (F : ℕ → ℂ) (k : ℕ) : ℝ :=
  let p := if k = 0 then (F 0).re ^ 2 else (F k).re ^ 2 + (F k).im ^ 2
  let p := if dims % 2 = 0 ∧ k = 0 then (F (dims / 2)).re ^ 2 else p
  p / (dims : ℝ) ^ 2

/-- The flux of one sightline, calc_power.c:18-19, after the scaling of line 13-14. -/
noncomputable def fluxRow (tau_eff : ℝ) (row : List ℝ) : List ℝ := row.map (fun t => Real.exp (-t) / Real.exp (-tau_eff) - 1)

/-- The power spectrum of one sightline, smoothed but for its first element, calc_power.c:21-24. -/
noncomputable def smoothedPower (nbins : ℕ) (flux : List ℝ) : CRes (List ℝ) := do
  let n := (nbins + 1) / 2
  let p := (List.range n).map (powerspectrum nbins (rfft flux))
  let sm ← smooth (p.drop 1) (List.replicate (n - 1) 0) ((n : ℤ) - 1) 3
  pure (p.take 1 ++ sm)

/-- `calc_power_spectra`, calc_power.c:4-35, for at least one sightline: the power spectrum, and the optical depths, which
are scaled in place. -/
noncomputable def calc_power_spectra (nbins : ℕ) (rows : List (List ℝ)) (scale tau_eff : ℝ) :
    CRes (List ℝ × List (List ℝ)) := do
  let rows := rows.map (fun row => row.map (fun t => t * scale))
  let total ← rows.foldlM (fun acc row => do
    let p ← smoothedPower nbins (fluxRow tau_eff row)
    pure (List.zipWith (· + ·) acc p)) (List.replicate ((nbins + 1) / 2) 0)
  pure (total.map (fun x => x / rows.length), rows)

/-! ### The table of sightlines -/

/-- A number read by `%f`: `none` is NaN. Infinities are not modelled. -/
abbrev CFloat := Option ℝ

/-- `x > y` for C floats. -/
noncomputable def fgt (x : CFloat) (y : ℝ) : Bool :=
  match x with
  | none => false
  | some x => decide (x > y)

/-- `x < y` for C floats. -/
noncomputable def flt (x : CFloat) (y : ℝ) : Bool :=
  match x with
  | none => false
  | some x => decide (x < y)

/-- One call of `fscanf(fh, "%d %f %f %f\n", ...)`: end of file, or as many of the four items as could be converted. -/
inductive Scan where
  | eof
  | items (axis : Option ℤ) (xx yy zz : Option CFloat)

/-- The four variables; `none` before the first assignment. -/
structure Vars where
  axis : Option ℤ
  xx : Option CFloat
  yy : Option CFloat
  zz : Option CFloat

/-- A sightline: axis and position. -/
structure Los where
  axis : ℤ
  x : CFloat
  y : CFloat
  z : CFloat

/-- `1000*x`. -/
noncomputable def times1000 (x : CFloat) : CFloat := x.map (fun x => x * 1000)

/-- The loop over the lines of the table, init.c:22-39. Reading a variable which was never set has no defined result
(`assertFailed`). -/
noncomputable def readTable (boxm : ℝ) : ℕ → List Scan → Vars → CRes (List Los)
  | 0, _, _ => .ok []
  | n + 1, input, v =>
    match input with
    | [] => .error (.exit 3)
    | .eof :: _ => .error (.exit 3)
    | .items a x y z :: rest =>
      let v : Vars := ⟨a.or v.axis, x.or v.xx, y.or v.yy, z.or v.zz⟩
      match v.axis, v.xx, v.yy, v.zz with
      | some axis, some xx, some yy, some zz =>
        if axis > 3 ∨ axis < 0 then .error (.exit 3)
        else if fgt xx boxm || flt xx 0 || fgt yy boxm || flt yy 0 || fgt zz boxm || flt zz 0 then .error (.exit 3)
        else do
          let r ← readTable boxm n rest v
          pure (⟨axis, times1000 xx, times1000 yy, times1000 zz⟩ :: r)
      | _, _, _, _ => .error .assertFailed

/-- `populate_los_table` with a table, init.c:7-40. -/
noncomputable def populateTable (numLos : ℕ) (input : List Scan) (box : ℝ) : CRes (List Los) :=
  readTable (box / 1000) numLos input ⟨none, none, none, none⟩

/-- `do axis = (int)(drand48()*4); while (axis == 0 || axis==4);`, init.c:45-47, on the coming random numbers. -/
noncomputable def drawAxis : List ℝ → Option (ℤ × List ℝ)
  | [] => none
  | u :: us =>
    let a := ⌊u * 4⌋
    if a = 0 ∨ a = 4 then drawAxis us else some (a, us)

/-- `populate_los_table` without a table, init.c:41-53; `none` when the random numbers given do not suffice. -/
noncomputable def populateRandom (box : ℝ) : ℕ → List ℝ → Option (List Los)
  | 0, _ => some []
  | n + 1, us =>
    match drawAxis us with
    | some (a, u1 :: u2 :: u3 :: rest) =>
      (populateRandom box n rest).map (fun r => ⟨a, some (u1 * box), some (u2 * box), some (u3 * box)⟩ :: r)
    | _ => none

/-! ### The files of a snapshot -/

/-- The decimal digits of a number, as `std::ostringstream` writes them. -/
def dec (n : ℕ) : List Char :=
  if n < 10 then [Char.ofNat (48 + n)] else dec (n / 10) ++ [Char.ofNat (48 + n % 10)]
termination_by n
decreasing_by omega

/-- `s.find(pat)`: the first place, or `none` for `npos`. -/
def strFind (s pat : List Char) : Option ℕ :=
  (List.range (s.length + 1)).find? (fun i => (s.drop i).take pat.length == pat)

/-- `s.replace(i, 1, t)`. -/
def strReplace (s : List Char) (i : ℕ) (t : List Char) : List Char := s.take i ++ t ++ s.drop (i + 1)

/-- `.0.hdf5`. -/
def firstSuffix : List Char := ['.', '0', '.', 'h', 'd', 'f', '5']

/-- `find_first_hdf_file`, main.cpp:52-78: the name found, if any; `isHdf` says which names are readable HDF5 files. -/
def find_first_hdf_file (isHdf : List Char → Bool) (infname : List Char) : Option (List Char) :=
  if isHdf infname then some infname
  else if isHdf (infname ++ firstSuffix) then some (infname ++ firstSuffix)
  else none

/-- `i_fileno = fname.find(".0.hdf5")+1`, main.cpp:173: `npos+1` is 0. -/
def iFileno (fname : List Char) : ℕ :=
  match strFind fname firstSuffix with
  | some p => p + 1
  | none => 0

/-- What the loop of `main` reads: HDF5 files, or the input as a Gadget file. -/
inductive Read where
  | hdf (name : List Char)
  | gadget (name : List Char)
  deriving DecidableEq

/-- The loop over HDF5 files, main.cpp:195-212 and 240, with a bound on the number of passes: `replace` changes `fname`
itself. `none` when the bound is not enough. -/
def hdfLoop (isHdf : List Char → Bool) (i : ℕ) : ℕ → List Char → ℕ → Option (List Read)
  | 0, _, _ => none
  | fuel + 1, fname, fileno =>
    let fname := strReplace fname i (dec (fileno + 1))
    if isHdf fname then (hdfLoop isHdf i fuel fname (fileno + 1)).map (fun r => .hdf fname :: r)
    else some []

/-- The files `main` reads particles from, main.cpp:158-241, when the headers can be read. -/
def filesRead (isHdf : List Char → Bool) (infname : List Char) (fuel : ℕ) : Option (List Read) :=
  match find_first_hdf_file isHdf infname with
  | some fname =>
    if iFileno fname = 0 then some [.gadget infname] else hdfLoop isHdf (iFileno fname) fuel fname 0
  | none => some [.gadget infname]

end Verif.CTools
