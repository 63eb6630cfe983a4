import Verif.Model.Absorbers
import Mathlib.Analysis.SpecialFunctions.Log.Base
import Mathlib.Analysis.SpecialFunctions.Pow.Real
import Mathlib.Analysis.Real.Pi.Bounds

/-!
Model of `fake_spectra/emission.py`: magnitudes, distances, and the emission of stars near sightlines with its cache
`stellar`, a dictionary which belongs to the class and so is shared by all objects.
-/

namespace Verif.Emission

/-- `bandfluxes[band]`, emission.py:20. -/
noncomputable def bandflux (band : String) : Py ℝ :=
  match band with
  | "U" => .ok 1810
  | "B" => .ok 4260
  | "V" => .ok 3640
  | "K" => .ok 670
  | "g" => .ok 3730
  | "r" => .ok 4490
  | "i" => .ok 4760
  | "z" => .ok 4810
  | _ => .error .keyError

/-- `maginJy(mag, band)`, emission.py:18-21. -/
noncomputable def maginJy (mag : ℝ) (band : String) : Py ℝ := do
  let f ← bandflux band
  pure ((10 : ℝ) ^ (mag / (-2.5)) * f)

/-- `apparentflux(DL)`, emission.py:23-26, for `DL` not zero. -/
noncomputable def apparentflux (DL : ℝ) : ℝ := (10 / (DL * 1e6)) ^ 2

/-- `np.logspace(np.log10(az), 0, n)`, emission.py:139, for `n > 1`. -/
noncomputable def logspace (az : ℝ) (n : ℕ) : List ℝ :=
  (List.range n).map (fun i : ℕ => (10 : ℝ) ^ (Real.logb 10 az + i * ((0 - Real.logb 10 az) / (n - 1))))

/-- `a*a*np.sqrt(Omega_M/a**3+WR/(a**4)+WV)`, emission.py:140. -/
noncomputable def a2H (omegaM WR WV a : ℝ) : ℝ := a * a * Real.sqrt (omegaM / a ^ 3 + WR / a ^ 4 + WV)

/-- `calculator(H0, Omega_M, zz)`, emission.py:119-153: comoving, angular diameter and luminosity distance. -/
noncomputable def calculator (H0 omegaM zz : ℝ) : ℝ × ℝ × ℝ :=
  let light := 299792.458
  let h := H0 / 100
  let WR := 4.165e-5 / (h * h)
  let WV := 1 - omegaM - WR
  let az := 1 / (1 + zz)
  let a := logspace az 1000
  let DCMR := Absorbers.trapz (a.map (fun x => 1 / a2H omegaM WR WV x)) a
  let DC := light / H0 * DCMR
  let DA := light / H0 * az * DCMR
  let DL := DA / (az * az)
  (DC, DA, DL)

/-- `distance(arcsec, redshift, hubble, OmegaM)`, emission.py:28-40. -/
noncomputable def distance (arcsec redshift hubble omegaM : ℝ) : ℝ :=
  let rad := 2 * Real.pi / 360 / 60 / 60 * arcsec
  let atime := 1 / (1 + redshift)
  let (_, DA, _) := calculator (hubble * 100) omegaM redshift
  let size := DA * rad * 1000
  size / (atime / hubble)

/-- `_read_stellar_data`, emission.py:46-65, on the stars of one segment, given by their position and their magnitude in
this band; `near r x l` says that a star at `x` with radius `r` is near the sightline `l` (C04). The table of bands on line
48 has the same keys as `bandfluxes`. -/
noncomputable def readStellar {X L : Type} (near : ℝ → X → L → Bool) (lines : List L) (stars : List (X × ℝ)) (band : String)
    (hhmult : ℝ) : Py (List ℝ) := do
  let _ ← bandflux band
  let ind := stars.filter (fun st => lines.any (fun l => near hhmult st.1 l))
  if ind.length = 0 then .error .valueError
  else do
    let em ← ind.mapM (fun st => do
      let f ← maginJy st.2 band
      pure (st.1, f))
    pure (lines.map (fun l => ((em.filter (fun e => near hhmult e.1 l)).map Prod.snd).sum))

/-- An `EmissionSpectra` object: what `get_emflux` reads from it. `read fn band dist` is `_read_stellar_data`, which
raises `ValueError` when there are no stars near the sightlines and `KeyError` for an unknown band. `file` is the array in
the savefile under this key, or the error of reading it. -/
structure Obj where
  numLos : ℕ
  atime : ℝ
  hubble : ℝ
  omegaM : ℝ
  read : ℕ → String → ℝ → Py (List ℝ)
  file : String × ℝ → Py (List ℝ)

/-- The dictionary of the class, emission.py:44, with the arrays in it. An array which is returned is the array in the
dictionary. -/
abbrev Stellar := List ((String × ℝ) × List ℝ)

open Classical in
/-- `d[k] = v`. -/
noncomputable def put (d : Stellar) (k : String × ℝ) (v : List ℝ) : Stellar :=
  (k, v) :: d.filter (fun p => decide (p.1 ≠ k))

open Classical in
/-- `d.get(k)`. -/
noncomputable def look (d : Stellar) (k : String × ℝ) : Option (List ℝ) := (d.find? (fun p => decide (p.1 = k))).map Prod.snd

/-- `_really_load_array(key, self.stellar, "stellar")`, spectra.py:359-372. -/
noncomputable def reallyLoad (o : Obj) (k : String × ℝ) (d : Stellar) : Py Unit × Stellar :=
  match look d k with
  | none => (.error .keyError, d)
  | some a =>
    if 1 < a.length then (.ok (), d)
    else match o.file k with
      | .error e => (.error e, d)
      | .ok b => (.ok (), put d k b)

/-- The loop over the segments, emission.py:80-85: segments without stars are passed over. -/
noncomputable def addSegments (o : Obj) (band : String) (dist : ℝ) (segs : List ℕ) : Py (List ℝ) :=
  segs.foldlM (fun acc fn =>
    match o.read fn band dist with
    | .ok a => .ok (List.zipWith (· + ·) acc a)
    | .error .valueError => .ok acc
    | .error e => .error e) (List.replicate o.numLos 0)

/-- `get_emflux`, emission.py:68-89, where iterating over `get_n_segments()` gives `segs`. The last lines scale the array
in the dictionary in place. -/
noncomputable def get_emflux_with (segs : Py (List ℕ)) (o : Obj) (band : String) (pixelsz : ℝ) (d : Stellar) :
    Py (List ℝ) × Stellar :=
  let dist := distance pixelsz (1 / o.atime - 1) o.hubble o.omegaM
  let k := (band, dist)
  let (_, _, DL) := calculator (o.hubble * 100) o.omegaM (1 / o.atime - 1)
  let scaled (a : List ℝ) (d : Stellar) : Py (List ℝ) × Stellar :=
    let a' := a.map (fun x => x * apparentflux DL)
    (.ok a', put d k a')
  match reallyLoad o k d with
  | (.ok _, d) =>
    match look d k with
    | some a => scaled a d
    | none => (.error .keyError, d)
  | (.error .keyError, d) =>
    match segs with
    | .error e => (.error e, d)
    | .ok segs =>
      match addSegments o band dist segs with
      | .error e => (.error e, d)
      | .ok a => scaled a (put d k a)
  | (.error e, d) => (.error e, d)

/-- `get_emflux` as it is: `get_n_segments()` returns a number for HDF5 snapshots, which cannot be iterated over, and needs
an argument for BigFile snapshots (abstractsnapshot.py:236-241, 337-338): `TypeError` in both cases. -/
noncomputable def get_emflux (o : Obj) (band : String) (pixelsz : ℝ) (d : Stellar) : Py (List ℝ) × Stellar :=
  get_emflux_with (.error .typeError) o band pixelsz d

end Verif.Emission
