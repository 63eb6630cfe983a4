import Verif.Model.FluxStats
import Verif.Model.MeanFlux

/-!
Model of the three dimensional flux power spectrum, fluxstatistics.py:110-195. nbodykit's `FFTPower` and its painting of a catalogue on
a mesh are a parameter.
-/

namespace Verif.FluxPower3D
open Verif Verif.Np Verif.FluxStats

/-- What is handed to nbodykit: an array with its shape, or a catalogue of positions with values, to be painted on a mesh with `nmesh`
cells per side. -/
inductive Mesh where
  | array (shape : ℕ × ℕ × ℕ) (values : List ℝ)
  | catalog (nmesh : ℕ) (position : List (ℝ × ℝ × ℝ)) (values : List ℝ)

/-- The result of `FFTPower(...).power`: the two dimensional arrays `k`, `mu`, `power` over the bins, as lists of rows. -/
structure Power where
  k : List (List ℝ)
  mu : List (List ℝ)
  power : List (List ℝ)

/-- `FFTPower(mesh, BoxSize=boxsize, mode='2d', los=los, dk=dk, Nmu=Nmu).power`, fluxstatistics.py:110-125: mesh, box size, line of
sight, bin width in `k`, number of bins in `mu`. -/
abbrev FFT := Mesh → ℝ → List ℝ → Option ℝ → ℕ → Py Power

/-- `np.sqrt(nspec/3).astype(int)`, fluxstatistics.py:155. -/
noncomputable def perSide (nspec : ℕ) : ℕ := ⌊√((nspec : ℝ) / 3)⌋₊

/-- The coordinates of the pixels, fluxstatistics.py:156-161: `np.meshgrid` with `indexing='ij'`, flattened, scaled to the box. -/
noncomputable def coords (nt npix : ℕ) (boxsize : ℝ) : List (ℝ × ℝ × ℝ) :=
  (List.range nt).flatMap (fun (x : ℕ) => (List.range nt).flatMap (fun (y : ℕ) => (List.range npix).map (fun (z : ℕ) =>
    ((x : ℝ) * boxsize / nt, (y : ℝ) * boxsize / nt, (z : ℝ) * boxsize / npix))))

/-- `tau[i*nspec//3:end]` with `end = min((i+1)*nspec//3, nspec)`, fluxstatistics.py:163. -/
def third (rows : List (List ℝ)) (i : ℕ) : List (List ℝ) :=
  slice rows (i * rows.length / 3) (min ((i + 1) * rows.length / 3) rows.length)

/-- `np.exp(-tau[...])/mean_flux_desired - 1`, flattened, fluxstatistics.py:168, 174. -/
noncomputable def contrast (meanFlux : ℝ) (rows : List (List ℝ)) : List ℝ :=
  rows.flatten.map (fun t => Real.exp (-t) / meanFlux - 1)

/-- The mesh of one third of the sightlines, fluxstatistics.py:167-175. A wrong number of values is a `ValueError`, in `reshape` as in
`ArrayCatalog`. -/
noncomputable def meshOf (nt npix : ℕ) (boxsize : ℝ) (df : List ℝ) : Py Mesh :=
  if npix = nt then
    if df.length = nt * nt * npix then .ok (.array (nt, nt, npix) df) else .error .valueError
  else if df.length = (coords nt npix boxsize).length then .ok (.catalog nt (coords nt npix boxsize) df)
  else .error .valueError

/-- `los = [0, 0, 0]; los[i] = 1`, fluxstatistics.py:178-179. -/
def losOf (i : ℕ) : List ℝ := [0, 0, 0].set i 1

/-- One pass of the loop, fluxstatistics.py:162-180. -/
noncomputable def axisPower (fft : FFT) (rows : List (List ℝ)) (npix : ℕ) (boxsize meanFlux : ℝ) (dk : Option ℝ) (Nmu : ℕ) (i : ℕ) :
    Py Power := do
  let mesh ← meshOf (perSide rows.length) npix boxsize (contrast meanFlux (third rows i))
  fft mesh boxsize (losOf i) dk Nmu

/-- `mean_flux_power += power['power']`. -/
noncomputable def addRows (a b : List (List ℝ)) : List (List ℝ) := List.zipWith (List.zipWith (· + ·)) a b

/-- `flux_power_3d`, fluxstatistics.py:153-195, after the mean flux is known: `k` and `mu` of the last axis, and the mean of the powers. -/
noncomputable def averaged (fft : FFT) (rows : List (List ℝ)) (npix : ℕ) (boxsize meanFlux : ℝ) (dk : Option ℝ) (Nmu : ℕ) : Py Power := do
  let p0 ← axisPower fft rows npix boxsize meanFlux dk Nmu 0
  let p1 ← axisPower fft rows npix boxsize meanFlux dk Nmu 1
  let p2 ← axisPower fft rows npix boxsize meanFlux dk Nmu 2
  pure ⟨p2.k, p2.mu, (addRows (addRows p0.power p1.power) p2.power).map (fun r => r.map (· / 3))⟩

/-- `flux_power_3d`, fluxstatistics.py:127-195: the new contents of the caller's array `tau`, which is multiplied in place (line 150),
and the result. `none` when the search for the scale does not end within `fuel` passes, or ends in a number that is not finite: the
array is then not a number, which is not modelled. -/
noncomputable def flux_power_3d (fft : FFT) (rows : List (List ℝ)) (npix : ℕ) (boxsize : ℝ) (desired : Option ℝ) (dk : Option ℝ) (Nmu : ℕ)
    (fuel : ℕ) : Option (List (List ℝ) × Py Power) :=
  match desired with
  | none => some (rows, averaged fft rows npix boxsize (usedMeanFlux rows none) dk Nmu)
  | some d =>
    match MeanFlux.mean_flux rows.flatten d 1e-5 1e30 fuel with
    | some (some scale) =>
      let rows' := rows.map (fun r => r.map (· * scale))
      some (rows', averaged fft rows' npix boxsize d dk Nmu)
    | _ => none

end Verif.FluxPower3D
