import Verif.Model.Numpy
import Mathlib.Analysis.Real.Sqrt

/-!
Model of the Voigt fitter, voigtfit.py. The minimisers of scipy and the Faddeeva function are parameters.
-/

namespace Verif.Voigt
open Verif.Np

/-- The result of the fit: `stddev_new`, `means_new`, `amplitudes_new`, one entry each per component. -/
structure Fit where
  stddev : List ℝ
  means : List ℝ
  amplitudes : List ℝ

/-- `get_column_densities`, voigtfit.py:234-236; `N b amp` is `get_column_density`. -/
def columnDensities (N : ℝ → ℝ → ℝ) (f : Fit) : List ℝ := (f.stddev.map (|·|)).zipWith N f.amplitudes

/-- `np.argsort(pos)` applied to an array of the same length: the values of `xs` in the order of increasing `pos`. Equal
positions make `get_systems` fail, so their order does not matter. -/
noncomputable def sortBy (pos xs : List ℝ) : List ℝ :=
  ((pos.zip xs).mergeSort (fun a b => decide (a.1 ≤ b.1))).map Prod.snd

/-- The arrays of the loop of `get_systems`. -/
structure Sys where
  colden : List ℝ
  pos : List ℝ
  maxpos : List ℝ
  minpos : List ℝ
  stop : Bool

/-- `minpos-maxpos`. -/
noncomputable def Sys.distances (s : Sys) : List ℝ := s.minpos.zipWith (· - ·) s.maxpos

/-- `assert np.all(distances > 0)`, voigtfit.py:255 and 273. -/
noncomputable def Sys.check (s : Sys) : Py Sys :=
  if ∀ d ∈ s.distances, d > 0 then .ok s else .error .assertionError

/-- The arrays before the loop, voigtfit.py:242-255; `W` is `np.max(self.wavelengths)`. -/
noncomputable def startSys (W : ℝ) (colden pos : List ℝ) : Py Sys := do
  let last ← get pos (-1)
  let maxpos ← Np.set pos (-1) (last - W)
  let minpos := roll pos (-1)
  Sys.check ⟨colden, pos, maxpos, minpos, false⟩

/-- The condition of the loop, voigtfit.py:257; after `break` it is not evaluated. -/
noncomputable def Sys.again (close : ℝ) (s : Sys) : Py Bool :=
  if s.stop then .ok false
  else do
    let m ← minOf s.distances
    pure (decide (m < close))

/-- The body of the loop, voigtfit.py:258-273. -/
noncomputable def Sys.merge (W : ℝ) (s : Sys) : Py Sys := do
  let k ← argmin s.distances
  let minn : ℤ := if k = s.distances.length - 1 then -1 else k
  let a ← get s.pos minn
  let b ← get s.pos (minn + 1)
  let p := if k = s.distances.length - 1 then fmod ((a + b + W) / 2) W else (a + b) / 2
  let pos ← Np.set s.pos (minn + 1) p
  let c ← get s.colden minn
  let d ← get s.colden (minn + 1)
  let colden ← Np.set s.colden (minn + 1) (d + c)
  let colden ← delete colden minn
  let pos ← delete pos minn
  let maxpos ← delete s.maxpos minn
  let minpos ← delete s.minpos minn
  if pos.length < 2 then pure ⟨colden, pos, maxpos, minpos, true⟩
  else Sys.check ⟨colden, pos, maxpos, minpos, false⟩

/-- `get_systems`, voigtfit.py:238-274, for arrays of one length: column densities and positions of the systems, and the
fit, whose widths are sorted. -/
noncomputable def get_systems (N : ℝ → ℝ → ℝ) (W close : ℝ) (f : Fit) (fuel : ℕ) : Run ((List ℝ × List ℝ) × Fit) :=
  let colden := sortBy f.means (columnDensities N f)
  let f' : Fit := { f with stddev := sortBy f.means f.stddev }
  let pos := sortBy f.means f.means
  Run.andThen (some (startSys W colden pos)) fun s =>
    Run.andThen (whileRun (Sys.again close) (fun s => some (Sys.merge W s)) fuel s) fun s =>
      some (.ok ((s.colden, s.pos), f'))

/-! ### The fit -/

/-- Python's `round`: to the nearest integer, halves to even. -/
noncomputable def pyround (x : ℝ) : ℤ :=
  if Int.fract x < 1 / 2 then ⌊x⌋ else if 1 / 2 < Int.fract x then ⌊x⌋ + 1 else if 2 ∣ ⌊x⌋ then ⌊x⌋ else ⌊x⌋ + 1

/-- `peak_index` in `voigt_profile`, voigtfit.py:182-186, for a spectrum of `n` pixels of width `dv`. -/
noncomputable def peakIndex (n : ℕ) (dv mean : ℝ) : ℕ :=
  let p := mean / dv
  let p := if p < 0 then p + ((n : ℝ) - 1) else p
  (pyround p % (n : ℤ)).toNat

/-- `voigt_profile`, voigtfit.py:166-197, for a positive pixel width `dv` and a width other than 0. `H b v` is
`np.real(scipy.special.wofz(v/b + 1j*self.voigt_fac/b))`. -/
noncomputable def voigt_profile (H : ℝ → ℝ → ℝ) (n : ℕ) (dv stddev mean amplitude : ℝ) : Py (List ℝ) := do
  let b := |stddev|
  let amp := |amplitude|
  let pk := peakIndex n dv mean
  let rolled := (List.range n).map (fun i : ℕ => H b ((i : ℝ) * dv - ((n / 2 : ℕ) : ℝ) * dv) / H b 0 * amp)
  let k ← argmax rolled
  let profile := roll rolled ((pk : ℤ) - k)
  let k' ← argmax profile
  if k' = pk then pure profile else .error .assertionError

/-- What `optimize.minimize` returns. -/
structure MinRes where
  x : List ℝ
  fval : ℝ
  success : Bool

/-- The functions the fit relies on: the profile, the width found by `optimize.minimize_scalar` for a peak of the given
amplitude in the given (rolled) spectrum, and `optimize.minimize` from the given starting point. -/
structure Fitter where
  profile : ℝ → ℝ → ℝ → Py (List ℝ)
  width : ℝ → List ℝ → Py ℝ
  minimize : List ℝ → Py MinRes

/-- The peaks found so far, in the order found: `self.stddev`, `self.means` and `self.amplitudes`. -/
structure Peaks where
  stddev : List ℝ
  means : List ℝ
  amplitudes : List ℝ

/-- `iterate_new_spectrum`, voigtfit.py:101-121, with a mask: the new spectrum, position, amplitude and width. -/
noncomputable def iterate_new_spectrum (F : Fitter) (dv : ℝ) (f : List ℝ) (mask : List ℕ) : Py (List ℝ × ℝ × ℝ × ℝ) := do
  let m ← maxOf (mask.filterMap (fun i => f[i]?))
  let pk := f.findIdx (fun v => decide (v = m))
  let amplitude ← Np.get f pk
  let f_rolled := roll f (((f.length / 2 : ℕ) : ℤ) - pk)
  let x ← F.width amplitude f_rolled
  let fitted ← F.profile x (pk * dv) amplitude
  let k ← argmax fitted
  if k ≠ pk then .error .assertionError
  else do
    let newf := f.zipWith (· - ·) fitted
    let a ← maxOf newf
    let b ← maxOf f
    if a < b then pure (newf, pk * dv, amplitude, x) else .error .assertionError

/-- `profile_multiple`, voigtfit.py:151-154, for `n` pixels. -/
noncomputable def profile_multiple (F : Fitter) (n : ℕ) (p : Peaks) : Py (List ℝ) := do
  let rows ← (p.stddev.zip (p.means.zip p.amplitudes)).mapM (fun c => F.profile c.1 c.2.1 c.2.2)
  pure ((List.range n).map (fun i : ℕ => (rows.map (fun r => r.getD i 0)).sum))

/-- The state of the loop of `do_fit` that finds peaks. -/
structure Search where
  fitted : List ℝ
  mask : List ℕ
  peaks : Peaks

/-- The loop condition, voigtfit.py:64. -/
noncomputable def Search.again (realtol : ℝ) (s : Search) : Py Bool :=
  if s.mask = [] then .ok false
  else do
    let m ← maxOf (s.mask.filterMap (fun i => s.fitted[i]?))
    pure (decide (realtol < m))

/-- The loop body, voigtfit.py:65-70. -/
noncomputable def Search.step (F : Fitter) (dv sattau : ℝ) (s : Search) : Py Search := do
  let (fitted, mean, amplitude, stddev) ← iterate_new_spectrum F dv s.fitted s.mask
  let peaks : Peaks := ⟨s.peaks.stddev ++ [stddev], s.peaks.means ++ [mean], s.peaks.amplitudes ++ [amplitude]⟩
  let prof ← profile_multiple F s.fitted.length peaks
  pure ⟨fitted, (List.range prof.length).filter (fun i => decide (prof.getD i 0 < sattau)), peaks⟩

/-- `tol * np.max([1, np.max(self.tau)])`, voigtfit.py:59. -/
noncomputable def realtol (tol : ℝ) (tau : List ℝ) : Py ℝ := do
  let m ← maxOf tau
  pure (tol * max 1 m)

/-- The peaks, voigtfit.py:56-70; `peaks` are the ones the object already has. -/
noncomputable def findPeaks (F : Fitter) (dv tol sattau : ℝ) (tau : List ℝ) (peaks : Peaks) (fuel : ℕ) : Run Peaks :=
  Run.andThen (some (realtol tol tau)) fun rt =>
    Run.andThen (whileRun (Search.again rt) (fun s => some (Search.step F dv sattau s)) fuel
      ⟨tau, (List.range tau.length).filter (fun i => decide (-1 < tau.getD i 0)), peaks⟩) fun s =>
      some (.ok s.peaks)

/-- `np.hstack([self.stddev[:k], self.means[:k], self.amplitudes[:k]])`. -/
def Peaks.first (p : Peaks) (k : ℕ) : List ℝ := p.stddev.take k ++ p.means.take k ++ p.amplitudes.take k

/-- `new_result.fun/prior_result > signif`: dividing by zero gives infinity, or nan for 0/0. -/
noncomputable def noBetter (signif new prior : ℝ) : Bool :=
  if prior = 0 then decide (0 < new) else decide (signif < new / prior)

/-- The loop over `maxpk`, voigtfit.py:78-93, over the remaining values: the number of components and the result. -/
noncomputable def refitLoop (F : Fitter) (signif : ℝ) (p : Peaks) : List ℕ → ℕ → ℝ → MinRes → Py (ℕ × MinRes)
  | [], total, _, result => pure (total, result)
  | maxpk :: rest, _, prior, result => do
    let new ← F.minimize (p.first maxpk)
    if noBetter signif new.fval prior then pure (maxpk - 1, result)
    else if !new.success then pure (maxpk, new)
    else refitLoop F signif p rest maxpk result.fval new

/-- The global re-fit, voigtfit.py:71-97; `W` is `np.max(self.wavelengths)`, taken to be positive. The assertion on the size
of the result is part of the model. -/
noncomputable def refit (F : Fitter) (signif W : ℝ) (p : Peaks) : Py Fit := do
  let result ← F.minimize (p.first 2)
  let (total, result) ← refitLoop F signif p ((List.range (p.stddev.length - 2)).map (· + 3)) (min 2 p.stddev.length) (result.fval * 2) result
  if result.x.length = total * 3 then
    pure ⟨(slice result.x 0 total).map (|·|), (slice result.x total (2 * total)).map (fun m => fmod m W),
      result.x.drop (2 * total)⟩
  else .error .assertionError

/-- `do_fit`, voigtfit.py:49-97, on an object with the given peaks: the peaks it has then and the fit. The tolerance of the
minimiser is part of `F`. -/
noncomputable def do_fit (F : Fitter) (dv tol signif sattau : ℝ) (tau : List ℝ) (peaks : Peaks) (fuel : ℕ) : Run (Peaks × Fit) :=
  Run.andThen (findPeaks F dv tol sattau tau peaks fuel) fun p =>
    Run.andThen (some (refit F signif (((tau.length : ℝ) - 1) * dv) p)) fun f => some (.ok (p, f))

/-! ### Many spectra -/

/-- `get_b_params`, voigtfit.py:211-213. -/
def Fit.b (f : Fit) : List ℝ := f.stddev.map (|·|)

/-- `_SingleProfileHelper`, voigtfit.py:277-298, after the fit, not `verbose`. -/
noncomputable def singleProfile (N : ℝ → ℝ → ℝ) (W close : ℝ) (fuel : ℕ) (f : Fit) : Run (List ℝ × List ℝ) :=
  Run.andThen (get_systems N W close f fuel) fun r => some (.ok (r.1.1, r.2.b))

/-- The results of `pool.map(helper, taus)`, in the order of the spectra, one after the other. -/
noncomputable def mapProfiles (N : ℝ → ℝ → ℝ) (W close : ℝ) (fuel : ℕ) : List Fit → Run (List (List ℝ × List ℝ))
  | [] => some (.ok [])
  | f :: fs => Run.andThen (singleProfile N W close fuel f) fun r =>
      Run.andThen (mapProfiles N W close fuel fs) fun rs => some (.ok (r :: rs))

/-- `get_voigt_systems` with `b_param=True`, voigtfit.py:304-318, which is `get_voigt_fit_params`, voigtfit.py:300-302, for spectra of one length with these fits: all column
densities and all b parameters. Unpacking the results of no spectra raises. -/
noncomputable def get_voigt_systems (N : ℝ → ℝ → ℝ) (W close : ℝ) (fuel : ℕ) (fits : List Fit) : Run (List ℝ × List ℝ) :=
  Run.andThen (mapProfiles N W close fuel fits) fun rs =>
    if rs = [] then some (.error .valueError)
    else some (.ok ((rs.map Prod.fst).flatten, (rs.map Prod.snd).flatten))

end Verif.Voigt
