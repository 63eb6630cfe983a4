import Verif.Model.Numpy
import Verif.Model.CRes
import Mathlib.Analysis.SpecialFunctions.Exp
import Mathlib.Analysis.SpecialFunctions.Trigonometric.Basic
import Mathlib.Analysis.SpecialFunctions.Complex.Circle

/-!
Model of the flux statistics: `flux_pdf`, `flux_power` (fluxstatistics.py:41-108, 197-216) and the
histogram of the stand-alone program (cextract/statistic.c:235-254).
-/

namespace Verif.FluxStats
open Verif.Np

/-- `bins = np.arange(nbins+1)/(1.*nbins)`, fluxstatistics.py:47. -/
noncomputable def pdfEdge (nbins : ℕ) (i : ℕ) : ℝ := (i : ℝ) / nbins

/-- `np.histogram(flux, bins=bins, density=True)[0]`: counts divided by bin widths and by the total count.
`none` when no element is in range: 0/0 is not a number. -/
noncomputable def density (edge : ℕ → ℝ) (n : ℕ) (xs : List ℝ) : Option (List ℝ) :=
  let h := histogram edge n xs
  if h.sum = 0 then none
  else some ((List.range n).zipWith (fun i (c : ℤ) => (c : ℝ) / (edge (i + 1) - edge i) / (h.sum : ℝ)) h)

/-- `flux_pdf`, fluxstatistics.py:41-50, for the scale found by `mean_flux` (or 1) and at least one bin: bin
centres and density. -/
noncomputable def flux_pdf (taus : List ℝ) (nbins : ℕ) (scale : ℝ) : Option (List ℝ × List ℝ) :=
  let flux := taus.map (fun t => Real.exp (-scale * t))
  (density (pdfEdge nbins) nbins flux).map
    (fun d => ((List.range nbins).map (fun i => (pdfEdge nbins (i + 1) + pdfEdge nbins i) / 2), d))

/-- The bin of one pixel in `calc_pdf`, statistic.c:242-246; `PBINS` is 20. -/
noncomputable def cBin (pbins : ℕ) (scale tau : ℝ) : ℤ :=
  let t := Real.exp (-scale * tau) * pbins
  if t ≥ pbins - 1 then (pbins : ℤ) - 1 else ⌊t⌋

/-- `calc_pdf`, statistic.c:235-254, on all `NumLos*nbins` pixels. -/
noncomputable def calc_pdf (pbins : ℕ) (scale : ℝ) (taus : List ℝ) : CRes (List ℝ) := do
  let h ← taus.foldlM (fun h t => addAt h (cBin pbins scale t) 1) (List.replicate pbins 0)
  pure (h.map (fun c => c / taus.length * pbins))

/-- The discrete Fourier transform `np.fft.rfft(x)[k]`. -/
noncomputable def rfft (x : List ℝ) (k : ℕ) : ℂ :=
  ∑ j ∈ Finset.range x.length, (x.getD j 0 : ℂ) * Complex.exp (-(2 * Real.pi * j * k / x.length) * Complex.I)

/-- `_powerspectrum` of one row, fluxstatistics.py:52-59, element `k`. -/
noncomputable def powerspectrum (x : List ℝ) (k : ℕ) : ℝ := ‖rfft x k‖ ^ 2 / (x.length : ℝ) ^ 2

/-- `dflux` of one row, fluxstatistics.py:96. -/
noncomputable def dflux (scale meanFlux : ℝ) (row : List ℝ) : List ℝ :=
  row.map (fun t => Real.exp (-scale * t) / meanFlux - 1)

/-- `end = min((i+1)*nspec//10, nspec)` and the batch `tau[i*nspec//10:end]`, fluxstatistics.py:95-96. -/
def batch (rows : List (List ℝ)) (i : ℕ) : List (List ℝ) :=
  slice rows (i * rows.length / 10) (min ((i + 1) * rows.length / 10) rows.length)

/-- The mean flux used, fluxstatistics.py:86-90: the target if given, else the mean of `exp(-tau)`. -/
noncomputable def usedMeanFlux (rows : List (List ℝ)) (desired : Option ℝ) : ℝ :=
  desired.getD (mean (rows.flatten.map (fun t => Real.exp (-t))))

/-- `flux_power`, fluxstatistics.py:71-104, before the window: element `k` of `mean_flux_power`. `scale` is
the result of `mean_flux` when a target is given, else 1. -/
noncomputable def flux_power (rows : List (List ℝ)) (vmax scale : ℝ) (desired : Option ℝ) (k : ℕ) : ℝ :=
  (List.range 10).foldl
    (fun acc i => acc +
      vmax * ((batch rows i).map (fun row => powerspectrum (dflux scale (usedMeanFlux rows desired) row) k)).sum) 0
    / rows.length

/-- `_flux_power_bins`, fluxstatistics.py:197-216: `rfftfreq` is `k/npix`. -/
noncomputable def kbin (vmax : ℝ) (npix k : ℕ) : ℝ := (k : ℝ) / npix * (2 * Real.pi * npix / vmax)

/-- `np.sinc(x)`. -/
noncomputable def sinc (x : ℝ) : ℝ := if x = 0 then 1 else Real.sin (Real.pi * x) / (Real.pi * x)

/-- `_window_function`, fluxstatistics.py:61-69. -/
noncomputable def window (k R dv : ℝ) : ℝ :=
  Real.exp (-0.5 * (k * (R / (2 * Real.sqrt (2 * Real.log 2)))) ^ 2) * sinc (k * dv / 2 / Real.pi)

/-- The result of `flux_power`, fluxstatistics.py:105-108, element `k`. -/
noncomputable def flux_power_windowed (rows : List (List ℝ)) (npix : ℕ) (vmax spec_res scale : ℝ)
    (desired : Option ℝ) (win : Bool) (k : ℕ) : ℝ :=
  if win = true ∧ spec_res > 0 then
    flux_power rows vmax scale desired k / window (kbin vmax npix k) spec_res (vmax / npix) ^ 2
  else flux_power rows vmax scale desired k

end Verif.FluxStats
