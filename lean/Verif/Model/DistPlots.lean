import Verif.Model.Absorbers
import Verif.Model.WeightMean

/-!
Model of the plots of distributions and correlations: plot_spectra.py:22-31 and 121-202, haloassigned_spectra.py:222-273. A plot
is the data handed to the plotting library. Labels, colours, axis limits and what is printed are not modelled. Numbers which
are infinite or not a number are `none`; the library draws no point for them.
-/

namespace Verif.DistPlots
open Verif.Np Verif.Absorbers

/-- `np.linspace(a, b, n)`. -/
noncomputable def linspace (a b : ℝ) (n : ℕ) : List ℝ := (List.range n).map (fun i : ℕ => a + i * ((b - a) / ((n : ℝ) - 1)))

/-- The middles of bins, plot_spectra.py:151, 173 and 192-193, haloassigned_spectra.py:238. -/
noncomputable def middles (bins : List ℝ) : List ℝ := bins.zipWith (fun a b => (a + b) / 2) bins.tail

/-- `np.log10` of a number of at least 0. -/
noncomputable def log10 : Option ℝ → Option ℝ
  | some x => if 0 < x then some (Real.logb 10 x) else none
  | none => none

/-- `np.histogram(xs, bins, density=True)[0]` against the middles of the bins, plot_spectra.py:150-154 and 172-175: numbers which
are not finite are in no bin. -/
noncomputable def plotDist (bins : List ℝ) (xs : List (Option ℝ)) : Py (List ℝ × Option (List ℝ)) := do
  let h ← histogramOf bins (xs.filterMap id)
  pure (middles bins, normalise h (bins.tail.zipWith (· - ·) bins))

/-- `_plot_metallicity`, plot_spectra.py:148-154. -/
noncomputable def plotMetallicity (met : List (Option ℝ)) (nbins : ℕ) : Py (List ℝ × Option (List ℝ)) :=
  plotDist (linspace (-3) 0 nbins) (met.map log10)

/-- `plot_metallicity`, plot_spectra.py:156-159, from the densities of metals and of hydrogen. -/
noncomputable def plot_metallicity (MM HH : List (List ℝ)) (npix : ℕ) (dvbin solarz : ℝ) (nbins : ℕ) (width : ℝ) :
    Py (List ℝ × Option (List ℝ)) := do
  let met ← WeightMean.get_metallicity MM HH npix dvbin solarz width
  plotMetallicity met nbins

/-- `plot_species_metallicity`, plot_spectra.py:161-164. -/
noncomputable def plot_species_metallicity (elem : String) (MM HH : List (List ℝ)) (nbins : ℕ) : Py (List ℝ × Option (List ℝ)) := do
  let met ← WeightMean.get_ion_metallicity elem MM HH
  plotMetallicity met nbins

/-- The logarithm of `diff`, plot_spectra.py:168-174. -/
noncomputable def logRatio (m i : Option ℝ) : Option ℝ :=
  match log10 i, log10 m with
  | some i, some m => some (i - m)
  | _, _ => none

/-- `plot_ion_corr`, plot_spectra.py:166-175, from the two metallicities of every sightline: without sightlines the maximum
that is printed raises. -/
noncomputable def plot_ion_corr (met ionMet : List (Option ℝ)) (nbins : ℕ) : Py (List ℝ × Option (List ℝ)) :=
  if met = [] then .error .valueError
  else plotDist (linspace (-1) 1 nbins) (List.zipWith logRatio met ionMet)

/-- `plot_eq_width`, plot_spectra.py:22-31. -/
noncomputable def plot_eq_width (dv : ℝ) (eq_width : List ℝ) : Py (List ℝ × Option (List ℝ)) := eq_width_hist dv eq_width

/-- `plot_cddf`, plot_spectra.py:135-144. -/
noncomputable def plot_cddf (o : Obj) (dlogN minN maxN : ℝ) (moment dX line : Bool) (rho : List (List ℝ)) : Py (List ℝ × List ℝ) := do
  let (NHI, f_N) ← column_density_function o dlogN (minN - 1) (maxN + 1) line 50 dX rho
  pure (NHI, if moment then f_N.zipWith (· * ·) NHI else f_N)

/-- `plot_eq_width_vs_col_den`, plot_spectra.py:177-183: the points, `none` for those that cannot be drawn. -/
noncomputable def plot_eq_width_vs_col_den (dvbin lambda : ℝ) (tau colden : List (List ℝ)) : List (Option (ℝ × ℝ)) :=
  List.zipWith (fun w c => (log10 (some w)).map (fun w => (w, c))) (equivalent_width dvbin lambda tau) (colden.map List.sum)

/-! ### Correlations -/

/-- The range of a coordinate when none is given to `np.histogram2d`. -/
noncomputable def autoRange (xs : List ℝ) : ℝ × ℝ :=
  match minOf xs, maxOf xs with
  | .ok lo, .ok hi => if lo = hi then (lo - 0.5, hi + 0.5) else (lo, hi)
  | _, _ => (0, 1)

/-- The bin of a value: `searchsorted(edges, x, side='right') - 1`, where the value of the last edge belongs to the last bin. -/
noncomputable def binOf (edges : List ℝ) (x : ℝ) : ℤ :=
  (edges.countP (fun e => decide (e ≤ x)) : ℤ) - 1 - (if edges.getLast? = some x then 1 else 0)

/-- A point with finite coordinates; others raise. -/
def finite : Option ℝ × Option ℝ → Py (ℝ × ℝ)
  | (some x, some y) => .ok (x, y)
  | _ => .error .valueError

/-- `np.histogram2d(xs, ys, bins=n)`: edges and counts, row `i` for bin `i` of `xs`. Values which are not finite raise. -/
noncomputable def histogram2d (pts : List (Option ℝ × Option ℝ)) (n : ℕ) : Py (List ℝ × List ℝ × List (List ℕ)) := do
  let ps ← pts.mapM finite
  let rx := autoRange (ps.map Prod.fst)
  let ry := autoRange (ps.map Prod.snd)
  let xedges := linspace rx.1 rx.2 (n + 1)
  let yedges := linspace ry.1 ry.2 (n + 1)
  pure (xedges, yedges, (List.range n).map (fun i : ℕ => (List.range n).map (fun j : ℕ =>
    ps.countP (fun p => decide (binOf xedges p.1 = (i : ℤ) ∧ binOf yedges p.2 = (j : ℤ))))))

/-- `_plot_2d_contour`, plot_spectra.py:185-202, for points with coordinates of at least 0: the middles of the bins, the
counts, and the lowest contour. -/
noncomputable def plot_2d_contour (numLos : ℕ) (pts : List (ℝ × ℝ)) (nbins : ℕ) (ylog xlog : Bool) (sample : ℝ) :
    Py (List ℝ × List ℝ × List (List ℕ) × ℝ) := do
  let pts := pts.map (fun p => (if xlog then log10 (some p.1) else some p.1, if ylog then log10 (some p.2) else some p.2))
  let (xe, ye, H) ← histogram2d pts nbins
  let xbins := (middles xe).map (fun x => if xlog then (10 : ℝ) ^ x else x)
  let ybins := (middles ye).map (fun y => if ylog then (10 : ℝ) ^ y else y)
  pure (xbins, ybins, H, numLos / sample * 0.15)

/-- The density and the mean temperature of a sightline, plot_spectra.py:123-127 and 130; `none` without gas. -/
noncomputable def meanTemp (temp den : List ℝ) : Option (ℝ × ℝ) :=
  let den := den.map (fun d => if d < 1e-6 then 0 else d)
  if den.sum = 0 then none else some (den.sum, (temp.zipWith (· * ·) den).sum / den.sum)

/-- The sightlines drawn, plot_spectra.py:128-130. -/
noncomputable def tempPoints (temp den : List (List ℝ)) : List (ℝ × ℝ) :=
  (List.zipWith meanTemp temp den).filterMap (fun p => p.bind (fun p => if p.2 < 1e5 then some p else none))

/-- `plot_temp`, plot_spectra.py:121-133. -/
noncomputable def plot_temp (numLos : ℕ) (temp den : List (List ℝ)) : Py (List ℝ × List ℝ × List (List ℕ) × ℝ) :=
  plot_2d_contour numLos (tempPoints temp den) 40 false true 300

/-! ### By halo -/

/-- `_plot_xx_vs_mass`, haloassigned_spectra.py:266-273, from the host of every sightline (-1 for none) and the virial velocities
of all halos. -/
noncomputable def plot_xx_vs_mass (halo : List ℤ) (virial xx : List ℝ) (log : Bool) :
    Py (List ℝ × List ℝ × List (List ℕ) × ℝ) := do
  let sel := (halo.zip xx).filter (fun p => decide (0 < p.1))
  let pts ← sel.mapM (fun p => do
    let v ← get virial p.1
    pure (v + 0.1, p.2))
  plot_2d_contour halo.length pts 10 log true 40

/-- The bins of the breakdown, haloassigned_spectra.py:231-237: for logarithmic bins a value of 0 raises. -/
noncomputable def valueTable (log : Bool) (lo hi dv : ℝ) : Py (List ℝ) :=
  if log then
    if lo ≤ 0 then .error .valueError
    else (arange (Real.logb 10 lo) (Real.logb 10 hi) dv).map (fun t => t.map (fun x => (10 : ℝ) ^ x))
  else arange lo hi dv

/-- The curve of one class, haloassigned_spectra.py:246-248, from the values and the virial velocities of the sightlines with a
host. -/
noncomputable def classCurve (v_table : List ℝ) (vhist : List ℤ) (hosted : List (ℝ × ℝ)) (c : ℝ × ℝ) : Py (List ℝ) := do
  let vhist2 ← histogramOf v_table ((hosted.filter (fun p => decide (c.1 < p.2 ∧ p.2 < c.2))).map Prod.fst)
  pure (vhist2.zipWith (fun (a b : ℤ) => (a : ℝ) / (1 * (b : ℝ))) vhist)

/-- `_plot_breakdown`, haloassigned_spectra.py:222-248, from the value and the host of each sightline selected: the middles of the
bins and a curve for each class `(low, high)` of virial velocities. There are three colours, so a fourth class raises. -/
noncomputable def plot_breakdown (virial : List ℝ) (sel : List (ℝ × ℤ)) (classes : List (ℝ × ℝ)) (dv : ℝ) (log : Bool) :
    Py (List ℝ × List (List ℝ)) := do
  let hosted ← (sel.filter (fun p => decide (0 < p.2))).mapM (fun p => do
    let v ← get virial p.2
    pure (p.1, v))
  let lo ← minOf (sel.map Prod.fst)
  let hi ← maxOf (sel.map Prod.fst)
  let v_table ← valueTable log lo hi dv
  let vhist ← histogramOf v_table (sel.map Prod.fst)
  let vhist := vhist.map (fun c => if c = 0 then 1 else c)
  if 3 < classes.length then .error .indexError
  else do
    let curves ← classes.mapM (classCurve v_table vhist hosted)
    pure (middles v_table, curves)

end Verif.DistPlots
