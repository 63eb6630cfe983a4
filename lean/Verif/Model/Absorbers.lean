import Verif.Model.Numpy
import Verif.Model.Units
import Mathlib.Analysis.SpecialFunctions.Exp
import Mathlib.Analysis.SpecialFunctions.Pow.Real
import Mathlib.Analysis.SpecialFunctions.Log.Base

/-!
Model of the absorber statistics of `Spectra`: equivalent widths, the column density function, incidence rates and mass
densities (spectra.py:833-861 and 1075-1202). Column densities and optical depths are lists of rows, one per sightline.
-/

namespace Verif.Absorbers
open Verif.Np Verif.Units

/-- `np.arange(start, stop, step)`: a step of zero raises. -/
noncomputable def arange (start stop step : ℝ) : Py (List ℝ) :=
  if step = 0 then .error .zeroDivisionError
  else .ok ((List.range ⌈(stop - start) / step⌉₊).map (fun i : ℕ => start + i * step))

/-- `np.trapz(y, dx=dx)` for one row. -/
noncomputable def trapzDx (dx : ℝ) : List ℝ → ℝ
  | [] => 0
  | [_] => 0
  | x :: y :: ys => dx * (x + y) / 2 + trapzDx dx (y :: ys)

/-- `np.trapz(y, x)`. -/
noncomputable def trapz : List ℝ → List ℝ → ℝ
  | y0 :: y1 :: ys, x0 :: x1 :: xs => (x1 - x0) * (y0 + y1) / 2 + trapz (y1 :: ys) (x1 :: xs)
  | _, _ => 0

/-- `np.histogram(xs, edges)[0]`: edges must not decrease. -/
noncomputable def histogramOf (edges xs : List ℝ) : Py (List ℤ) :=
  if edges.IsChain (· ≤ ·) then
    .ok (histogram (fun i => edges.getD i 0) (edges.length - 1) xs)
  else .error .valueError

/-- `np.histogram(..., density=True)[0]` from the counts and the widths of the bins: without bins it is empty, without counts it is not
a number. -/
noncomputable def normalise (h : List ℤ) (widths : List ℝ) : Option (List ℝ) :=
  if h = [] then some []
  else if h.sum = 0 then none
  else some (h.zipWith (fun (c : ℤ) (w : ℝ) => (c : ℝ) / w / (h.sum : ℝ)) widths)

/-- The wavelength width of a pixel, spectra.py:839-842. -/
noncomputable def pixelWidth (dvbin line : ℝ) : ℝ :=
  let light := light / 1e5
  dvbin / light * line

/-- `equivalent_width`, spectra.py:833-845, for the optical depths of one line. -/
noncomputable def equivalent_width (dvbin line : ℝ) (tau : List (List ℝ)) : List ℝ :=
  tau.map (fun row => trapzDx (pixelWidth dvbin line) (row.map (fun t => -(Real.exp (-t) - 1))))

/-- `eq_width_hist`, spectra.py:847-860: bin centres and the normalised histogram. -/
noncomputable def eq_width_hist (dv : ℝ) (eq_width : List ℝ) : Py (List ℝ × Option (List ℝ)) := do
  let pos := eq_width.filter (fun w => decide (w > 0))
  let lo ← minOf pos
  let hi ← maxOf pos
  let v_table ← arange (Real.logb 10 lo) (Real.logb 10 hi) dv
  let vbin := v_table.tail.zipWith (fun a b => (a + b) / 2) v_table
  let h ← histogramOf v_table (pos.map (Real.logb 10))
  let eqws := normalise h (v_table.tail.zipWith (· - ·) v_table)
  pure (vbin, eqws)

/-- The parameters of a `Spectra` object used here. -/
structure Obj where
  units : UnitSystem
  box : ℝ
  red : ℝ
  hubble : ℝ
  OmegaM : ℝ
  dvbin : ℝ
  discarded : ℝ

/-- The path length of one sightline, spectra.py:1106-1109. -/
noncomputable def Obj.dist (o : Obj) (dX : Bool) : ℝ :=
  if dX then absorption_distance o.units o.box o.red else redshift_distance o.units o.box o.red o.OmegaM

/-- `NHI_table`, spectra.py:1100. -/
noncomputable def nhiTable (minN maxN dlogN : ℝ) : Py (List ℝ) := do
  let t ← arange minN maxN dlogN
  pure (t.map (fun x => (10 : ℝ) ^ x))

/-- `np.round(x)`: halves go to the even neighbour. -/
noncomputable def npRound (x : ℝ) : ℤ :=
  if Int.fract x < 1 / 2 then ⌊x⌋
  else if Int.fract x > 1 / 2 then ⌊x⌋ + 1
  else if ⌊x⌋ % 2 = 0 then ⌊x⌋ else ⌊x⌋ + 1

/-- `cbins`, spectra.py:1114. -/
noncomputable def cbins (close dvbin : ℝ) : ℕ := (max (npRound (close / dvbin)) 1).toNat

/-- The absorbers of one sightline, spectra.py:1115: sums of groups of `c` pixels. -/
noncomputable def groups (c : ℕ) (row : List ℝ) : List ℝ :=
  (List.range (row.length / c)).map (fun i => (slice row (c * i) (c * (i + 1))).sum)

/-- The column densities counted, spectra.py:1110-1118. -/
noncomputable def absorbers (line : Bool) (c : ℕ) (rho : List (List ℝ)) : List ℝ :=
  if line then rho.map List.sum else (rho.map (groups c)).flatten

/-- `column_density_function`, spectra.py:1075-1123: bin centres and values. Bin widths, `dist` and the number of
lines are divisors; the theorems ask that they are not zero. -/
noncomputable def column_density_function (o : Obj) (dlogN minN maxN : ℝ) (line : Bool) (close : ℝ) (dX : Bool)
    (rho : List (List ℝ)) : Py (List ℝ × List ℝ) := do
  let table ← nhiTable minN maxN dlogN
  let center := table.zipWith (fun a b => (a + b) / 2) table.tail
  let width := table.tail.zipWith (· - ·) table
  let tot_lines := (rho.length : ℝ) + o.discarded
  let h ← histogramOf table (absorbers line (cbins close o.dvbin) rho)
  pure (center, h.zipWith (fun (c : ℤ) (w : ℝ) => (c : ℝ) / (w * o.dist dX * tot_lines)) width)

/-- `(col_den > thresh)*(col_den < upthresh)`, spectra.py:1133 and 1187: comparing with `None` raises. -/
noncomputable def inRange (thresh : ℝ) (upthresh : Option ℝ) (col : List ℝ) : Py (List ℝ) :=
  match upthresh with
  | none => .error .typeError
  | some u => .ok (col.filter (fun c => decide (c > thresh ∧ c < u)))

/-- `_rho_abs`, spectra.py:1125-1142, for at least one sightline; `mass` is the atomic mass of the element. -/
noncomputable def rho_abs (o : Obj) (mass thresh : ℝ) (upthresh : Option ℝ) (rho : List (List ℝ)) : Py ℝ := do
  let col_den := rho.map List.sum
  let n : ℝ := col_den.length
  let HIden ← if thresh > 0 ∨ upthresh.isSome then
      (inRange thresh upthresh col_den).map (fun l => l.sum / n)
    else pure (mean col_den)
  let HIden := HIden * (n / (n + 1 * o.discarded))
  let HIden := mass * protonmass * HIden / (1 + o.red) ^ 2
  let length := o.box * o.units.UnitLength_in_cm / o.hubble
  pure (HIden / length)

/-- `rho_DLA`, spectra.py:1144-1152. -/
noncomputable def rho_DLA (o : Obj) (massH thresh : ℝ) (rho : List (List ℝ)) : Py ℝ := do
  let r ← rho_abs o massH thresh none rho
  pure (r / (0.01 * o.units.UnitMass_in_g / o.units.UnitLength_in_cm ^ 3))

/-- `omega_abs`, spectra.py:1154-1163. -/
noncomputable def omega_abs (o : Obj) (mass thresh upthresh : ℝ) (rho : List (List ℝ)) : Py ℝ := do
  let r ← rho_abs o mass thresh (some upthresh) rho
  pure (r / rho_crit o.hubble)

/-- `omega_abs_cddf`, spectra.py:1165-1180: whole sightlines, `close` and the binning are the defaults. -/
noncomputable def omega_abs_cddf (o : Obj) (mass thresh upthresh : ℝ) (rho : List (List ℝ)) : Py ℝ := do
  let r ← column_density_function o 0.2 (Real.logb 10 thresh) (Real.logb 10 upthresh) true 50 true rho
  let moment := r.2.zipWith (· * ·) r.1
  let h100 := h100 * o.hubble
  pure (mass * protonmass / light * h100 / rho_crit o.hubble * trapz moment r.1)

/-- `line_density`, spectra.py:1182-1190: without sightlines the division by their number raises. -/
noncomputable def line_density (o : Obj) (thresh upthresh : ℝ) (rho : List (List ℝ)) : Py ℝ := do
  let col_den := rho.map List.sum
  let sel ← inRange thresh (some upthresh) col_den
  let n : ℝ := col_den.length
  if col_den.length = 0 then .error .zeroDivisionError
  else pure ((1 * sel.length / n) * (n / (n + 1 * o.discarded)) / absorption_distance o.units o.box o.red)

/-- `line_density_eq_w`, spectra.py:1192-1202, from the equivalent widths; without any sightlines the division raises. -/
noncomputable def line_density_eq_w (o : Obj) (thresh : ℝ) (eq_width : List ℝ) : Py ℝ :=
  let frac : ℝ := 1 * (eq_width.filter (fun w => decide (w > thresh))).length
  let n : ℝ := eq_width.length
  if n + 1 * o.discarded = 0 then .error .zeroDivisionError
  else .ok (frac / (n + 1 * o.discarded) / absorption_distance o.units o.box o.red)

end Verif.Absorbers
