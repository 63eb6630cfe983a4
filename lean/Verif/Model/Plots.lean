import Verif.Model.Session
import Verif.Model.Construct

/-!
Model of the plots of single spectra, plot_spectra.py:33-119: what is handed to the plotting library, and what the plots leave
behind in the cache. Labels, colours and axis limits are not modelled, except for the limits returned by `plot_density`.
-/

namespace Verif.Plots
open Verif Verif.Np Verif.Store

/-- The points of a curve. -/
abbrev Curve := List (ℝ × ℝ)

/-- `plot_spectrum`, plot_spectra.py:33-46, and `plot_spectrum_raw`, plot_spectra.py:48-66, of a spectrum `tau`: the position of the
maximum, which is returned, and the curve. -/
noncomputable def plot_spectrum (dvbin : ℝ) (tau : List ℝ) (flux : Bool) (offset : ℝ) : Py (ℕ × Curve) := do
  let peak ← argmax tau
  let szt := tau.length / 2
  let tau_l := roll tau ((szt : ℤ) - (peak : ℤ) + Construct.trunc (offset * dvbin))
  let xaxis := (List.range tau.length).map (fun (i : ℕ) => ((i : ℝ) - (szt : ℝ)) * dvbin)
  pure (peak, List.zip xaxis (tau_l.map (fun t => if flux then Real.exp (-t) else t)))

/-- `plot_density`, plot_spectra.py:68-86, of a row `den`: the curve and the limit returned. -/
noncomputable def plot_density (dvbin velfac : ℝ) (den : List ℝ) (thresh : ℝ) : Py (Curve × ℝ) := do
  let ind_m ← argmax den
  let den := roll den (((den.length / 2 : ℕ) : ℤ) - (ind_m : ℤ))
  let phys := dvbin / velfac
  let curve := (List.range den.length).map (fun (i : ℕ) => ((i : ℝ) * phys - (den.length : ℝ) / 2 * phys, den.getD i 0 + 1e-30))
  let ind := (List.range den.length).filter (fun i => decide (thresh < den.getD i 0))
  match ind.head?, ind.getLast? with
  | some first, some last =>
    pure (curve, max |(first : ℝ) * phys - (den.length : ℝ) / 2 * phys - 50| |(last : ℝ) * phys - (den.length : ℝ) / 2 * phys + 50|)
  | _, _ => pure (curve, (den.length : ℝ) * phys)

/-- The elements of `a` where `p` is true replaced by those of `v` in turn. -/
def fillMask (p : ℝ → Bool) : List ℝ → List ℝ → List ℝ
  | [], _ => []
  | a :: as, v => if p a then (match v with | [] => a :: fillMask p as [] | x :: v => x :: fillMask p as v) else a :: fillMask p as v

/-- `a[np.where(p(a))] = v`: one value is used for all elements; otherwise the numbers have to agree. -/
def maskAssign (p : ℝ → Bool) (a v : List ℝ) : Py (List ℝ) :=
  match v with
  | [x] => .ok (a.map (fun y => if p y then x else y))
  | v => if a.countP p = v.length then .ok (fillMask p a v) else .error .valueError

/-- The settings of the object used in `plot_den_to_tau`; `axis` is 1, 2 or 3 for every sightline. -/
structure View where
  env : Env
  nbins : ℕ
  dvbin : ℝ
  axis : List ℕ

/-- Element `[row, j, ax]` of the velocities. -/
noncomputable def velAt (nbins : ℕ) (a : Arr) (row ax j : ℕ) : ℝ := a.getD ((row * nbins + j) * 3 + ax) 0

/-- `a[row, :, ax] -= d`. -/
noncomputable def shiftVel (nbins : ℕ) (a : Arr) (row ax : ℕ) (d : ℝ) : Arr :=
  (List.range a.length).map (fun i => if i / 3 / nbins = row ∧ i % 3 = ax then a.getD i 0 - d else a.getD i 0)

/-- The coordinates of the pixels above the threshold, plot_spectra.py:109-111. -/
noncomputable def coords (v : View) (ind : List ℕ) (imax : ℕ) : Py (List ℝ) := do
  let coord := ind.map (fun (i : ℕ) => ((i : ℝ) - (imax : ℝ)) * v.dvbin)
  let coord ← maskAssign (fun c => decide ((v.nbins : ℝ) / 2 < c)) coord (coord.map (· - (v.nbins : ℝ)))
  maskAssign (fun c => decide (c < -(v.nbins : ℝ) / 2)) coord (coord.map (· + (v.nbins : ℝ)))

/-- `plot_den_to_tau`, plot_spectra.py:88-119, of a sightline `num`: the line drawn for each pixel, given by its two ends. The
velocities are a view into the cached array, so that they are changed there, also if an error follows. -/
noncomputable def plot_den_to_tau (v : View) (elem : String) (ion : ℤ) (num : ℤ) (thresh voff xscale : ℝ) (s : St) :
    Py (List (ℝ × ℝ)) × St :=
  match get_density v.env elem ion false s with
  | (.error e, s1) => (.error e, s1)
  | (.ok dens, s1) =>
    match Np.get (Session.rowsOf v.nbins dens) num with
    | .error e => (.error e, s1)
    | .ok den =>
      match argmax den with
      | .error e => (.error e, s1)
      | .ok imax =>
        let ind := (List.range den.length).filter (fun i => decide (thresh < den.getD i 0))
        match Np.get v.axis num with
        | .error e => (.error e, s1)
        | .ok axis =>
          let ax := axis - 1
          match get_velocity v.env elem ion s1 with
          | (.error e, s2) => (.error e, s2)
          | (.ok r, s2) =>
            match index ((s2.read r).length / (v.nbins * 3)) num with
            | .error e => (.error e, s2)
            | .ok row =>
              let a := s2.read r
              let a := shiftVel v.nbins a row ax (velAt v.nbins a row ax imax - voff)
              let s3 := Session.write s2 r a
              match coords v ind imax with
              | .error e => (.error e, s3)
              | .ok coord => (.ok (List.zipWith (fun cc ii => (cc / xscale, cc + velAt v.nbins a row ax ii)) coord ind), s3)

end Verif.Plots
