import Verif.Model.Numpy
import Mathlib.Analysis.SpecialFunctions.Log.Basic

/-!
Model of the optical depth filter, spectra.py:1219-1270.
-/

namespace Verif.FilterTau
open Verif.Np

/-- `while tt[maxx-j] > newthresh: tt[maxx-j] = taueff; j += 1`, spectra.py:1239-1242. -/
noncomputable def leftLoop (maxx : ℤ) (newthresh taueff : ℝ) (fuel : ℕ) (tt : List ℝ) : Run (List ℝ × ℤ) :=
  whileRun (fun s => (get s.1 (maxx - s.2)).map (fun x => decide (x > newthresh)))
    (fun s => some ((set s.1 (maxx - s.2) taueff).map (fun t => (t, s.2 + 1)))) fuel (tt, 0)

/-- The wrap-around of `j`, spectra.py:1245-1246 and 1250-1251. -/
def wrapJ (nbins : ℕ) (maxx j : ℤ) : ℤ := if maxx + j ≥ nbins then j - nbins else j

/-- `while tt[maxx+j] > newthresh: ...`, spectra.py:1244-1251. -/
noncomputable def rightLoop (nbins : ℕ) (maxx : ℤ) (newthresh taueff : ℝ) (fuel : ℕ) (tt : List ℝ) :
    Run (List ℝ × ℤ) :=
  whileRun (fun s => (get s.1 (maxx + s.2)).map (fun x => decide (x > newthresh)))
    (fun s => some ((set s.1 (maxx + s.2) taueff).map (fun t => (t, wrapJ nbins maxx (s.2 + 1))))) fuel
    (tt, wrapJ nbins maxx 1)

/-- One pass of the outer loop, spectra.py:1235-1252. -/
noncomputable def pass (nbins : ℕ) (newthresh taueff : ℝ) (fuel : ℕ) (s : List ℝ × ℤ) : Run (List ℝ × ℤ) :=
  Run.andThen (some (argmax s.1)) fun maxx =>
    (leftLoop maxx newthresh taueff fuel s.1).andThen fun l =>
      (rightLoop nbins maxx newthresh taueff fuel l.1).andThen fun r => some (.ok (r.1, s.2 + l.2 + r.2))

/-- `_filter_single_tau_complex`, spectra.py:1219-1252; every loop may run `fuel` times. The array is changed
in place; the result is its new contents and `tot`. -/
noncomputable def filterSingle (nbins : ℕ) (taueff tau_thresh thresh2 : ℝ) (fuel : ℕ) (tt : List ℝ) :
    Run (List ℝ × ℤ) :=
  whileRun (fun s => (maxOf s.1).map (fun m => decide (m > tau_thresh)))
    (pass nbins (taueff + thresh2) taueff fuel) fuel (tt, 0)

/-- `-1*np.log(np.mean(np.exp(-tau)))`, spectra.py:1260, over all pixels of all sightlines. -/
noncomputable def effective (tau : List (List ℝ)) : ℝ := -1 * Real.log (mean (tau.flatten.map (fun t => Real.exp (-t))))

/-- The loop over the sightlines above the threshold, spectra.py:1258-1267; a sightline is selected by its
maximum before the loop. -/
noncomputable def filterRows (nbins : ℕ) (taueff tau_thresh : ℝ) (fuel : ℕ) : List (List ℝ) → Run (List (List ℝ))
  | [] => some (.ok [])
  | row :: rows =>
    Run.andThen (some (maxOf row)) fun m =>
      (if m > tau_thresh then (filterSingle nbins taueff tau_thresh 0.25 fuel row).andThen fun r => some (.ok r.1)
       else some (.ok row)).andThen fun row' =>
        (filterRows nbins taueff tau_thresh fuel rows).andThen fun rows' => some (.ok (row' :: rows'))

/-- `_filter_tau`, spectra.py:1254-1270. The caller's array is changed in place: the new contents, and
whether the final assertion holds. -/
noncomputable def filterTau (nbins : ℕ) (tau_thresh : Option ℝ) (fuel : ℕ) (tau : List (List ℝ)) :
    Run (List (List ℝ) × Py Unit) :=
  match tau_thresh with
  | none => some (.ok (tau, .ok ()))
  | some th =>
    (filterRows nbins (effective tau) th fuel tau).andThen fun rows =>
      Run.andThen (some (maxOf rows.flatten)) fun m =>
        some (.ok (rows, if m < th * 1.01 then .ok () else .error .assertionError))

end Verif.FilterTau
