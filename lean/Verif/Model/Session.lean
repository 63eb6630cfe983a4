import Verif.Model.Store
import Verif.Model.FilterTau
import Verif.Model.FluxPower3D

/-!
Model of a session with a `Spectra` object: array queries (Model/Store) mixed with the flux statistics of spectra.py:1272-1323, which work
on the cached array of optical depths itself.
-/

namespace Verif.Session
open Verif Verif.Np Verif.Store

/-- The attributes of the object the statistics use, the external functions, and the bound on the loops. -/
structure Conf where
  env : Env
  nbins : ℕ
  vmax : ℝ
  spec_res : ℝ
  box : ℝ
  fft : FluxPower3D.FFT
  fuel : ℕ

/-- The two dimensional array whose flattened contents are `a`: rows of `n` elements. -/
def rowsOf (n : ℕ) (a : Arr) : List (List ℝ) := (List.range (a.length / n)).map (fun i => (a.drop (i * n)).take n)

/-- What a call returns: arrays of numbers, or something that is not a number. -/
inductive Out where
  | nan
  | vals (v : List (List ℝ))

/-- The statistics: mean flux, flux PDF, one and three dimensional flux power. -/
inductive Kind where
  | mean_flux
  | flux_pdf (nbins : ℕ) (desired : Option ℝ)
  | power_1D (desired : Option ℝ) (window : Bool)
  | power_3D (desired : Option ℝ) (dk : Option ℝ) (Nmu : ℕ)

/-- A call of a statistic. -/
structure Stat where
  elem : String
  ion : ℤ
  line : ℤ
  tau_thresh : Option ℝ
  kind : Kind

/-- The scale for the target: `scale = 1.` or `mean_flux(tau, mean_flux_desired)`, fluxstatistics.py:43-45, 83-85. The outer `none` is a
loop that does not end, the inner one a scale that is not finite. -/
noncomputable def scaleFor (fuel : ℕ) (rows : List (List ℝ)) (desired : Option ℝ) : Option (Option ℝ) :=
  match desired with
  | none => some (some 1)
  | some d => MeanFlux.mean_flux rows.flatten d 1e-5 1e30 fuel

/-- The statistics on the (filtered) array, spectra.py:1276, 1282, 1297-1301, 1321-1323: the new contents of the array and the result. -/
noncomputable def evalKind (c : Conf) (kind : Kind) (rows : List (List ℝ)) : Option (List (List ℝ) × Py Out) :=
  match kind with
  | .mean_flux => some (rows, .ok (.vals [[mean (rows.flatten.map (fun t => Real.exp (-t)))]]))
  | .flux_pdf nbins desired =>
    match scaleFor c.fuel rows desired with
    | none => none
    | some none => some (rows, .ok .nan)
    | some (some scale) => some (rows, .ok (match FluxStats.flux_pdf rows.flatten nbins scale with
      | none => .nan
      | some r => .vals [r.1, r.2]))
  | .power_1D desired window =>
    if desired.isSome ∧ window = true ∧ c.spec_res > 0 then some (rows, .error .valueError)
    else match scaleFor c.fuel rows desired with
    | none => none
    | some none => some (rows, .ok .nan)
    | some (some scale) => some (rows, .ok (.vals
        [(List.range (c.nbins / 2)).map (fun i => FluxStats.kbin c.vmax c.nbins (i + 1)),
         (List.range (c.nbins / 2)).map (fun i => FluxStats.flux_power_windowed rows c.nbins c.vmax c.spec_res scale desired window (i + 1))]))
  | .power_3D desired dk Nmu =>
    (FluxPower3D.flux_power_3d c.fft rows c.nbins c.box desired dk Nmu c.fuel).map (fun r =>
      (r.1, r.2.map (fun p => .vals (p.k.drop 1 ++ p.mu.drop 1 ++ p.power.drop 1))))

/-- A statistic on the array of optical depths: filter, then evaluate. The filter changes the array even if the statistic raises. An
exception inside the filter, other than its final assertion, needs an array without pixels, and leaves it as it is. -/
noncomputable def evalStat (c : Conf) (st : Stat) (rows : List (List ℝ)) : Option (List (List ℝ) × Py Out) :=
  match FilterTau.filterTau c.nbins st.tau_thresh c.fuel rows with
  | none => none
  | some (.error e) => some (rows, .error e)
  | some (.ok (rows', .error e)) => some (rows', .error e)
  | some (.ok (rows', .ok _)) => evalKind c st.kind rows'

/-- An assignment to the elements of the array behind a reference. -/
def write (s : St) (r : ℕ) (a : Arr) : St := { s with heap := s.heap.set r a }

/-- `get_mean_flux`, `get_flux_pdf`, `get_flux_power_1D`, `get_flux_power_3D`, spectra.py:1272-1323. `none`: does not return. -/
noncomputable def Stat.run (c : Conf) (st : Stat) (s : St) : Option (Py Out × St) :=
  match get_tau c.env st.elem st.ion st.line false s with
  | (.error e, s1) => some (.error e, s1)
  | (.ok r, s1) =>
    match evalStat c st (rowsOf c.nbins (s1.read r)) with
    | none => none
    | some (rows', out) => some (out, write s1 r rows'.flatten)

/-- A call of the API. -/
inductive Call where
  | query (q : Query)
  | stat (st : Stat)

/-- What a call does: result and new state; `none` if it does not return. -/
noncomputable def Call.run (c : Conf) : Call → St → Option (Py Out × St)
  | .query q, s => some ((q.answer c.env s).map (fun a => .vals [a]), (q.run c.env s).2)
  | .stat st, s => st.run c s

/-- The result of a call. -/
noncomputable def Call.answer (c : Conf) (call : Call) (s : St) : Option (Py Out) := (call.run c s).map Prod.fst

/-- The state after a sequence of calls, all of which return (or raise). -/
noncomputable def history (c : Conf) : List Call → St → Option St
  | [], s => some s
  | call :: calls, s => (call.run c s).bind (fun r => history c calls r.2)

end Verif.Session
