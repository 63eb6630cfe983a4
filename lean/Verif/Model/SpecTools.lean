import Verif.Model.Numpy
import Mathlib.Analysis.SpecialFunctions.Exp

/-!
Model of small tools on spectra: rolling (spec_utils.py:27-43), projected positions (spectra.py:1204-1217), the choice of the
observed line (spectra.py:895-943), noise and continuum errors (spectra.py:374-432) and renormalised flux
(spectra.py:1411-1449).
-/

namespace Verif.SpecTools
open Verif.Np

/-- `_roll_one_spectra`, spec_utils.py:37-43. -/
noncomputable def roll_one (tau_l : List ℝ) : Py (ℤ × List ℝ) := do
  let ind_m ← argmax tau_l
  let r : ℤ := (tau_l.length / 2 : ℕ) - (ind_m : ℤ)
  pure (r, roll tau_l r)

/-- `get_rolled_spectra`, spec_utils.py:27-35: unpacking the results of no spectra raises. The two assertions on shapes hold
for rows of one length and are left out. -/
noncomputable def get_rolled_spectra (tau : List (List ℝ)) : Py (List ℤ × List (List ℝ)) := do
  let rs ← tau.mapM roll_one
  if rs = [] then .error .valueError else pure rs.unzip

/-- A position. -/
structure Pos3 where
  x : ℝ
  y : ℝ
  z : ℝ

/-- `get_spectra_proj_pos`, spectra.py:1204-1217. The mean of the axes is compared with the first one. -/
noncomputable def get_spectra_proj_pos (axis : List ℤ) (cofm : List Pos3) : Py (List (ℝ × ℝ)) :=
  match axis with
  | [] => .error .indexError
  | a :: as =>
    if ((a :: as).sum : ℝ) / (a :: as).length ≠ a ∨ a ≠ (a :: as).getLast (by simp) then .error .valueError
    else if a = 1 then .ok (cofm.map (fun p => (p.y, p.z)))
    else if a = 2 then .ok (cofm.map (fun p => (p.x, p.z)))
    else if a = 3 then .ok (cofm.map (fun p => (p.x, p.y)))
    else .error .unboundLocalError

/-- The line chosen for one sightline, spectra.py:922-939, from the peak optical depths of the lines. -/
noncomputable def chooseLine (maxtaus : List ℝ) : Py ℕ := do
  let ind := maxtaus.filter (fun m => decide (m < 3 ∧ m > 0.1))
  let m ← if ind ≠ [] then maxOf ind
    else
      let ind2 := maxtaus.filter (fun m => decide (m > 0.1))
      if ind2 ≠ [] then minOf ind2 else maxOf maxtaus
  pure (maxtaus.findIdx (fun x => decide (x = m)))

/-- `get_observer_tau`, spectra.py:895-943, for one sightline when nothing is cached: `taus` are the optical depths of the
lines of the ion and `smooth` the instrumental broadening of a spectrum. -/
noncomputable def observerTau (smooth : List ℝ → List ℝ) (taus : List (List ℝ)) : Py (List ℝ) := do
  let maxtaus ← taus.mapM (fun t => maxOf (smooth t))
  let line ← chooseLine maxtaus
  get taus line

/-- The random number generator: `np.random.seed(s)` sets the state, and `np.random.normal(0, sigma)` draws a number and
moves on. A negative seed raises. -/
structure Rng where
  State : Type
  seed : ℕ → State
  normal : ℝ → State → ℝ × State

/-- `np.random.seed(s)`. -/
def Rng.seedWith (g : Rng) (s : ℤ) : Py g.State := if s < 0 then .error .valueError else .ok (g.seed s.toNat)

/-- `np.random.normal(0, sigma, n)`; a negative sigma raises. -/
def Rng.draws (g : Rng) (sigma : ℝ) : ℕ → g.State → List ℝ × g.State
  | 0, s => ([], s)
  | n + 1, s =>
    let r := g.normal sigma s
    let rest := g.draws sigma n r.2
    (r.1 :: rest.1, rest.2)

/-- `flux += noise` on rows of `nbins` pixels. -/
noncomputable def addRow (row noise : List ℝ) : Py (List ℝ) :=
  if row.length = noise.length then .ok (row.zipWith (· + ·) noise) else .error .valueError

/-- The noise of one sightline, spectra.py:391-392 and 395-396. A signal to noise ratio of zero (an infinite sigma) is not
modelled. -/
noncomputable def noiseOf (g : Rng) (snr : List ℝ) (nbins : ℕ) (num : ℤ) : Py (List ℝ × g.State) := do
  let st ← g.seedWith num
  let s ← get snr num
  if 1 / s < 0 then .error .valueError else pure (g.draws (1 / s) nbins st)

/-- The loop over sightlines, spectra.py:394-398: new flux, noise and generator state. -/
noncomputable def noiseLoop (g : Rng) (snr : List ℝ) (nbins : ℕ) : ℕ → List (List ℝ) → List ℝ → g.State →
    Py (List (List ℝ) × List ℝ × g.State)
  | _, [], acc, st => .ok ([], acc, st)
  | ii, row :: rows, acc, _ => do
    let n ← noiseOf g snr nbins ii
    let row' ← addRow row n.1
    let r ← noiseLoop g snr nbins (ii + 1) rows (acc ++ n.1) n.2
    pure (row' :: r.1, r.2)

/-- The flux argument: one spectrum or an array of spectra. -/
inductive FluxArg where
  | one (row : List ℝ)
  | many (rows : List (List ℝ))

/-- `add_noise`, spectra.py:374-399: new flux, the returned noise array, and the new state of the generator. -/
noncomputable def add_noise (g : Rng) (nbins : ℕ) (snr : List ℝ) (spec_num : ℤ) (st : g.State) :
    FluxArg → Py (FluxArg × List ℝ × g.State)
  | .one row => do
    let n ← noiseOf g snr nbins spec_num
    let row' ← addRow row n.1
    pure (.one row', [], n.2)
  | .many [row] => do
    let n ← noiseOf g snr nbins spec_num
    let row' ← addRow row n.1
    pure (.many [row'], [], n.2)
  | .many rows => do
    let r ← noiseLoop g snr nbins 0 rows [] st
    pure (.many r.1, r.2)

/-- `normal` until the result is within the limits, spectra.py:418-421 and 427-429. -/
noncomputable def deltaLoop (g : Rng) (l_delta u_delta sigma : ℝ) (fuel : ℕ) (st : g.State) : Run (ℝ × g.State) :=
  whileRun (fun s => .ok (decide (s.1 < l_delta ∨ s.1 > u_delta))) (fun s => some (.ok (g.normal sigma s.2))) fuel
    (g.normal sigma st)

/-- The continuum error of one sightline, spectra.py:417-421 and 426-429. -/
noncomputable def deltaOf (g : Rng) (CE : List ℝ) (l_delta u_delta : ℝ) (fuel : ℕ) (num : ℤ) : Run (ℝ × g.State) :=
  Run.andThen (some (g.seedWith (2 * num))) fun st =>
    Run.andThen (some (get CE num)) fun s =>
      if s < 0 then some (.error .valueError) else deltaLoop g l_delta u_delta s fuel st

/-- The loop over sightlines, spectra.py:424-430. -/
noncomputable def contLoop (g : Rng) (CE : List ℝ) (l_delta u_delta : ℝ) (fuel : ℕ) : ℕ → List (List ℝ) → g.State →
    Run (List (List ℝ) × List ℝ × g.State)
  | _, [], st => some (.ok ([], [], st))
  | ii, row :: rows, _ =>
    (deltaOf g CE l_delta u_delta fuel ii).andThen fun d =>
      (contLoop g CE l_delta u_delta fuel (ii + 1) rows d.2).andThen fun r =>
        some (.ok (row.map (fun f => f / (1 + d.1)) :: r.1, d.1 :: r.2.1, r.2.2))

/-- `add_cont_error`, spectra.py:400-432: new flux, the errors (one per sightline), new state of the generator. -/
noncomputable def add_cont_error (g : Rng) (CE : List ℝ) (spec_num : ℤ) (u_delta l_delta : ℝ) (fuel : ℕ) (st : g.State) :
    FluxArg → Run (FluxArg × List ℝ × g.State)
  | .one row => (deltaOf g CE l_delta u_delta fuel spec_num).andThen fun d =>
      some (.ok (.one (row.map (fun f => f / (1 + d.1))), [d.1], d.2))
  | .many [row] => (deltaOf g CE l_delta u_delta fuel spec_num).andThen fun d =>
      some (.ok (.many [row.map (fun f => f / (1 + d.1))], [d.1], d.2))
  | .many rows => (contLoop g CE l_delta u_delta fuel 0 rows st).andThen fun r => some (.ok (.many r.1, r.2))

/-- One section divided by its maximum, spectra.py:1443-1445. The slice must have the length of the row it is stored in,
or length one. `none` where the division by the maximum is not a number. -/
noncomputable def sectionOf (row : List ℝ) (n_inds i : ℕ) : Py (List (Option ℝ)) := do
  let s := slice row (i * n_inds) ((i + 1) * n_inds + 1)
  let s ← if s.length = n_inds + 1 then pure s
    else if s.length = 1 then pure (List.replicate (n_inds + 1) (s.headD 0)) else .error .valueError
  let m ← maxOf s
  pure (s.map (fun f => if m = 0 then none else some (f / m)))

/-- `renormalize_flux`, spectra.py:1411-1449, for rows of `npix` pixels; the plain `Exception` is `runtimeError`. -/
noncomputable def renormalize_flux (vmax velfac box : ℝ) (npix : ℕ) (flux : List (List ℝ)) (section_size : ℝ) :
    Py (List (List (Option ℝ))) :=
  if (npix : ℝ) - 1 = 0 then .error .zeroDivisionError
  else
    let vel_stepsize := vmax / ((npix : ℝ) - 1)
    if section_size < vel_stepsize / velfac ∨ section_size > box then .error .runtimeError
    else
      let n_sections := box / section_size
      let n_inds := ⌊vmax / (n_sections * vel_stepsize)⌋₊
      ((List.range ⌊n_sections⌋₊).flatMap (fun i => flux.map (fun row => (row, i)))).mapM
        (fun p => sectionOf p.1 n_inds p.2)

end Verif.SpecTools
