import Verif.Model.GasProps
import Verif.Model.RateNetwork
import Verif.Model.Interp

/-!
Model of ratenetworkspectra.py: gas properties from the rate network, tabulated and interpolated.

Densities and internal energies are positive, so that their logarithms are finite. Rounding to 32 bits is not modelled.
`gsl_interp2d_bicubic` is a parameter: from the two grids and the table as it lies in memory it makes a function.
-/

namespace Verif.RateGas
open Verif

/-- `np.linspace(a, b, n)[i]`, ratenetworkspectra.py:33-34, for `n ≥ 2`. -/
noncomputable def node (a b : ℝ) (n i : ℕ) : ℝ := a + (i : ℝ) * ((b - a) / ((n : ℝ) - 1))

/-- The attributes `build_interp` sets, ratenetworkspectra.py:33-41: the limits of the table, its two sizes, and the logarithms
of the neutral fraction and of the temperature for the energy `j` and the density `i`. -/
structure Table where
  lim : Interp.Grid
  tsz : ℕ
  dsz : ℕ
  lh0grid : ℕ → ℕ → ℝ
  tempgrid : ℕ → ℕ → ℝ

/-- One pass of the loop of `build_interp`, ratenetworkspectra.py:39-41: column `i` of the two tables. -/
noncomputable def column (net : Rates.Net) (lim : Interp.Grid) (tsz dsz i : ℕ) : Py ((Fin tsz → ℝ) × (Fin tsz → ℝ)) := do
  let density := fun (_ : Fin tsz) => Real.exp (node lim.dmin lim.dmax dsz i)
  let ienergy := fun (j : Fin tsz) => Real.exp (node lim.emin lim.emax tsz j)
  let x ← Rates.get_neutral_fraction net density ienergy 0.24
  let t ← Rates.get_temp net density ienergy 0.24
  pure (fun j => Real.log (x j), fun j => Real.log (t j))

/-- `a[j]` in a column, zero as allocated outside of it. -/
noncomputable def entry {n : ℕ} (a : Fin n → ℝ) (j : ℕ) : ℝ := if h : j < n then a ⟨j, h⟩ else 0

/-- `build_interp`, ratenetworkspectra.py:30-41. -/
noncomputable def build_interp (net : Rates.Net) (lim : Interp.Grid) (tsz dsz : ℕ) : Py Table := do
  let cols ← (List.range dsz).mapM (fun (i : ℕ) => column net lim tsz dsz i)
  pure { lim := lim, tsz := tsz, dsz := dsz,
         lh0grid := fun j i => ((cols[i]?).map (fun c => entry c.1 j)).getD 0,
         tempgrid := fun j i => ((cols[i]?).map (fun c => entry c.2 j)).getD 0 }

/-- A `RateNetworkGas` object. -/
structure Obj where
  gas : Gas.Obj
  net : Rates.Net
  temp_factor : ℝ
  gamma_factor : ℝ
  table : Table

/-- The limits of the table of densities, ratenetworkspectra.py:16-28, and of energies. -/
noncomputable def limits (redshift PhysDensThresh : ℝ) (sf_neutral : Bool) : Interp.Grid :=
  { dmin := if redshift ≥ 1 then -16 else -20,
    dmax := if sf_neutral then Real.log (PhysDensThresh / 0.76) else 5,
    emin := 2, emax := 21 }

/-- The constructor, ratenetworkspectra.py:11-28. `mkNet redshift f_bar` is `RateNetwork(redshift, f_bar=fbar, **kwargs)`. -/
noncomputable def Obj.init (mkNet : ℝ → ℝ → Py Rates.Net) (redshift hubble fbar : ℝ) (units : Units.UnitSystem)
    (sf_neutral : Bool) (temp_factor gamma_factor : ℝ) : Py Obj := do
  let gas ← Gas.Obj.init redshift hubble fbar units sf_neutral
  let net ← mkNet redshift fbar
  let table ← build_interp net (limits redshift gas.PhysDensThresh sf_neutral) 500 (if sf_neutral then 500 else 1000)
  pure { gas := gas, net := net, temp_factor := temp_factor, gamma_factor := gamma_factor, table := table }

/-- The overdensity, ratenetworkspectra.py:115-117. -/
noncomputable def Obj.overden (g : Obj) (density : ℝ) : ℝ :=
  let omegab : ℝ := 0.0445
  let rhoc := Units.rho_crit g.gas.hubble * (1 + g.gas.redshift) ^ 3
  Units.protonmass * density / (omegab * rhoc)

open Classical in
/-- The rescaled energy of one particle, ratenetworkspectra.py:118-122. -/
noncomputable def Obj.rescaled (g : Obj) (density ienergy : ℝ) : ℝ :=
  let ienergy := ienergy * g.temp_factor
  if g.gamma_factor ≠ 1 then ienergy * g.overden density ^ (g.gamma_factor - 1) else ienergy

open Classical in
/-- `_get_ienergy_rescaled`, ratenetworkspectra.py:101-126, for particles given by density and energy. -/
noncomputable def Obj.get_ienergy_rescaled (g : Obj) (parts : List (ℝ × ℝ)) : Py (List ℝ) :=
  let out := parts.map (fun p => g.rescaled p.1 p.2)
  if ∀ u ∈ out, 0 < u then .ok out else .error .assertionError

/-- gsl's bicubic interpolation of the table `za` (as it lies in memory) on grids of `nx` and `ny` points. -/
abbrev Bicubic := (nx ny : ℕ) → (xa ya za : ℕ → ℝ) → ℝ → ℝ → ℝ

/-- A table of `ncol` columns as it lies in memory, row after row; py_module.cpp:326. -/
noncomputable def flat (ncol : ℕ) (z : ℕ → ℕ → ℝ) (k : ℕ) : ℝ := z (k / ncol) (k % ncol)

/-- The interpolated table, ratenetworkspectra.py:75-80 and py_module.cpp:323-339. -/
noncomputable def Obj.eval (g : Obj) (bicubic : Bicubic) (nhi : Bool) (x y : ℝ) : ℝ :=
  bicubic g.table.dsz g.table.tsz (node g.table.lim.dmin g.table.lim.dmax g.table.dsz)
    (node g.table.lim.emin g.table.lim.emax g.table.tsz)
    (flat g.table.dsz (if nhi then g.table.lh0grid else g.table.tempgrid)) x y

/-- `_get_interp`, ratenetworkspectra.py:54-82: `blocks` are the density and the internal energy of the particles of a segment
in code units. Returned are `out` (`none` for the particles `ii2`), and density and energy of each particle. -/
noncomputable def Obj.get_interp (g : Obj) (bicubic : Bicubic) (nhi : Bool) (blocks : List (ℝ × ℝ)) :
    Py (List (Option ℝ) × List (ℝ × ℝ)) := do
  let parts := blocks.map (fun b => (b.1 * g.gas.conv, b.2 * g.gas.units.UnitInternalEnergy_in_cgs / 1e10))
  let ienergy ← g.get_ienergy_rescaled parts
  let parts := List.zipWith (fun p u => (p.1, u)) parts ienergy
  let out ← Interp.getInterp g.table.lim (g.eval bicubic nhi) (parts.map (fun p => (Real.log p.1, Real.log p.2)))
  pure (out, parts)

/-- `out[ii2] = vals`, ratenetworkspectra.py:47-49, 90-95: the values go to the particles without one, in order. -/
noncomputable def fill : List (Option ℝ) → List ℝ → List ℝ
  | [], _ => []
  | some x :: rest, vals => x :: fill rest vals
  | none :: rest, v :: vals => v :: fill rest vals
  | none :: rest, [] => 1 :: fill rest []

/-- The particles `ii2`, ratenetworkspectra.py:81. -/
noncomputable def Obj.dense (g : Obj) (parts : List (ℝ × ℝ)) : List (ℝ × ℝ) :=
  parts.filter (fun p => decide (Real.log p.1 ≥ g.table.lim.dmax))

/-- A call of the network for a list of particles. -/
noncomputable def onList (f : {n : ℕ} → (Fin n → ℝ) → (Fin n → ℝ) → Py (Fin n → ℝ)) (parts : List (ℝ × ℝ)) : Py (List ℝ) := do
  let r ← f (fun (i : Fin parts.length) => (parts[i]).1) (fun (i : Fin parts.length) => (parts[i]).2)
  pure (List.ofFn r)

/-- `get_temp`, ratenetworkspectra.py:43-52. -/
noncomputable def Obj.get_temp (g : Obj) (bicubic : Bicubic) (blocks : List (ℝ × ℝ)) : Py (List ℝ) := do
  let (temp, parts) ← g.get_interp bicubic false blocks
  let ii2 := g.dense parts
  if 0 < ii2.length then
    if g.gas.sf_neutral then pure (fill temp (ii2.map (fun _ => (1e4 : ℝ))))
    else do
      let vals ← onList (fun d u => Rates.get_temp g.net d u 0.24) ii2
      pure (fill temp vals)
  else pure (fill temp [])

/-- `get_reproc_HI`, ratenetworkspectra.py:84-99. -/
noncomputable def Obj.get_reproc_HI (g : Obj) (bicubic : Bicubic) (blocks : List (ℝ × ℝ)) : Py (List ℝ) := do
  let (nH0, parts) ← g.get_interp bicubic true blocks
  let ii2 := g.dense parts
  if 0 < ii2.length then
    if g.gas.sf_neutral then
      match g.gas.uvb with
      | some b => pure (fill nH0 (ii2.map (fun p => Gas.neutralFraction b g.gas.f_bar p.1 1e4)))
      | none => pure (fill nH0 (ii2.map (fun _ => (1 : ℝ))))
    else do
      let vals ← onList (fun d u => Rates.get_neutral_fraction g.net d u 0.24) ii2
      pure (fill nH0 vals)
  else pure (fill nH0 [])

/-- The arguments for the gas properties object that `Spectra.__init__` makes, spectra.py:256-259: those of the snapshot,
replaced by the entries of `gasprop_args`. Only the Hubble parameter is kept here. -/
def gasHubble (selfHubble : ℝ) (gasprop_args : Option ℝ) : ℝ := gasprop_args.getD selfHubble

/-- The Hubble parameter `RateNetworkSpectra` gives its gas properties, ratenetworkspectra.py:130-140 (its argument
`hubble` has the default 0.71), for a snapshot with Hubble parameter `selfHubble`. -/
noncomputable def rateSpectraHubble (selfHubble : ℝ) (hubble : ℝ := 0.71) : ℝ := gasHubble selfHubble (some hubble)

end Verif.RateGas
