import Verif.Model.SpecTools
import Verif.Model.Units

/-!
Model of haloassigned_spectra.py: contiguous regions of absorption and their halos. Plots are not modelled.
-/

namespace Verif.HaloAssigned
open Verif.Np Verif.SpecTools

/-- `idx, = np.diff(condition).nonzero(); idx += 1`, haloassigned_spectra.py:301-305: for booleans the difference is
"not equal". -/
def changes (condition : List Bool) : List ℕ :=
  ((List.range (condition.length - 1)).filter
    (fun i => condition.getD i false != condition.getD (i + 1) false)).map (· + 1)

/-- `idx.shape = (-1,2)`, haloassigned_spectra.py:316: an odd number of entries raises. -/
def inPairs : List ℕ → Py (List (ℕ × ℕ))
  | [] => .ok []
  | [_] => .error .valueError
  | s :: e :: rest => do
    let r ← inPairs rest
    pure ((s, e) :: r)

/-- `contiguous_regions`, haloassigned_spectra.py:294-317. -/
def contiguous_regions (condition : List Bool) : Py (List (ℕ × ℕ)) := do
  let idx := changes condition
  let first ← get condition 0
  let idx := if first then 0 :: idx else idx
  let last ← get condition (-1)
  let idx := if last then idx ++ [condition.length] else idx
  inPairs idx

/-- The loop of `combine_regions`, haloassigned_spectra.py:283-290: `cur` is the last row of `newreg`. -/
def combineLoop (mindist : ℤ) : List (ℕ × ℕ) → ℕ × ℕ → List (ℕ × ℕ)
  | [], cur => [cur]
  | r :: rest, cur =>
    if (r.1 : ℤ) - cur.2 < mindist then combineLoop mindist rest (cur.1, r.2) else cur :: combineLoop mindist rest r

/-- `combine_regions`, haloassigned_spectra.py:276-292. -/
def combine_regions (condition : List Bool) (mindist : ℤ) : Py (List (ℕ × ℕ)) := do
  let reg ← contiguous_regions condition
  if mindist > 0 then
    match reg with
    | [] => pure []
    | r :: rest => if rest = [] then pure reg else pure (combineLoop mindist rest r)
  else pure reg

/-- The weighted position of one region, haloassigned_spectra.py:163-169; `none` where the sum is zero. -/
noncomputable def regionPos (lcolden : List ℝ) (roll : ℤ) (nbins : ℕ) (box : ℝ) (sep : ℕ × ℕ) : Option ℝ :=
  let nn := (slice (List.range nbins) sep.1 sep.2).map (fun n : ℕ => (((n : ℤ) - roll : ℤ) : ℝ))
  let llcolden := slice lcolden sep.1 sep.2
  let zpos := (llcolden.zipWith (· * ·) nn).sum
  let summ := llcolden.sum
  if summ = 0 then none else some (fmod (zpos / summ) nbins * (1 * box / nbins))

/-- The positions for one sightline, haloassigned_spectra.py:154-171. -/
noncomputable def rowRegions (nbins : ℕ) (box thresh relthresh : ℝ) (roll : ℤ) (lcolden : List ℝ) : Py (List (Option ℝ)) := do
  let m ← maxOf lcolden
  let cut := if m > thresh then thresh else relthresh * m
  let seps ← combine_regions (lcolden.map (fun x => decide (x > cut))) 0
  pure (seps.map (regionPos lcolden roll nbins box))

/-- `get_contiguous_regions`, haloassigned_spectra.py:140-172, from the column densities. -/
noncomputable def get_contiguous_regions (nbins : ℕ) (box : ℝ) (den : List (List ℝ)) (thresh relthresh : ℝ) :
    Py (List (List (Option ℝ))) := do
  let rc ← get_rolled_spectra den
  (rc.1.zip rc.2).mapM (fun p => rowRegions nbins box thresh relthresh p.1 p.2)

/-- `proj_pos[ax] = z`, haloassigned_spectra.py:123. -/
def setAxis (p : Pos3) (ax : ℤ) (z : ℝ) : Py Pos3 :=
  if ax = 0 ∨ ax = -3 then .ok { p with x := z }
  else if ax = 1 ∨ ax = -2 then .ok { p with y := z }
  else if ax = 2 ∨ ax = -1 then .ok { p with z := z }
  else .error .indexError

/-- `sum((halo_cofm - proj_pos)**2)`, haloassigned_spectra.py:126-128. -/
noncomputable def dist2 (a b : Pos3) : ℝ := (a.x - b.x) ^ 2 + (a.y - b.y) ^ 2 + (a.z - b.z) ^ 2

/-- A halo: its radius and position. -/
structure Halo where
  radius : ℝ
  pos : Pos3

/-- The halo for one position, haloassigned_spectra.py:122-137: the first in the catalogue, and the distance. -/
noncomputable def haloAt (halos : List Halo) (p : Pos3) : Option (ℕ × ℝ) :=
  let i := halos.findIdx (fun h => decide (dist2 h.pos p < h.radius ^ 2))
  match halos[i]? with
  | some h => some (i, √(dist2 h.pos p))
  | none => none

/-- The halos of one sightline, haloassigned_spectra.py:118-137: positions without a halo leave no entry. -/
noncomputable def assignRow (halos : List Halo) (cofm : Pos3) (axis : ℤ) (zpos : List ℝ) : Py (List (ℕ × ℝ)) := do
  let ps ← zpos.mapM (setAxis cofm (axis - 1))
  pure (ps.filterMap (haloAt halos))

/-- `assign_to_halo`, haloassigned_spectra.py:109-138, for catalogues whose radii and positions have the same length. The
two returned lists of lists are the first and second components. -/
noncomputable def assign_to_halo (cofm : List Pos3) (axis : List ℤ) (zpos : List (List ℝ)) (halos : List Halo) :
    Py (List (List (ℕ × ℝ))) :=
  (zpos.zipIdx).mapM (fun zi => do
    let c ← get cofm zi.2
    let a ← get axis zi.2
    assignRow halos c a zi.1)

/-- `virial_vel` for one halo, haloassigned_spectra.py:66-73: mass as loaded by `load_halo`, radius comoving. -/
noncomputable def virial_vel (u : Units.UnitSystem) (hubble red mm rr : ℝ) : ℝ :=
  let cminkpch := u.UnitLength_in_cm / hubble / (1 + red)
  let conv := u.UnitMass_in_g / 1e10 / cminkpch
  let rr := if rr = 0 then 1 else rr
  √(Units.gravcgs * conv * mm / rr) / 1e5

/-- The host halo of one sightline, haloassigned_spectra.py:178-186, from the halos found for it, the parents of the
subhalos found for it and the virial velocities of all halos. `order` is the order in which Python goes through the set. -/
noncomputable def hostHalo (order : List ℤ → List ℤ) (virial : List ℝ) (halos parents : List ℤ) : Py ℤ := do
  let both := order (parents ++ halos).dedup
  if both = [] then pure (-1)
  else do
    let vv ← both.mapM (get virial)
    let m ← maxOf vv
    get both (vv.findIdx (fun v => decide (v = m)))

/-- `find_nearest_halo`, haloassigned_spectra.py:174-188. -/
noncomputable def find_nearest_halo (order : List ℤ → List ℤ) (virial : List ℝ) (sub_sub_index : List ℤ)
    (halos subhalos : List (List ℤ)) : Py (List ℤ) :=
  (halos.zip subhalos).mapM (fun hs => do
    let parents ← hs.2.mapM (get sub_sub_index)
    hostHalo order virial hs.1 parents)

/-- `ind = np.where(halo > 0); halo = halo[ind]`, haloassigned_spectra.py:256 (`plot_Z_vs_mass`), 269 (`_plot_xx_vs_mass`). -/
def sightlinesWithHalo (halo : List ℤ) : List ℕ := (List.range halo.length).filter (fun i => decide (halo.getD i 0 > 0))

/-- `min_halo_mass`, haloassigned_spectra.py:75-86, when the number of particles is known. -/
noncomputable def min_halo_mass (OmegaM box npart minpart : ℝ) : ℝ :=
  let rhom := 2.78e11 * OmegaM / 1e10 / ((1e3 : ℝ) ^ 3)
  let target_mass := box ^ 3 * rhom / npart
  target_mass * minpart

end Verif.HaloAssigned
