import Verif.Model.Catalogue
import Verif.Model.Construct
import Mathlib.Analysis.SpecialFunctions.Trigonometric.Basic
import Mathlib.Analysis.SpecialFunctions.Sqrt

/-!
Model of `fake_spectra/halospectra.py`: sightlines near halos, the halo of a sightline, and the savefile with the halos.
-/

namespace Verif.HaloSpectra
open Verif.Catalogue Verif.SpecTools

/-- The halos through which sightlines are put, halospectra.py:30-35: `find_wanted_halos` with the least mass in internal
units, then those below the greatest mass in solar masses over h. -/
noncomputable def wanted (cat : List Grp) (min_mass max_mass : ℝ) : List Grp :=
  ((find_wanted_halos cat (min_mass / 1e10) 1).map Prod.snd).filter (fun g => decide (g.mass < max_mass))

/-- `np.repeat(a, n, axis=0)`. -/
def npRepeat {α : Type} (a : List α) (n : ℕ) : List α := a.flatMap (fun x => List.replicate n x)

/-- One sightline of `get_cofm`, halospectra.py:60-68: the three random numbers are in `[0, 1)`. -/
noncomputable def perturb (h : Grp) (offset u1 u2 u3 : ℝ) : Pos3 :=
  let maxr := h.radius * offset
  let theta := 2 * Real.pi * u1 - Real.pi
  let phi := 2 * Real.pi * u2
  let rr := maxr * u3
  ⟨h.pos.x + rr * Real.sin theta * Real.cos phi, h.pos.y + rr * Real.sin theta * Real.sin phi,
    h.pos.z + rr * Real.cos theta⟩

/-- `get_cofm(offset)`, halospectra.py:54-69. The arguments `u1 u2 u3` are the arrays `random_sample(NumLos)` returns in
turn; arrays of different lengths raise `ValueError`. -/
noncomputable def get_cofm (halos : List Grp) (rep : ℕ) (offset : ℝ) (u1 u2 u3 : List ℝ) : Py (List Pos3) :=
  let hs := npRepeat halos rep
  if u1.length = hs.length ∧ u2.length = hs.length ∧ u3.length = hs.length then
    .ok ((hs.zip (u1.zip (u2.zip u3))).map (fun p => perturb p.1 offset p.2.1 p.2.2.1 p.2.2.2))
  else .error .valueError

/-- An index into an array: a Python number. -/
inductive Index where
  | int (i : ℤ)
  | float (x : ℝ)

/-- `num / self.repeat`, halospectra.py:104: true division gives a float. -/
noncomputable def haloIndex (num : ℤ) (rep : ℕ) : Py Index :=
  if rep = 0 then .error .zeroDivisionError else .ok (.float (num / rep))

/-- `a[i]`: only integers are indices. -/
def getIdx {α : Type} (a : List α) (i : Index) : Py α :=
  match i with
  | .int i => Np.get a i
  | .float _ => .error .indexError

/-- `find_associated_halo(num)`, halospectra.py:102-105. -/
noncomputable def find_associated_halo (halos : List Grp) (rep : ℕ) (num : ℤ) : Py Grp := do
  let nh ← haloIndex num rep
  getIdx halos nh

/-- `line_offsets`, halospectra.py:107-115, for the axes and positions of the sightlines; the halos are looked up twice, with the
same result. `load_halo` and `replace_not_DLA`, halospectra.py:117-123, do nothing. -/
noncomputable def line_offsets (halos : List Grp) (rep : ℕ) (axis : List ℤ) (cofm : List Pos3) : Py (List ℝ) := do
  let hs ← (List.range cofm.length).mapM (fun i : ℕ => find_associated_halo halos rep i)
  let hpos ← get_spectra_proj_pos axis (hs.map Grp.pos)
  let lpos ← get_spectra_proj_pos axis cofm
  pure (List.zipWith (fun d h => d / h.radius)
    (List.zipWith (fun p q => √((p.1 - q.1) ^ 2 + (p.2 - q.2) ^ 2)) hpos lpos) hs)

/-- A directory with the savefile and its backup: for each, the groups it holds. -/
structure Dir where
  file : Option (List String)
  backup : Option (List String)

/-- The groups `_save_file` writes, spectra.py:295-330. -/
def baseGroups : List String :=
  ["Header", "spectra", "tau_obs", "tau", "colden", "velocity", "temperature", "num_important", "density_weight_density"]

/-- `Spectra.save_file` on the directory, spectra.py:285-291: the old file becomes the backup. -/
def baseSave (d : Dir) : Dir :=
  match d.file with
  | some g => ⟨some baseGroups, some g⟩
  | none => ⟨some baseGroups, d.backup⟩

/-- `HaloSpectra.save_file`, halospectra.py:71-86. `create_group` raises `ValueError` if the group is there. -/
def save_file (d : Dir) : Py Dir :=
  let groups := d.file.getD []
  if "halos" ∈ groups then .error .valueError
  else .ok (baseSave { d with file := some (groups ++ ["halos"]) })

/-- The first lines of `HaloSpectra.load_savefile`, halospectra.py:88-92. -/
def load_halos (d : Dir) : Py Unit :=
  match d.file with
  | none => .error .ioError
  | some g => if "halos" ∈ g then .ok () else .error .keyError

/-- `HaloSpectra.__init__`, halospectra.py:19-52, as far as the arguments go. `loaded` is the result of `load_savefile`.
The pixel width is passed in the place of the MPI module: a number has no attribute `COMM_WORLD`. Halos, and from them
sightlines, are only made when there is no savefile. -/
noncomputable def init (res : Option ℝ) (loaded : Py Unit) (halos : List Grp) (rep : ℕ) (offset : ℝ) (u1 u2 u3 : List ℝ)
    (snap : Option Construct.Snap) (saved : Py Construct.Saved) : Py Construct.Obj := do
  let (cofm, axis) ← match loaded with
    | .ok _ => .ok (Construct.CofmArg.none, Construct.AxisArg.none)
    | .error .ioError | .error .keyError => do
      let c ← get_cofm halos rep offset u1 u2 u3
      pure (Construct.CofmArg.table (c.map (fun p => (p.x, p.y, p.z))), Construct.AxisArg.array (npRepeat (halos.map (fun _ => 1)) rep))
    | .error e => .error e
  match res with
  | some _ => .error .attributeError
  | none => Construct.construct { cofm := cofm, axis := axis, reload := true } snap saved

end Verif.HaloSpectra
