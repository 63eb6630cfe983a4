import Verif.Model.Snapshot
import Verif.Model.ComputeSpectra
import Mathlib.Analysis.SpecialFunctions.Pow.Real

/-!
What the snapshot readers make of the blocks of a snapshot (fake_spectra/abstractsnapshot.py): smoothing lengths, kernels,
peculiar velocities, the baryon density, and which reader is used; and `find_all_particles` of fake_spectra/spectra.py.

Arrays of the blocks of one particle type have the same length; numpy would stretch an array of length 1, which is not modelled.
`np.power(x, 1/3)` of a negative number is NaN; here it is some number, and the theorems only speak of numbers that are not negative.
-/

namespace Verif.Readers
open Verif Verif.Snapshot

/-- A snapshot file: the gas blocks (`none` if the group `PartType0` is missing), `MassTable[1]`, `NumPart_ThisFile[1]` and `Omega0`
of the header. -/
structure HFile where
  gas : Option (String → Option (List ℝ))
  dmMass : ℝ
  dmNum : ℝ
  Omega0 : ℝ

/-- `fhandle["PartType0"][block]`. -/
def block {F : Type} (file : F → HFile) (name : String) (f : F) : Option (List ℝ) := (file f).gas.bind (fun b => b name)

/-- `np.power(x, 1./3)`. -/
noncomputable def cbrt (x : ℝ) : ℝ := x ^ ((1 : ℝ) / 3)

/-- `HDF5Snapshot.get_smooth_length`, abstractsnapshot.py:253-282. A `KeyError`, and no other exception, selects the next case. -/
noncomputable def get_smooth_length {F : Type} (canOpen : F → Bool) (file : F → HFile) (s : Hdf5 F) (segment : ℕ) :
    Hdf5 F × Py (List ℝ) :=
  match s.get_data canOpen (block file "Volume") segment with
  | (s, .ok volume) => (s, .ok (volume.map cbrt))
  | (s, .error .keyError) =>
    match s.get_data canOpen (block file "SmoothingLength") segment with
    | (s, .ok h) => (s, .ok (h.map (fun x => x / 2)))
    | (s, .error .keyError) =>
      match s.get_data canOpen (block file "Density") segment with
      | (s, .error e) => (s, .error e)
      | (s, .ok density) =>
        match s.get_data canOpen (block file "Masses") segment with
        | (s, .error e) => (s, .error e)
        | (s, .ok mass) => (s, .ok ((List.zipWith (fun m d => m / d) mass density).map cbrt))
    | (s, .error e) => (s, .error e)
  | (s, .error e) => (s, .error e)

/-- `HDF5Snapshot.get_kernel`, abstractsnapshot.py:284-301: looks at the file that happens to be open. -/
def hdf5_get_kernel {F : Type} (file : F → HFile) (s : Hdf5 F) : Py ℤ :=
  match s.handle with
  | none => .error .valueError
  | some f => match (file f).gas with
    | none => .error .keyError
    | some b => .ok (if (b "Volume").isSome then 0 else if (b "SmoothingLength").isSome then 1 else 0)

/-- `BigFileSnapshot.get_kernel`, abstractsnapshot.py:377-397: `attr` is the header attribute `DensityKernel`, if there is one. -/
def big_get_kernel (attr : Option ℤ) : Py ℤ :=
  match attr with
  | some k => if k = 2 then .ok 3 else if k = 1 ∨ k = 3 then .ok k else .error .assertionError
  | none => .ok 1

/-- `AbstractSnapshot.get_smooth_length`, used for BigFile, abstractsnapshot.py:93-100. -/
noncomputable def big_get_smooth_length (data : Py (List ℝ)) : Py (List ℝ) := do
  let h ← data
  .ok (h.map (fun x => x / 2))

/-- `AbstractSnapshot.get_peculiar_velocity`, used for HDF5, abstractsnapshot.py:114-119. -/
noncomputable def hdf5_get_velocity (data : Py (List Vec3)) (atime : ℝ) : Py (List Vec3) := do
  let vel ← data
  .ok (vel.map (fun v => fun k => v k * √atime))

/-- `BigFileSnapshot.get_peculiar_velocity`, abstractsnapshot.py:399-406: `attr` is the header attribute `UsePeculiarVelocity`. -/
noncomputable def big_get_velocity (data : Py (List Vec3)) (attr : Option Bool) (atime : ℝ) : Py (List Vec3) := do
  let vel ← data
  match attr with
  | none => .error .keyError
  | some pecvel => .ok (if !pecvel then vel.map (fun v => fun k => v k / atime) else vel)

/-- `HDF5Snapshot.get_omega_baryon`, abstractsnapshot.py:230-234: from the file that happens to be open. -/
noncomputable def hdf5_get_omega_baryon {F : Type} (file : F → HFile) (s : Hdf5 F) : Py ℝ := do
  let masses ← readHandle (block file "Masses") s.handle
  match s.handle with
  | none => .error .valueError
  | some f =>
    let mass_dm := (file f).dmMass * (file f).dmNum
    let mass_bar := masses.sum
    .ok (mass_bar / (mass_bar + mass_dm) * (file f).Omega0)

/-- The exceptions of opening a BigFile: one of its own, or another. -/
inductive BigErr where
  | bigFileError
  | py (e : PyErr)

/-- `AbstractSnapshotFactory`, abstractsnapshot.py:16-27. `hdf5` and `big` are what the constructors do, `none` stands for the bigfile
module not being installed. -/
def factory {S B : Type} (hdf5 : Py S) (big : Option (Except BigErr B)) : Py (S ⊕ B) :=
  match hdf5 with
  | .ok s => .ok (.inl s)
  | .error .ioError =>
    match big with
    | none => .error .ioError
    | some (.ok b) => .ok (.inr b)
    | some (.error .bigFileError) => .error .ioError
    | some (.error (.py .ioError)) => .error .ioError
    | some (.error (.py e)) => .error e
  | .error e => .error e

/-- The loop of `find_all_particles`, spectra.py:624-628. -/
noncomputable def findLoop (c : ComputeSpectra.Config) : List (List ComputeSpectra.Raw) → List Vec3 × List ℝ → Py (List Vec3 × List ℝ)
  | [], acc => .ok acc
  | seg :: segs, acc => do
    let r ← ComputeSpectra.read_particle_data c false seg
    match r with
    | none => findLoop c segs acc
    | some parts => findLoop c segs (acc.1 ++ parts.map (fun p => p.pos), acc.2 ++ parts.map (fun p => p.h))

/-- `find_all_particles`, spectra.py:619-629: `nsegments` is what `get_n_segments()` does. The species is all the hydrogen. -/
noncomputable def find_all_particles (c : ComputeSpectra.Config) (nsegments : Py ℕ) (segs : List (List ComputeSpectra.Raw)) :
    Py (List Vec3 × List ℝ) := do
  let n ← nsegments
  findLoop { c with sp := .all } (segs.take n) ([], [])

end Verif.Readers
