import Verif.Model.Extract

/-!
The program `extract` built with the reader for Gadget's own format: cextract/read_snapshot.cpp:26-131 and the branches of `main`
which call it (main.cpp:172-182, 213-221). The library GadgetReader is not part of the repository: what it finds in a snapshot is
the structure `GSnap`, what its `GetBlock` does is `getBlock`.

The loop read_snapshot.cpp:117 uses a variable `i` that is not declared, so that no compiler accepts the file as it is. The model
is of the program with that declaration added (`int i`).
-/

namespace Verif.GadgetRead

open CReader CTools PartInt Extract

/-- A snapshot as `GadgetReader::GSnap` sees it: the number of files, the header (`npart` is `GetNpart(0)`), the cooling flag, and
the blocks, of which only what belongs to gas particles; `none` is a block which does not exist. -/
structure GSnap where
  numFiles : ℤ
  header : SnapHeader
  flag_cooling : ℤ
  POS : Option (List Vec3)
  VEL : Option (List Vec3)
  RHO : Option (List ℝ)
  U : Option (List ℝ)
  NE : Option (List ℝ)
  NHP : Option (List ℝ)
  NHEP : Option (List ℝ)
  NHEQ : Option (List ℝ)
  NH : Option (List ℝ)
  HSML : Option (List ℝ)

/-- `load_header`, read_snapshot.cpp:26-50: `none` when it returns -1. The Hubble rate is computed from the header, by the formula
of the HDF5 reader, where it is needed. -/
def load_header (s : GSnap) : Option SnapHeader := if s.numFiles ≤ 0 then none else some s.header

/-- `snap.GetBlock(name, buf, NumPart, StartPart, mask)`: at most `n` elements of the block from number `start` on are stored in
`buf`. The callers do not look at the number returned. -/
def getBlock {α : Type} (b : Option (List α)) (buf : List (Option α)) (n start : ℕ) : List (Option α) :=
  match b with
  | none => buf
  | some xs => let ys := (xs.drop start).take n
    ys.map some ++ buf.drop ys.length

/-- The loop over what should be masses, read_snapshot.cpp:77-81. -/
noncomputable def massLoop (mass : List (Option ℝ)) (n : ℕ) : CRes Unit :=
  (List.range n).forM (fun i => do
    let m ← readSet mass i
    let m0 ← readSet mass 0
    if m ≠ m0 then .error (.exit 0) else .ok ())

/-- `Ne[k] += w*h[k]`, read_snapshot.cpp:98-100 and 102-104; unknown if one of them is. -/
noncomputable def addTo (w : ℝ) (ne h : List (Option ℝ)) : List (Option ℝ) :=
  List.zipWith (fun a b => a.bind (fun a => b.map (fun b => a + w * b))) ne h

/-- The electrons and the neutral fraction, read_snapshot.cpp:88-114; `split` is `SPLIT_NE`. -/
noncomputable def readCooling (split : Bool) (s : GSnap) (n start : ℕ) (a : Arrays) : Arrays :=
  if s.flag_cooling ≠ 0 then
    let a := if split then
        let ne := getBlock s.NHP a.Ne n start
        let h := getBlock s.NHEP a.h n start
        let ne := addTo 1 ne h
        let h := getBlock s.NHEQ h n start
        let ne := addTo 2 ne h
        { a with Ne := ne, h := h }
      else { a with Ne := getBlock s.NE a.Ne n start }
    { a with fraction := getBlock s.NH a.fraction n start }
  else a

/-- What is printed at the end, read_snapshot.cpp:121-129: the numbers printed are read. -/
def printFirst (a : Arrays) (n : ℕ) : CRes Unit := do
  let _ ← readSet a.Pos 0
  let _ ← readSet a.Vel 0
  let _ ← readSet a.Mass 0
  let _ ← readSet a.U (n - 1)
  let _ ← readSet a.Ne (n - 1)
  let _ ← readSet a.fraction (n - 1)
  let _ ← readSet a.h (n - 1)
  pure ()

/-- `load_snapshot`, read_snapshot.cpp:55-131, without `HELIUM`: the number returned and the pointers. A number of particles below
zero, for which no memory can be allocated, ends the program. -/
noncomputable def load_snapshot (split : Bool) (s : GSnap) (start : ℕ) (P : Mem) : CRes (ℤ × Mem) :=
  let num := s.header.npart - start
  if num = 0 then .ok (0, P)
  else if num < 0 then .error (.exit 1)
  else
    let n := num.toNat
    let a := alloc_parts n
    let a := { a with Pos := getBlock s.POS a.Pos n start }
    let a := { a with Vel := getBlock s.VEL a.Vel n start }
    let a := { a with Mass := getBlock s.RHO a.Mass n start }
    do
    massLoop a.Mass n
    let a := { a with U := getBlock s.U a.U n start }
    let a := readCooling split s n start a
    let a := { a with h := getBlock s.HSML a.h n start }
    let a := { a with h := mapFirst (fun x => x / 2) n a.h }
    if start = 0 then printFirst a n else .ok ()
    pure (num, .live a)

/-- The one pass of the loop of `main` for such a snapshot, main.cpp:213-240: the particles given to the interpolator, and the
pointers. -/
noncomputable def gadgetPass (split : Bool) (c : Cosmo) (s : GSnap) (P : Mem) : CRes (List Handed × Mem) := do
  let (npart, P) ← load_snapshot split s 0 P
  if npart = 0 then .error (.exit 2) else .ok ()
  let parts ← (List.range npart.toNat).mapM (fun ii => match P with
    | .live a => convert c a ii
    | .wild => .error .assertFailed)
  let P ← free_parts P
  pure (parts, P)

/-- The pass with the interpolation, main.cpp:213-240. -/
noncomputable def runGadget (split : Bool) (L : Absorption.LineAbsorption) (c : Cosmo) (box : ℝ) (lines : List Line) (s : GSnap)
    (tau colden : List ℝ) : CRes (List ℝ × List ℝ) := do
  let (ps, _) ← gadgetPass split c s .wild
  let parts ← ps.mapM partOf
  let tau ← compute_tau L NBINS box lines parts tau
  let colden ← compute_colden L NBINS box lines parts colden
  pure (tau, colden)

/-- The second half of `main`, main.cpp:188-262, with `i_fileno` equal to 0. -/
noncomputable def finishGadget (split : Bool) (profile : ℝ → ℝ → ℝ) (bits : ℝ → Bits) (disk : Disk) (a : Args) (s : GSnap)
    (hd : SnapHeader) (lines : List Line) : Option End :=
  if disk.canWrite a.outname = false then some (.exit 1 none)
  else
    let zeros := List.replicate (a.numLos * NBINS).toNat (0 : ℝ)
    match runGadget split (interpolator profile hd) ⟨hd.atime, hd.h100⟩ hd.box100 lines s zeros zeros with
    | .error e => some (.ofErr (some a.outname) e)
    | .ok (tau, colden) => some (.wrote a.outname
        (specFile (bits hd.redshift) (bits hd.box100) a.numLos (tau.map bits) (colden.map bits)))

/-- `main`, main.cpp:93-262, built with both readers: what is not read as HDF5 (main.cpp:165) is tried as a snapshot in Gadget's
format (main.cpp:176-182). `snapOf` is what GadgetReader finds under a name. -/
noncomputable def extractBoth (split signedChar : Bool) (profile : ℝ → ℝ → ℝ) (bits : ℝ → Bits) (disk : Disk)
    (snapOf : List Char → GSnap) (drand : List ℝ) (fuel : ℕ) (opts : List Opt) : Option End :=
  match options signedChar opts .init with
  | .error e => some (.ofErr none e)
  | .ok a =>
    if a.numLos ≤ 0 then some (.exit 99 none)
    else if a.indir = [] then some (.exit 99 none)
    else if 2 ^ 31 ≤ a.numLos * NBINS then some (.undefined none)
    else
      let hdf := match (find_first_hdf_file disk.isHdf a.indir).bind (load_hdf5_header disk) with
        | some (0, hd) => some hd
        | _ => none
      match hdf.or (load_header (snapOf a.indir)) with
      | none => some (.exit 2 none)
      | some hd => match populate disk drand a hd.box100 with
        | none => none
        | some (.error e) => some (.ofErr none e)
        | some (.ok los) => match los.mapM lineOf with
          | .error e => some (.ofErr none e)
          | .ok lines =>
            if hdf.isSome then finish profile bits disk fuel a 0 hd lines
            else finishGadget split profile bits disk a (snapOf a.indir) hd lines

end Verif.GadgetRead
