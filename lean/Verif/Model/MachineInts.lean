import Verif.Model.PartInt

/-!
The interpolator and the search for near particles with the integer types of the code: `int` and `unsigned int` of 32 bits, `long long` of 64.
Elsewhere in the model these are unbounded. Arithmetic on `int` outside its range is undefined, and so is the conversion of a floating-point number
outside it. `unsigned int` wraps. A `long long` assigned to an `int` keeps its lowest 32 bits.
-/

namespace Verif.MachineInts
open Verif Verif.PartInt Verif.IndexTable Verif.Absorption

/-- The ways not to have a result: undefined behaviour by the types of integers, an exception, or what stops the exact program. -/
inductive Halt where
  | undefined
  | raised (e : PyErr)
  | c (e : CErr)

abbrev MRes (α : Type) := Except Halt α

/-- Code in which integers cannot overflow. -/
def fromC {α : Type} : CRes α → MRes α
  | .ok a => .ok a
  | .error e => .error (.c e)

/-- The value of an `int` expression. -/
def int (z : ℤ) : MRes ℤ := if -2 ^ 31 ≤ z ∧ z < 2 ^ 31 then .ok z else .error .undefined

/-- A `long long` as an `int`. -/
def narrow (z : ℤ) : ℤ := (z + 2 ^ 31) % 2 ^ 32 - 2 ^ 31

/-- The value of an `unsigned int` expression. -/
def unsigned (z : ℤ) : ℕ := (z % 2 ^ 32).toNat

/-- `add_colden_particle`, fake_spectra/absorption.cpp:167-210: `zlow` and `zhigh` are `int` (lines 190-191), and the loop counts up to `zhigh + 1`. -/
noncomputable def add_colden (L : LineAbsorption) (colden : List ℝ) (off nbins : ℕ) (dr2 dens pos smooth : ℝ) : MRes (List ℝ) :=
  if L.kernel = VORONOI_MESH ∧ (dr2 > 2 * L.vbox / L.velfac ∨ smooth > 2 * L.vbox / L.velfac) then .ok colden
  else if L.kernel ≠ VORONOI_MESH ∧ smooth * smooth - dr2 ≤ 0 then .ok colden
  else
    let pos1 := if L.kernel = VORONOI_MESH then (dr2 + smooth) / 2 else pos
    let zrange := if L.kernel = VORONOI_MESH then (smooth - dr2) / 2 else √(smooth * smooth - dr2)
    let boxtokpc := L.vbox / nbins / L.velfac
    do
      let zlow ← int ⌊(pos1 - zrange) / boxtokpc⌋
      let zhigh ← int ⌈(pos1 + zrange) / boxtokpc⌉
      let _ ← (if zlow ≤ zhigh then int (zhigh + 1) else .ok 0)
      fromC (coldenLoop (get_kern_frac L.kernel) off nbins boxtokpc pos1 smooth dr2 zrange dens (intRange zlow zhigh) colden)

/-- `add_tau_particle`, fake_spectra/absorption.cpp:212-271: `zmax` is an `int` (line 246), and so are the limits of the loops. The decrement after
the last pixel is counted even if the loop is left before it. -/
noncomputable def add_tau (L : LineAbsorption) (tau : List ℝ) (off nbins : ℕ) (dr2 dens ppos pvel temp smooth : ℝ) : MRes (List ℝ) :=
  if L.kernel = VORONOI_MESH ∧ (dr2 > 2 * L.vbox / L.velfac ∨ smooth > 2 * L.vbox / L.velfac) then .ok tau
  else if L.kernel ≠ VORONOI_MESH ∧ smooth * smooth - dr2 ≤ 0 then .ok tau
  else
    let pos1 := if L.kernel = VORONOI_MESH then (dr2 + smooth) / 2 else ppos
    let vel := L.velfac * pos1 + pvel
    let bintov := L.vbox / nbins
    let tauAt := tauPixel L nbins dr2 dens pos1 pvel temp smooth
    do
      let zmax ← int ⌊vel / bintov⌋
      let _ ← int (zmax + nbins / 2)
      let tau ← fromC (tauLoop tauAt L.tautail off nbins 1 (nbins / 2) zmax tau)
      let z ← int (zmax - 1)
      let _ ← int (zmax - nbins / 2 - 1)
      fromC (tauLoop tauAt L.tautail off nbins (-1) (nbins / 2) z tau)

/-- Insertion in a `std::map<int, double>`: an entry with the same key stays. -/
noncomputable def insertInt : List (ℤ × ℝ) → ℤ → ℝ → List (ℤ × ℝ)
  | [], k, d => [(k, d)]
  | e :: m, k, d => if k < e.1 then (k, d) :: e :: m else if k = e.1 then e :: m else e :: insertInt m k d

/-- `get_near_particles`, fake_spectra/index_table.cpp:130-150: the number of the particle is a `long long`, the key of the map an `int` (line 145).
The critical sections run in the order of the particles. -/
noncomputable def nearInts (t : Table) (ps : List (Vec3 × ℝ)) : List (List (ℤ × ℝ)) :=
  (get_near_particles t ps).map (fun m => m.foldl (fun acc e => insertInt acc (narrow (e.1 : ℤ)) e.2) [])

/-- The particles of a line as the loops of fake_spectra/part_int.cpp:35-47, 68-80 and fake_spectra/index_table.cpp:176-189 read them:
`3*ipart+axis-1` and, for the Voronoi mesh, `3*ipart+axis%3` and `3*ipart+(axis+1)%3` in `int`. They are checked before the loop. -/
def readable (kernel axis : ℤ) (m : List (ℤ × ℝ)) : MRes (StdMap ℝ) :=
  m.mapM (fun e => do
    let _ ← int (3 * e.1)
    let _ ← int (3 * e.1 + axis)
    let _ ← (if kernel = VORONOI_MESH then int (3 * e.1 + 2) else .ok 0)
    if e.1 < 0 then .error (.c .outOfBounds) else .ok (e.1.toNat, e.2))

/-- One sightline of `compute_colden`, fake_spectra/part_int.cpp:59-81: `&colden[i*nbins]` with an `unsigned int` `i`. -/
noncomputable def coldenRow (L : LineAbsorption) (nbins : ℕ) (parts : List Part) (i : ℕ) (line : Line)
    (entries : List ((ℕ × ℝ) × (ℝ × ℝ))) (colden : List ℝ) : MRes (List ℝ) :=
  entries.foldlM (fun colden e => do
    let p ← fromC (readAt parts e.1.1)
    let ppos ← fromC (coord p.pos line.axis)
    if L.kernel = VORONOI_MESH then
      add_colden L colden (unsigned (i * nbins)) nbins e.2.1 p.dens ppos e.2.2
    else
      add_colden L colden (unsigned (i * nbins)) nbins e.1.2 p.dens ppos p.h) colden

/-- One sightline of `compute_tau`, fake_spectra/part_int.cpp:26-48: `&tau[i*nbins]`. -/
noncomputable def tauRow (L : LineAbsorption) (nbins : ℕ) (parts : List Part) (i : ℕ) (line : Line)
    (entries : List ((ℕ × ℝ) × (ℝ × ℝ))) (tau : List ℝ) : MRes (List ℝ) :=
  entries.foldlM (fun tau e => do
    let p ← fromC (readAt parts e.1.1)
    let ppos ← fromC (coord p.pos line.axis)
    let pvel ← fromC (coord p.vel line.axis)
    if L.kernel = VORONOI_MESH then
      add_tau L tau (unsigned (i * nbins)) nbins e.2.1 p.dens ppos pvel p.temp e.2.2
    else
      add_tau L tau (unsigned (i * nbins)) nbins e.1.2 p.dens ppos pvel p.temp p.h) tau

/-- The integers of `assign_cells`, fake_spectra/index_table.cpp:154-162: the length of its array and the number of points on the sightline. -/
noncomputable def cellInts (kernel : ℤ) (box : ℝ) (near : StdMap ℝ) : MRes Unit :=
  if kernel = VORONOI_MESH then do
    let _ ← int (2 * near.length)
    let _ ← int ⌊box / RESO⌋
    .ok ()
  else .ok ()

/-- The loop over sightlines, fake_spectra/part_int.cpp:22-50, 55-83. -/
noncomputable def rows (body : ℕ → Line → List ((ℕ × ℝ) × (ℝ × ℝ)) → List ℝ → MRes (List ℝ)) (kernel : ℤ) (box : ℝ) (lines : List Line)
    (parts : List Part) (out : List ℝ) : MRes (List ℝ) :=
  let nearby_array := nearInts (build lines box) (posH parts)
  (List.range nearby_array.length).foldlM (fun out (i : ℕ) => do
    let nearby ← fromC (readAt nearby_array i)
    let line ← fromC (readAt lines i)
    let near ← readable kernel line.axis nearby
    cellInts kernel box near
    let entries ← fromC (lineEntries kernel box line parts near)
    body i line entries out) out

/-- `Py_Particle_Interpolation`, fake_spectra/py_module.cpp:103-233, on arrays of the right types and shapes. The number of pixels has to be an
`int` (line 115), and so has the number of sightlines, which is compared with the length of `axis` after it was made one (lines 135, 147). The
table of sightlines reads `cofm[3*i+2]` at most (fake_spectra/index_table.cpp:10-15, 33-38); here for every sightline, once. -/
noncomputable def interpolate (get_tau : Bool) (L : LineAbsorption) (nbins : ℕ) (box : ℝ) (lines : List Line) (parts : List Part) :
    MRes (List ℝ) :=
  if 2 ^ 31 ≤ nbins then .error (.raised .attributeError)
  else if narrow lines.length ≠ lines.length then .error (.raised .valueError)
  else do
    let _ ← int (3 * (lines.length : ℤ) - 1)
    rows (if get_tau then tauRow L nbins parts else coldenRow L nbins parts) L.kernel box lines parts (List.replicate (lines.length * nbins) 0)

/-- Insertion in a `std::set<int>`. -/
def insertSet : List ℤ → ℤ → List ℤ
  | [], k => [k]
  | e :: s, k => if k < e then k :: e :: s else if k = e then e :: s else e :: insertSet s k

/-- `Py_near_lines`, fake_spectra/py_module.cpp:25-99, on arrays of the right types and shapes: the numbers of the particles are put into a
`std::set<int>` (lines 66, 79). -/
noncomputable def near_lines (box : ℝ) (ps : List (Vec3 × ℝ)) (lines : List Line) : MRes (List ℤ) :=
  if narrow lines.length ≠ lines.length then .error (.raised .valueError)
  else do
    let _ ← int (3 * (lines.length : ℤ) - 1)
    .ok ((IndexTable.near_lines box ps lines).foldl (fun s (i : ℕ) => insertSet s (narrow (i : ℤ))) [])

end Verif.MachineInts
