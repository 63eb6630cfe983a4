import Verif.Model.Numpy
import Verif.Model.SpecTools
import Mathlib.Data.List.Lex

/-!
Model of the group catalogue reader (subfindhdf.py), of the selection of halos (halocat.py) and of sightlines on a grid
(griddedspectra.py:59-88).
-/

namespace Verif.Catalogue
open Verif.Np Verif.SpecTools

/-- A file name, as character codes. -/
abbrev Name := List ℕ

/-- The two groups of data. -/
inductive Dset where
  | group
  | subhalo
  deriving DecidableEq

/-- An array with at least one dimension: the rows and the shape of one row. -/
structure Arr (ρ : Type) where
  tail : List ℕ
  rows : List ρ

/-- The files: the arrays in each. -/
abbrev Files (ρ : Type) := Name → Dset → String → Option (Arr ρ)

/-- The catalogue object, subfindhdf.py:12-31: its sorted files, advertised sizes and cache. -/
structure Cat (ρ : Type) where
  foffiles : List Name
  sizes : Dset → ℕ
  cache : Dset → String → Option (Arr ρ)

/-- The constructor, subfindhdf.py:12-31, from the names matching the pattern and the numbers in the header of the first
file: without files it raises. -/
def init {ρ : Type} (found : List Name) (header : Name → Dset → ℕ) : Py (Cat ρ) :=
  match found.mergeSort (· ≤ ·) with
  | [] => .error .indexError
  | f :: fs => .ok ⟨f :: fs, header f, fun _ _ => none⟩

/-- `_get_single_file_array`, subfindhdf.py:41-55; `shapes` is the tail of the shape, `none` for `None`. -/
def single {ρ : Type} (files : Files ρ) (fname : Name) (dset : Dset) (name : String) (shapes : Option (List ℕ)) : Py (Arr ρ) :=
  match files fname dset name with
  | some a => .ok a
  | none =>
    match shapes with
    | none => .error .typeError
    | some tail => .ok ⟨tail, []⟩

/-- `np.concatenate`: the tails of the shapes have to agree. -/
def concatenate {ρ : Type} : List (Arr ρ) → Py (Arr ρ)
  | [] => .error .valueError
  | a :: as => if ∀ b ∈ as, b.tail = a.tail then .ok ⟨a.tail, ((a :: as).map Arr.rows).flatten⟩ else .error .valueError

/-- Reading an array from all files, subfindhdf.py:62-66. -/
def readFiles {ρ : Type} (files : Files ρ) (foffiles : List Name) (size : ℕ) (dset : Dset) (name : String) : Py (Arr ρ) := do
  let f ← get foffiles 0
  let first ← single files f dset name none
  let all ← foffiles.mapM (fun f => single files f dset name (some first.tail))
  let data ← concatenate all
  if data.rows.length = size then pure data else .error .assertionError

/-- `_get_array`, subfindhdf.py:57-68. -/
def get_array {ρ : Type} (files : Files ρ) (dset : Dset) (name : String) (c : Cat ρ) : Py (Arr ρ) × Cat ρ :=
  match c.cache dset name with
  | some a => (.ok a, c)
  | none =>
    match readFiles files c.foffiles (c.sizes dset) dset name with
    | .error e => (.error e, c)
    | .ok data =>
      (.ok data, { c with cache := fun d n => if d = dset ∧ n = name then some data else c.cache d n })

/-- `get_grp_names` and `get_sub_names`, subfindhdf.py:26-27 and 33-39: the names of the arrays of the first file, from the names in
each file. `get_grp` and `get_sub`, subfindhdf.py:70-76, are `get_array` for the two groups. -/
def get_names {ρ : Type} (keys : Name → Dset → List String) (dset : Dset) (c : Cat ρ) : Py (List String) := do
  let f ← get c.foffiles 0
  pure (keys f dset)

/-- A halo as read from the catalogue: mass (internal units), position, radius. -/
structure Grp where
  mass : ℝ
  pos : Pos3
  radius : ℝ

/-- `is_masked`, halocat.py:17-21, for halo `h` among `halos`: true when the halo is kept. -/
noncomputable def is_masked (halos : List Grp) (h : Grp) : Bool :=
  let near := halos.filter (fun g => decide (|g.pos.x - h.pos.x| < h.radius ∧ |g.pos.y - h.pos.y| < h.radius ∧
    |g.pos.z - h.pos.z| < h.radius))
  (near.filter (fun g => decide (g.mass > h.mass))).length == 0

/-- `find_all_halos`, halocat.py:23-47, with the indices: masses come out in solar masses over h. -/
noncomputable def find_all_halos (cat : List Grp) (min_mass : ℝ) : List (ℕ × Grp) :=
  ((cat.zipIdx.map (fun p => (p.2, p.1))).filter (fun p => decide (p.2.mass > min_mass))).map
    (fun p => (p.1, { p.2 with mass := p.2.mass * 1.989e43 / 1.989e33 }))

/-- `find_wanted_halos`, halocat.py:49-71: the four returned arrays are the indices and the fields of the halos. -/
noncomputable def find_wanted_halos (cat : List Grp) (min_mass dist : ℝ) : List (ℕ × Grp) :=
  let all := (find_all_halos cat min_mass).map (fun p => (p.1, { p.2 with radius := p.2.radius * dist }))
  all.filter (fun p => is_masked (all.map Prod.snd) p.2)

/-- The pairs `for nn in range(nspec) for mm in range(nspec)`. -/
def gridPairs (nspec : ℕ) : List (ℕ × ℕ) := (List.range nspec).flatMap (fun nn => (List.range nspec).map (fun mm => (nn, mm)))

/-- `get_axes_and_cofm`, griddedspectra.py:59-88, for at least one sightline per side: axes and positions. -/
noncomputable def get_axes_and_cofm (box : ℝ) (nspec : ℕ) (axis : ℤ) : Py (List ℝ × List Pos3) :=
  let grid_axes : List ℝ := if axis < 0 then
      List.replicate (nspec * nspec) 1 ++ List.replicate (nspec * nspec) 2 ++ List.replicate (nspec * nspec) 3
    else List.replicate (nspec * nspec) (axis * 1)
  let id1 : List (ℕ × ℕ × ℕ) := (gridPairs nspec).map (fun p => (0, p.1, p.2))
  let id2 : List (ℕ × ℕ × ℕ) := (gridPairs nspec).map (fun p => (p.1, 0, p.2))
  let id3 : List (ℕ × ℕ × ℕ) := (gridPairs nspec).map (fun p => (p.1, p.2, 0))
  let grid_id : Py (List (ℕ × ℕ × ℕ)) :=
    if axis = 1 then .ok id1 else if axis = 2 then .ok id2 else if axis = 3 then .ok id3
    else if axis < 0 then .ok (id1 ++ id2 ++ id3) else .error .valueError
  let dx := box / (1 * (nspec : ℝ))
  grid_id.map (fun ids => (grid_axes, ids.map (fun i => ⟨dx * i.1, dx * i.2.1, dx * i.2.2⟩)))

end Verif.Catalogue
