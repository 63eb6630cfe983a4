import Verif.Model.Construct
import Verif.Model.Catalogue
import Verif.Model.LineData

/-!
Model of the constructor of `GriddedSpectra`, griddedspectra.py:12-56, and of the line tables of objects, line_data.py:18-46.
-/

namespace Verif.Gridded
open Verif Verif.Construct

/-- The arguments: those for the base class (without `cofm` and `axis`) and the grid. The defaults of `GriddedSpectra` are
`reload_file=True` and `res=None`. -/
structure GridArgs where
  base : Args
  nspec : ℕ := 200
  axis : ℤ := 1
  grid_cofm : CofmArg := .none
  grid_axes : AxisArg := .none

/-- `GriddedSpectra.__init__`, griddedspectra.py:12-56. Axes are floats in the grid and integers in the object. -/
noncomputable def gridded (g : GridArgs) (snap : Option Snap) (saved : Py Saved) : Py Obj :=
  if g.base.reload = false then construct { g.base with cofm := .none, axis := .none } snap saved
  else
    match snap with
    | none => .error .ioError
    | some s =>
      match g.grid_cofm with
      | .none => do
        let r ← Catalogue.get_axes_and_cofm s.box g.nspec g.axis
        construct { g.base with cofm := .table (r.2.map (fun p => (p.x, p.y, p.z))), axis := .array (r.1.map trunc) } (some s) saved
      | c => construct { g.base with cofm := c, axis := g.grid_axes } (some s) saved

/-- The table of lines in the module, `_lines_cache_`, line_data.py:12. -/
abbrev Cache := Option (LineData.Key → Option LineData.Line)

/-- The value of a local variable, which may not have been set. -/
def localVar {α : Type} : Option α → Py α
  | some x => .ok x
  | none => .error .unboundLocalError

/-- Opening a file and reading its lines, line_data.py:59-65. -/
noncomputable def readTable (float : List Char → Option ℝ) (files : String → Py (List (List Char))) (path : String) :
    Py (LineData.Key → Option LineData.Line) :=
  files path >>= LineData.read_vpfit float LineData.species

/-- `LineData(vpdat)`, line_data.py:18-31: the table of the object and the one kept in the module. `bundled` is the path of the table
that comes with the code. -/
noncomputable def lineData (float : List Char → Option ℝ) (files : String → Py (List (List Char))) (bundled : String) (vpdat : Option String)
    (cache : Cache) : Py (LineData.Key → Option LineData.Line) × Cache :=
  let vpdata : Option String := if vpdat.isNone then some bundled else none
  if vpdat.isNone then
    match cache with
    | some t => (.ok t, cache)
    | none =>
      match localVar vpdata >>= readTable float files with
      | .error e => (.error e, cache)
      | .ok t => (.ok t, some t)
  else (localVar vpdata >>= readTable float files, cache)

/-- The table kept after any number of objects are made one after the other. -/
noncomputable def lineDatas (float : List Char → Option ℝ) (files : String → Py (List (List Char))) (bundled : String) :
    List (Option String) → Cache → Cache
  | [], c => c
  | v :: vs, c => lineDatas float files bundled vs (lineData float files bundled v c).2

/-- `get_mass`, line_data.py:44-46. -/
noncomputable def get_mass (sp : List Char) : Py ℝ :=
  match [(['H'], 1.00794), (['H', 'e'], 4.002602), (['C'], 12.011), (['N'], 14.00674), (['O'], 15.9994), (['N', 'e'], 20.18),
    (['M', 'g'], 24.3050), (['S', 'i'], 28.0855), (['F', 'e'], 55.847)].lookup sp with
  | some m => .ok m
  | none => .error .keyError

end Verif.Gridded
