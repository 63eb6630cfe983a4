import Verif.Model.Construct

/-!
Model of `fake_spectra/line_data.py`: the table of absorption lines read from VPFIT's `atom.dat`.

Strings are lists of ASCII characters. `float(s)` is a parameter, `none` where it raises `ValueError`; infinities and
NaN are not modelled.
-/

namespace Verif.LineData

/-- `ints[nums.index(c)]`, line_data.py:145-146. -/
def romanDigit : Char → Option ℤ
  | 'M' => some 1000
  | 'D' => some 500
  | 'C' => some 100
  | 'L' => some 50
  | 'X' => some 10
  | 'V' => some 5
  | 'I' => some 1
  | _ => none

/-- The values with their signs, line_data.py:151-163: minus if the next one is larger. -/
def places : List ℤ → List ℤ
  | [] => []
  | [v] => [v]
  | v :: w :: r => (if w > v then -v else v) :: places (w :: r)

/-- `roman_to_int`, line_data.py:115-168, of a string. -/
def roman_to_int (s : List Char) : Py ℤ :=
  match s.mapM romanDigit with
  | none => .error .valueError
  | some vs => .ok (places vs).sum

/-- `[A-Z]`. -/
def isUpper (c : Char) : Bool := 'A' ≤ c && c ≤ 'Z'

/-- `[a-z]`. -/
def isLower (c : Char) : Bool := 'a' ≤ c && c ≤ 'z'

/-- `\s`, for ASCII characters. -/
def isSpace (c : Char) : Bool := (9 ≤ c.toNat && c.toNat ≤ 13) || (28 ≤ c.toNat && c.toNat ≤ 32)

/-- `re.sub(r"\s", "", s)`. -/
def noSpace (s : List Char) : List Char := s.filter (fun c => !isSpace c)

/-- The part of the match after the blanks: `[a-z]?` and then `[A-Z].{3}`. -/
def matchTail (c : Char) (rest : List Char) : Option (List Char × List Char) :=
  let (low, r) := match rest with
    | l :: r => if isLower l then ([l], r) else ([], rest)
    | [] => ([], [])
  match r with
  | u :: a :: b :: d :: _ =>
    if isUpper u && a != '\n' && b != '\n' && d != '\n' then some (c :: low, [u, a, b, d]) else none
  | _ => none

/-- `re.match(r"([A-Z]\s*[a-z]?)([A-Z].{3})", line)`, line_data.py:88: the two groups, the first without its blanks. The
blanks and the lower case letter are matched greedily; giving one back never helps, as it is no capital
(`find_species_regex` in Props/LineData). -/
def reMatch (line : List Char) : Option (List Char × List Char) :=
  match line with
  | c :: rest => if isUpper c then matchTail c (rest.dropWhile isSpace) else none
  | [] => none

/-- `find_species`, line_data.py:83-95. -/
def find_species (line : List Char) : Py (List Char × ℤ) :=
  match reMatch line with
  | none => .error .valueError
  | some (sp, ion) =>
    match roman_to_int (noSpace ion) with
    | .ok n => .ok (sp, n)
    | .error e => .error e

/-- `line.split()`. -/
def splitWs (line : List Char) : List (List Char) := (line.splitOnP isSpace).filter (fun t => !t.isEmpty)

/-- A line of the table, line_data.py:47-57. -/
structure Line where
  lambda : ℝ
  fosc : ℝ
  gamma : ℝ

/-- The loop of `parse_line_contents`, line_data.py:101-109, which stops at three numbers. -/
def firstFloats (float : List Char → Option ℝ) : List (List Char) → List ℝ → List ℝ
  | [], res => res
  | s :: ss, res =>
    let res := match float s with
      | some x => res ++ [x]
      | none => res
    if res.length = 3 then res else firstFloats float ss res

/-- `parse_line_contents`, line_data.py:97-111. -/
def parse_line_contents (float : List Char → Option ℝ) (line : List Char) : Py Line :=
  match firstFloats float (splitWs line) [] with
  | a :: b :: c :: _ => .ok ⟨a, b, c⟩
  | _ => .error .indexError

/-- The key of a line: species, ion and integer wavelength. The code has a dictionary of dictionaries. -/
abbrev Key := List Char × ℤ × ℤ

/-- The species read, line_data.py:19. -/
def species : List (List Char) := [['H'], ['H', 'e'], ['C'], ['N'], ['O'], ['N', 'e'], ['M', 'g'], ['S', 'i'], ['F', 'e']]

/-- One row of the file, line_data.py:66-80. -/
noncomputable def readRow (float : List Char → Option ℝ) (species : List (List Char)) (t : Key → Option Line)
    (row : List Char) : Py (Key → Option Line) :=
  match find_species row with
  | .error .valueError => .ok t
  | .error e => .error e
  | .ok (sp, ion) =>
    if species.count sp = 0 ∨ ion < 0 then .ok t
    else do
      let ln ← parse_line_contents float row
      pure (fun k => if k = (sp, ion, Construct.trunc ln.lambda) then some ln else t k)

/-- `read_vpfit`, line_data.py:59-81, on the lines of the file. -/
noncomputable def read_vpfit (float : List Char → Option ℝ) (species : List (List Char)) (rows : List (List Char)) :
    Py (Key → Option Line) :=
  rows.foldlM (readRow float species) (fun _ => none)

end Verif.LineData
