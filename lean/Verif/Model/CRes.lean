import Verif.Common

/-!
Outcome of C/C++ code that may leave defined behaviour, and checked array access.
-/

namespace Verif

/-- Ways in which the modelled C++ code stops without a result. -/
inductive CErr where
  | outOfBounds
  | exit (code : ℤ)
  | assertFailed
  deriving DecidableEq, Repr

/-- Result of C/C++ code: a value, or the way it went wrong. -/
abbrev CRes (α : Type) := Except CErr α

/-- `a[i] += x` on an array of `a.length` elements: an index outside the array is an error. -/
noncomputable def addAt (a : List ℝ) (i : ℤ) (x : ℝ) : CRes (List ℝ) :=
  if 0 ≤ i ∧ i < a.length then .ok (a.modify i.toNat (· + x)) else .error .outOfBounds

/-- `a[i]`, checked. -/
def readAt {α : Type} (a : List α) (i : ℤ) : CRes α :=
  if 0 ≤ i then match a[i.toNat]? with
    | some x => .ok x
    | none => .error .outOfBounds
  else .error .outOfBounds

end Verif
