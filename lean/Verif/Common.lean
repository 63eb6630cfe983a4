import Mathlib.Data.Real.Basic
import Mathlib.Algebra.Order.Round
import Mathlib.Algebra.Order.Archimedean.Real.Basic
import Mathlib.Algebra.Order.Floor.Ring
import Mathlib.Algebra.BigOperators.Fin
import Mathlib.Algebra.BigOperators.Group.List.Basic
import Mathlib.Data.List.Basic
import Mathlib.Data.List.Sort
import Mathlib.Data.List.Nodup
import Mathlib.Data.List.Perm.Basic
import Mathlib.Tactic.Linarith
import Mathlib.Tactic.Ring
import Mathlib.Tactic.NormNum
import Mathlib.Tactic.Positivity
import Mathlib.Tactic.FieldSimp
import Mathlib.Tactic.GCongr
import Mathlib.Tactic.IntervalCases
import Mathlib.Tactic.FinCases
import Mathlib.Tactic.Push
import Mathlib.Tactic.Common

/-!
Shared imports and the values that stand for errors raised by the modelled code.
-/

namespace Verif

/-- Exceptions raised by the Python layer (and by the C extension through `PyErr_SetString`),
modelled as values. -/
inductive PyErr where
  | valueError
  | typeError
  | indexError
  | keyError
  | ioError
  | attributeError
  | runtimeError
  | assertionError
  | notImplementedError
  | zeroDivisionError
  | memoryError
  | unboundLocalError
  | overflowError
  deriving DecidableEq, Repr

/-- A Python call: a value or an exception. -/
abbrev Py (α : Type) := Except PyErr α

end Verif
