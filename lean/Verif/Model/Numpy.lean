import Verif.Common

/-!
The numpy operations used by the modelled code, on lists of reals, and bounded `while` loops.
-/

namespace Verif.Np

/-- A computation with bounded loops: `none` when the bound is not enough, otherwise what Python does. -/
abbrev Run (α : Type) := Option (Py α)

/-- Sequencing. -/
def Run.andThen {α β : Type} (x : Run α) (f : α → Run β) : Run β :=
  match x with
  | none => none
  | some (.error e) => some (.error e)
  | some (.ok a) => f a

/-- `while cond: body` with at most `fuel` tests of the condition. -/
def whileRun {σ : Type} (cond : σ → Py Bool) (body : σ → Run σ) : ℕ → σ → Run σ
  | 0, _ => none
  | fuel + 1, s =>
    match cond s with
    | .error e => some (.error e)
    | .ok false => some (.ok s)
    | .ok true => (body s).andThen (whileRun cond body fuel)

/-- `np.max(a)`; `ValueError` for an empty array. -/
noncomputable def maxOf : List ℝ → Py ℝ
  | [] => .error .valueError
  | x :: xs => .ok (xs.foldl max x)

/-- `np.min(a)`; `ValueError` for an empty array. -/
noncomputable def minOf : List ℝ → Py ℝ
  | [] => .error .valueError
  | x :: xs => .ok (xs.foldl min x)

/-- `np.argmax(a)`: the first position of the maximum; `ValueError` for an empty array. -/
noncomputable def argmax (a : List ℝ) : Py ℕ := do
  let m ← maxOf a
  pure (a.findIdx (fun x => decide (x = m)))

/-- `np.argmin(a)`. -/
noncomputable def argmin (a : List ℝ) : Py ℕ := do
  let m ← minOf a
  pure (a.findIdx (fun x => decide (x = m)))

/-- The position an index stands for in an array of `n` elements: negative indices count from the end. -/
def index (n : ℕ) (i : ℤ) : Py ℕ :=
  if 0 ≤ i ∧ i < n then .ok i.toNat
  else if i < 0 ∧ -(n : ℤ) ≤ i then .ok (i + n).toNat
  else .error .indexError

/-- `a[i]`. -/
def get {α : Type} (a : List α) (i : ℤ) : Py α := do
  let k ← index a.length i
  match a[k]? with
  | some x => pure x
  | none => .error .indexError

/-- `a[i] = x`. -/
def set {α : Type} (a : List α) (i : ℤ) (x : α) : Py (List α) := do
  let k ← index a.length i
  pure (a.set k x)

/-- `a[lo:hi]` for bounds that are not negative. -/
def slice {α : Type} (a : List α) (lo hi : ℕ) : List α := (a.take hi).drop lo

/-- `np.mean(a)`; the result for an empty array is not a number and is not modelled. -/
noncomputable def mean (a : List ℝ) : ℝ := a.sum / a.length

/-- `np.roll(a, k)`: element `i` of the result is element `i - k` (modulo the length). -/
def roll {α : Type} (a : List α) (k : ℤ) : List α := a.rotate (((-k) % (a.length : ℤ)).toNat)

/-- The number of elements below bin edge `i`, with the last edge included: the cumulative count of
`np.histogram` with explicit edges. -/
noncomputable def cumCount (edge : ℕ → ℝ) (n : ℕ) (xs : List ℝ) (i : ℕ) : ℤ :=
  if i = n then xs.countP (fun x => decide (x ≤ edge n)) else xs.countP (fun x => decide (x < edge i))

/-- `np.histogram(xs, bins)[0]` for `n` bins with edges `edge 0 ≤ ... ≤ edge n`. -/
noncomputable def histogram (edge : ℕ → ℝ) (n : ℕ) (xs : List ℝ) : List ℤ :=
  (List.range n).map (fun i => cumCount edge n xs (i + 1) - cumCount edge n xs i)

/-- `x % n` for floats, `n > 0`. -/
noncomputable def fmod (x n : ℝ) : ℝ := x - n * ⌊x / n⌋

/-- `np.delete(a, i)`. -/
def delete {α : Type} (a : List α) (i : ℤ) : Py (List α) := do
  let k ← index a.length i
  pure (a.eraseIdx k)

end Verif.Np
