import Verif.Common
import Mathlib.Analysis.SpecialFunctions.Pow.Real

/-! Specification: logarithmic bins of column density, absorbers as groups of pixels. -/

namespace Verif.Spec

/-- Lower edge of bin `i` of a table that starts at `10^minN` with `dlogN` per bin. -/
noncomputable def logEdge (minN dlogN : ℝ) (i : ℕ) : ℝ := (10 : ℝ) ^ (minN + i * dlogN)

/-- `x` is in bin `i` of `n` bins with the given edges: closed on the left, the last one closed on both sides. -/
def InEdges (edge : ℕ → ℝ) (n i : ℕ) (x : ℝ) : Prop := edge i ≤ x ∧ (x < edge (i + 1) ∨ (i + 1 = n ∧ x ≤ edge (i + 1)))

open Classical in
/-- The number of elements of a list that have a property. -/
noncomputable def count (P : ℝ → Prop) (xs : List ℝ) : ℕ := (xs.filter (fun x => decide (P x))).length

/-- The column density of absorber `k` of a sightline when `c` neighbouring pixels make up an absorber. -/
noncomputable def absorber (c : ℕ) (row : List ℝ) (k : ℕ) : ℝ := ∑ j ∈ Finset.range c, row.getD (c * k + j) 0

end Verif.Spec
