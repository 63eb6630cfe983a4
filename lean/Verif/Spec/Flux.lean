import Verif.Common
import Mathlib.Analysis.SpecialFunctions.Exp
import Mathlib.Analysis.SpecialFunctions.Trigonometric.Basic

/-! Specification: mean flux, bins of the flux distribution, power of a spectrum at a wave number. -/

namespace Verif.Spec

/-- The mean of `exp(-s t)` over the optical depths `t`. -/
noncomputable def meanFluxOf (taus : List ℝ) (s : ℝ) : ℝ := (taus.map (fun t => Real.exp (-(s * t)))).sum / taus.length

/-- The fraction of pixels without absorption: the mean flux in the limit of an infinite factor. -/
noncomputable def clearFraction (taus : List ℝ) : ℝ := (taus.countP (fun t => decide (t = 0)) : ℝ) / taus.length

/-- Bin `i` of `n` equal bins of [0,1]: closed on the left, the last one closed on both sides. -/
def InBin (n i : ℕ) (f : ℝ) : Prop := (i : ℝ) / n ≤ f ∧ (f < ((i : ℝ) + 1) / n ∨ (i + 1 = n ∧ f ≤ 1))

/-- The squared length of the Fourier component `k` of `x`, divided by the squared number of pixels. -/
noncomputable def modePower (x : List ℝ) (k : ℕ) : ℝ :=
  ((∑ j ∈ Finset.range x.length, x.getD j 0 * Real.cos (2 * Real.pi * j * k / x.length)) ^ 2 +
    (∑ j ∈ Finset.range x.length, x.getD j 0 * Real.sin (2 * Real.pi * j * k / x.length)) ^ 2) / (x.length : ℝ) ^ 2

/-- The relative flux fluctuations of optical depths `taus` scaled by `s`, around the mean flux `mf`. -/
noncomputable def fluctuation (s mf : ℝ) (taus : List ℝ) : List ℝ := taus.map (fun t => Real.exp (-(s * t)) / mf - 1)

end Verif.Spec
