import Verif.Common

/-!
Specification: distances in a periodic box. No reference to the model.
-/

namespace Verif.Spec

/-- Distance between two points of a circle of circumference `L` whose coordinates differ by `d`. -/
noncomputable def perDist (L d : ℝ) : ℝ := |d - round (d / L) * L|

/-- `perDist` is what it should be: the smallest distance over all the periodic images. -/
theorem perDist_isLeast {L : ℝ} (hL : 0 < L) (d : ℝ) :
    IsLeast (Set.range fun k : ℤ => |d + k * L|) (perDist L d) := by
  constructor
  · exact ⟨-round (d / L), by simp only [perDist]; push_cast; ring_nf⟩
  · rintro _ ⟨k, rfl⟩
    have h := round_le (d / L) (-k)
    have h2 : |d / L - round (d / L)| * L ≤ |d / L - ((-k : ℤ) : ℝ)| * L := by gcongr
    have e1 : |d / L - round (d / L)| * L = perDist L d := by
      rw [perDist, ← abs_of_pos hL, ← abs_mul, abs_of_pos hL]
      congr 1; field_simp
    have e2 : |d / L - ((-k : ℤ) : ℝ)| * L = |d + k * L| := by
      conv_lhs => rw [← abs_of_pos hL, ← abs_mul, abs_of_pos hL]
      congr 1; push_cast; field_simp; ring
    simpa only [e1, e2] using h2

/-- Squared periodic distance of a particle at `p` from a sightline through `c` parallel to
Cartesian axis number `axis` (1, 2 or 3): the component along the sightline does not count. -/
noncomputable def transDist2 (L : ℝ) (axis : ℤ) (p c : Fin 3 → ℝ) : ℝ :=
  ∑ i : Fin 3, if (i : ℤ) + 1 = axis then 0 else perDist L (p i - c i) ^ 2

/-- A position inside the box. -/
def InBox (L : ℝ) (p : Fin 3 → ℝ) : Prop := ∀ i, 0 ≤ p i ∧ p i ≤ L

end Verif.Spec
