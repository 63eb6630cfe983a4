import Verif.Common

/-!
Specification: ionisation balance of hydrogen and helium (Katz, Weinberg & Hernquist 1996, eq. 25-32).
-/

namespace Verif.Spec

/-- A gas with electron density `ne`. Recombinations per ion and time are coefficient times `ne`; ionisations per
atom and time are collisions, again a coefficient times `ne`, and photoionisations. -/
structure Conditions where
  ne : ℝ
  recH : ℝ
  recHe1 : ℝ
  recHe2 : ℝ
  collH : ℝ
  collHe0 : ℝ
  collHe1 : ℝ
  photoH : ℝ
  photoHe0 : ℝ
  photoHe1 : ℝ

/-- The fractions of hydrogen in its two and of helium in its three states of ionisation. -/
structure Fractions where
  h0 : ℝ
  h1 : ℝ
  he0 : ℝ
  he1 : ℝ
  he2 : ℝ

/-- Fractions are not negative and add up to one. -/
structure Fractions.Physical (f : Fractions) : Prop where
  h0 : 0 ≤ f.h0
  h1 : 0 ≤ f.h1
  he0 : 0 ≤ f.he0
  he1 : 0 ≤ f.he1
  he2 : 0 ≤ f.he2
  sumH : f.h0 + f.h1 = 1
  sumHe : f.he0 + f.he1 + f.he2 = 1

/-- As many ionisations as recombinations, for each neighbouring pair of states. -/
structure Balanced (c : Conditions) (f : Fractions) : Prop where
  h : f.h0 * (c.collH * c.ne + c.photoH) = f.h1 * (c.recH * c.ne)
  he0 : f.he0 * (c.collHe0 * c.ne + c.photoHe0) = f.he1 * (c.recHe1 * c.ne)
  he1 : f.he1 * (c.collHe1 * c.ne + c.photoHe1) = f.he2 * (c.recHe2 * c.ne)

/-- The electrons per hydrogen atom these fractions free, for a mass fraction `Y` of helium, whose atoms weigh four
times as much as those of hydrogen. -/
noncomputable def Fractions.electrons (f : Fractions) (Y : ℝ) : ℝ := f.h1 + Y / (4 * (1 - Y)) * (f.he1 + 2 * f.he2)

/-- The mean mass of a particle, in proton masses: the mass of a hydrogen atom and of its share `Y / (4 (1 - Y))` of
helium atoms, over the number of nuclei and of `x` electrons. -/
noncomputable def meanMass (x Y : ℝ) : ℝ := (1 + 4 * (Y / (4 * (1 - Y)))) / (1 + Y / (4 * (1 - Y)) + x)

end Verif.Spec
