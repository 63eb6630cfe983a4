import Verif.Model.Absorption
import Verif.Model.Faddeeva

/-!
The interpolator with the line profile of the code.
-/

namespace Verif.Model.Faddeeva
open Verif.Absorption

/-- `profile` as a function of real numbers, fake_spectra/singleabs.h:56-61. The value of an evaluation which does not
return or reads outside of a table, of which there are none (`profile_total`), is 0. -/
noncomputable def codeProfile (F : RealFns) (fuel : ℕ) (u a : ℝ) : ℝ :=
  match profile F fuel u a with
  | .ok (some r) => r
  | _ => 0

/-- `LineAbsorption` calling `profile` for its absorbers, fake_spectra/absorption.cpp:152-161 and singleabs.h:143-167. -/
noncomputable def LineAbsorption.withCode (F : RealFns) (fuel : ℕ) (L : LineAbsorption) : LineAbsorption := { L with profile := codeProfile F fuel }

end Verif.Model.Faddeeva
