import Verif.Model.CRes
import Verif.Model.ErfcxTable
import Mathlib.Analysis.SpecialFunctions.Trigonometric.Basic
import Mathlib.Analysis.SpecialFunctions.Complex.Log

/-!
Model of the Faddeeva function of fake_spectra/Faddeeva.cpp, which gives the line profile of fake_spectra/singleabs.h.

`double` is an exact real number, so that there is no overflow, infinity or NaN. The table of polynomials behind `erfcx`
(Faddeeva.cpp:1012-1419) is in Verif.Model.ErfcxTable; that behind `w_im` (lines 1457-1861) is a parameter. The argument `relerr` has its
default value 0, which every caller in the package uses, so that the branches for other values (lines 693-699 and
869-903) are not modelled.
-/

namespace Verif.Model.Faddeeva
open Real

/-- The table of `w_im`, Faddeeva.cpp:1457-1861, and the largest number. -/
structure RealFns where
  w_im_y100 : ℝ → ℝ → ℝ
  huge_val : ℝ

/-- `ispi`, Faddeeva.cpp:728, 1425, 1867 and 1878. -/
noncomputable def ispi : ℝ := 0.56418958354775628694807945156

/-- `erfcx` of a real number, Faddeeva.cpp:1421-1437. -/
noncomputable def RealFns.erfcx (F : RealFns) (x : ℝ) : ℝ :=
  if x ≥ 0 then
    if x > 50 then
      if x > 5e7 then ispi / x
      else ispi * ((x * x) * (x * x + 4.5) + 2) / (x * ((x * x) * (x * x + 5) + 3.75))
    else erfcx_y100 (400 / (4 + x))
  else if x < -26.7 then F.huge_val
  else if x < -6.1 then 2 * exp (x * x)
  else 2 * exp (x * x) - erfcx_y100 (400 / (4 - x))

/-- `w_im`, Faddeeva.cpp:1863-1888. -/
noncomputable def RealFns.w_im (F : RealFns) (x : ℝ) : ℝ :=
  if x ≥ 0 then
    if x > 45 then
      if x > 5e7 then ispi / x
      else ispi * ((x * x) * (x * x - 4.5) + 2) / (x * ((x * x) * (x * x - 5) + 3.75))
    else F.w_im_y100 (100 / (1 + x)) x
  else if x < -45 then
    if x < -5e7 then ispi / x
    else ispi * ((x * x) * (x * x - 4.5) + 2) / (x * ((x * x) * (x * x - 5) + 3.75))
  else -F.w_im_y100 (100 / (1 - x)) (-x)

/-- `sinc`, Faddeeva.cpp:608-610. -/
noncomputable def sinc (x sinx : ℝ) : ℝ := if |x| < 1e-4 then 1 - 0.1666666666666666666667 * x * x else sinx / x

/-- `sinh_taylor`, Faddeeva.cpp:613-616. -/
noncomputable def sinh_taylor (x : ℝ) : ℝ := x * (1 + (x * x) * (0.1666666666666666666667 + 0.00833333333333333333333 * (x * x)))

/-- `expa2n2`, Faddeeva.cpp:622-675. -/
noncomputable def expa2n2 : List ℝ :=
  [
    7.64405281671221563e-01, 3.41424527166548425e-01, 8.91072646929412548e-02, 1.35887299055460086e-02, 1.21085455253437481e-03,
    6.30452613933449404e-05, 1.91805156577114683e-06, 3.40969447714832381e-08, 3.54175089099469393e-10, 2.14965079583260682e-12,
    7.62368911833724354e-15, 1.57982797110681093e-17, 1.91294189103582677e-20, 1.35344656764205340e-23, 5.59535712428588720e-27,
    1.35164257972401769e-30, 1.90784582843501167e-34, 1.57351920291442930e-38, 7.58312432328032845e-43, 2.13536275438697082e-47,
    3.51352063787195769e-52, 3.37800830266396920e-57, 1.89769439468301000e-62, 6.22929926072668851e-68, 1.19481172006938722e-73,
    1.33908181133005953e-79, 8.76924303483223939e-86, 3.35555576166254986e-92, 7.50264110688173024e-99, 9.80192200745410268e-106,
    7.48265412822268959e-113, 3.33770122566809425e-120, 8.69934598159861140e-128, 1.32486951484088852e-135, 1.17898144201315253e-143,
    6.13039120236180012e-152, 1.86258785950822098e-160, 3.30668408201432783e-169, 3.43017280887946235e-178, 2.07915397775808219e-187,
    7.36384545323984966e-197, 1.52394760394085741e-206, 1.84281935046532100e-216, 1.30209553802992923e-226, 5.37588903521080531e-237,
    1.29689584599763145e-247, 1.82813078022866562e-258, 1.50576355348684241e-269, 7.24692320799294194e-281, 2.03797051314726829e-292,
    3.34880215927873807e-304, 0.0]

/-- `DBL_EPSILON`, the value of `relerr` (Faddeeva.cpp:688-689). -/
noncomputable def relerr : ℝ := 2 ^ (-52 : ℤ)

/-- `a`, Faddeeva.cpp:690. -/
noncomputable def cA : ℝ := 0.518321480430085929872

/-- `c`, Faddeeva.cpp:691. -/
noncomputable def cC : ℝ := 0.329973702884629072537

/-- `a2`, Faddeeva.cpp:692. -/
noncomputable def cA2 : ℝ := 0.268657157075235951582

/-- The condition for the continued fraction, Faddeeva.cpp:712-717. -/
def useCF (x ya : ℝ) : Prop := ya > 7 ∨ (x > 6 ∧ (ya > 0.1 ∨ (x > 8 ∧ ya > 1e-10) ∨ x > 28))

/-- The first fraction, Faddeeva.cpp:731-747, without the test for an infinity. -/
noncomputable def cf1 (x xs ya : ℝ) : ℂ :=
  if x > ya then
    let yax := ya / xs
    let denom := ispi / (xs + yax * ya)
    ⟨denom * yax, denom⟩
  else
    let xya := xs / ya
    let denom := ispi / (xya * xs + ya)
    ⟨denom, denom * xya⟩

/-- The second fraction, Faddeeva.cpp:748-752. -/
noncomputable def cf2 (xs ya : ℝ) : ℂ :=
  let dr := xs * xs - ya * ya - 0.5
  let di := 2 * xs * ya
  let denom := ispi / (dr * dr + di * di)
  ⟨denom * (xs * di - ya * dr), denom * (xs * dr + ya * di)⟩

/-- The number of terms, Faddeeva.cpp:755-756. -/
noncomputable def cfTerms (x ya : ℝ) : ℤ := ⌊(3.9 + 11.398 / (0.08254 * x + 0.1421 * ya + 0.2023) : ℝ)⌋

/-- The loop over the terms, Faddeeva.cpp:758-763. The first argument bounds the number of turns. -/
noncomputable def cfLoop (xs ya : ℝ) : ℕ → ℝ → ℝ × ℝ → ℝ × ℝ
  | 0, _, w => w
  | fuel + 1, nu, (wr, wi) =>
    if nu > 0.4 then
      let denom := nu / (wr * wr + wi * wi)
      cfLoop xs ya fuel (nu - 0.5) (xs - wr * denom, ya + wi * denom)
    else (wr, wi)

/-- The continued fraction with as many terms as needed, Faddeeva.cpp:754-768. The loop takes `nu - 1` turns. -/
noncomputable def cfn (x xs ya : ℝ) : ℂ :=
  let nu := cfTerms x ya
  let w := cfLoop xs ya nu.toNat (0.5 * ((nu : ℝ) - 1)) (xs, ya)
  let denom := ispi / (w.1 * w.1 + w.2 * w.2)
  ⟨denom * w.2, denom * w.1⟩

/-- The continued fraction in the upper half plane, Faddeeva.cpp:730-768. -/
noncomputable def cfUpper (x xs ya : ℝ) : ℂ :=
  if x + ya > 4000 then
    if x + ya > 1e7 then cf1 x xs ya else cf2 xs ya
  else cfn x xs ya

/-- The branch of the continued fraction, Faddeeva.cpp:728-778. -/
noncomputable def cf (re y : ℝ) : ℂ :=
  let xs := if y < 0 then -re else re
  let ret := cfUpper |re| xs |y|
  if y < 0 then 2 * Complex.exp ⟨(|y| - xs) * (xs + |y|), 2 * xs * y⟩ - ret else ret

/-- The sums of the series. -/
structure Sums where
  sum1 : ℝ
  sum2 : ℝ
  sum3 : ℝ
  sum4 : ℝ
  sum5 : ℝ

/-- The loop for a tiny argument, Faddeeva.cpp:837-850: `tab` is the table from the element `n-1` on, `p` is `prod2ax`
and `pm` is `prodm2ax`. A turn with nothing left in the table reads past its end. -/
noncomputable def loopTiny (x y expx2 exp2ax expm2ax : ℝ) : List ℝ → ℕ → ℝ → ℝ → Sums → CRes Sums
  | [], _, _, _, _ => .error .outOfBounds
  | e :: tab, n, p, pm, s =>
    let coef := e * expx2 / (cA2 * (n * n) + y * y)
    let p := p * exp2ax
    let pm := pm * expm2ax
    let s := { s with
      sum1 := s.sum1 + coef
      sum2 := s.sum2 + coef * pm
      sum3 := s.sum3 + coef * p
      sum5 := s.sum5 + coef * (2 * cA) * n * sinh_taylor ((2 * cA) * n * x) }
    if coef * p < relerr * s.sum3 then .ok s else loopTiny x y expx2 exp2ax expm2ax tab (n + 1) p pm s

/-- The loop for other arguments below 10, Faddeeva.cpp:855-866. -/
noncomputable def loopMain (y expx2 exp2ax expm2ax : ℝ) : List ℝ → ℕ → ℝ → ℝ → Sums → CRes Sums
  | [], _, _, _, _ => .error .outOfBounds
  | e :: tab, n, p, pm, s =>
    let coef := e * expx2 / (cA2 * (n * n) + y * y)
    let p := p * exp2ax
    let pm := pm * expm2ax
    let s : Sums := {
      sum1 := s.sum1 + coef
      sum2 := s.sum2 + coef * pm
      sum4 := s.sum4 + (coef * pm) * (cA * n)
      sum3 := s.sum3 + coef * p
      sum5 := s.sum5 + (coef * p) * (cA * n) }
    if (coef * p) * (cA * n) < relerr * s.sum5 then .ok s else loopMain y expx2 exp2ax expm2ax tab (n + 1) p pm s

/-- `sum1` to `sum5` before the loops, Faddeeva.cpp:705. -/
noncomputable def zeroSums : Sums := ⟨0, 0, 0, 0, 0⟩

/-- `exp(-x*x)` and the sums, Faddeeva.cpp:828-868. -/
noncomputable def sums (x y : ℝ) : CRes (ℝ × Sums) :=
  if x < 5e-4 then
    let x2 := x * x
    let expx2 := 1 - x2 * (1 - 0.5 * x2)
    let ax2 := 1.036642960860171859744 * x
    let exp2ax := 1 + ax2 * (1 + ax2 * (0.5 + 0.166666666666666666667 * ax2))
    let expm2ax := 1 - ax2 * (1 - ax2 * (0.5 - 0.166666666666666666667 * ax2))
    (loopTiny x y expx2 exp2ax expm2ax expa2n2 1 1 1 zeroSums).map fun s => (expx2, s)
  else
    let expx2 := exp (-x * x)
    let exp2ax := exp ((2 * cA) * x)
    let expm2ax := 1 / exp2ax
    (loopMain y expx2 exp2ax expm2ax expa2n2 1 1 1 zeroSums).map fun s => (expx2, s)

/-- What is added to the sums, Faddeeva.cpp:904-921. -/
noncomputable def head (F : RealFns) (re y expx2 : ℝ) (s : Sums) : ℂ :=
  let x := |re|
  let expx2erfcxy := if y > -6 then expx2 * F.erfcx y else 2 * exp (y * y - x * x)
  if y > 5 then
    let sinxy := sin (x * y)
    ⟨(expx2erfcxy - cC * y * s.sum1) * cos (2 * x * y) + (cC * x * expx2) * sinxy * sinc (x * y) sinxy, 0⟩
  else
    let xs := re
    let sinxy := sin (xs * y)
    let sin2xy := sin (2 * xs * y)
    let cos2xy := cos (2 * xs * y)
    let coef1 := expx2erfcxy - cC * y * s.sum1
    let coef2 := cC * xs * expx2
    ⟨coef1 * cos2xy + coef2 * sinxy * sinc (xs * y) sinxy, coef2 * sinc (2 * xs * y) sin2xy - coef1 * sin2xy⟩

/-- The end of the function, Faddeeva.cpp:968-970. -/
noncomputable def finish (re y : ℝ) (ret : ℂ) (s : Sums) : ℂ :=
  ret + ⟨(0.5 * cC) * y * (s.sum2 + s.sum3), (0.5 * cC) * (if re < 0 then -|s.sum5 - s.sum4| else |s.sum5 - s.sum4|)⟩

/-- The terms on both sides of the largest, Faddeeva.cpp:948-959, from `dn` on while `n0 - dn > 0`; the first argument
bounds the number of turns. The result is the sums, and whether they have converged. -/
noncomputable def loopBoth (y n0 dx exp1 : ℝ) : ℕ → ℕ → ℝ → Sums → Sums × Bool × ℕ
  | 0, dn, _, s => (s, false, dn)
  | fuel + 1, dn, exp1dn, s =>
    if n0 - dn > 0 then
      let np := n0 + dn
      let nm := n0 - dn
      let tp := exp (-((cA * dn + dx) * (cA * dn + dx)))
      let exp1dn := exp1dn * exp1
      let tm := tp * exp1dn
      let tp := tp / (cA2 * (np * np) + y * y)
      let tm := tm / (cA2 * (nm * nm) + y * y)
      let s := { s with
        sum3 := s.sum3 + (tp + tm)
        sum5 := s.sum5 + cA * (np * tp + nm * tm) }
      if cA * (np * tp + nm * tm) < relerr * s.sum5 then (s, true, dn) else loopBoth y n0 dx exp1 fuel (dn + 1) exp1dn s
    else (s, false, dn)

/-- The terms above, Faddeeva.cpp:960-966: nothing when they have not converged after the given number of turns. The
exponential has the index of the next term, as in the code. -/
noncomputable def loopUp (y n0 dx : ℝ) : ℕ → ℕ → Sums → Option Sums
  | 0, _, _ => none
  | fuel + 1, dn, s =>
    let np := n0 + dn
    let dn := dn + 1
    let tp := exp (-((cA * dn + dx) * (cA * dn + dx))) / (cA2 * (np * np) + y * y)
    let s := { s with
      sum3 := s.sum3 + tp
      sum5 := s.sum5 + cA * np * tp }
    if cA * np * tp < relerr * s.sum5 then some s else loopUp y n0 dx fuel dn s

/-- The branch for a real part of at least 10, Faddeeva.cpp:922-966: nothing when the last loop has not ended after
`fuel` turns. -/
noncomputable def large (fuel : ℕ) (x y : ℝ) : Option Sums :=
  let n0 : ℝ := (⌊x / cA + 0.5⌋ : ℤ)
  let dx := cA * n0 - x
  let sum3 := exp (-dx * dx) / (cA2 * (n0 * n0) + y * y)
  let s := { zeroSums with
    sum3 := sum3
    sum5 := cA * n0 * sum3 }
  match loopBoth y n0 dx (exp (4 * cA * dx)) (⌊x / cA + 0.5⌋).toNat 1 1 s with
  | (s, true, _) => some s
  | (s, false, dn) => loopUp y n0 dx fuel dn s

/-- `Faddeeva::w`, Faddeeva.cpp:679-971: nothing when it has not returned after the given number of turns of the last
loop. -/
noncomputable def w (F : RealFns) (fuel : ℕ) (z : ℂ) : CRes (Option ℂ) :=
  open Classical in
  if z.re = 0 then .ok (some ⟨F.erfcx z.im, z.re⟩)
  else if z.im = 0 then .ok (some ⟨exp (-(z.re * z.re)), F.w_im z.re⟩)
  else if useCF |z.re| |z.im| then .ok (some (cf z.re z.im))
  else if |z.re| < 10 then
    (sums |z.re| z.im).map fun es => some (finish z.re z.im (head F z.re z.im es.1 es.2) es.2)
  else .ok ((large fuel |z.re| z.im).map fun s => finish z.re z.im (exp (-|z.re| * |z.re|) : ℝ) s)

/-- `profile`, fake_spectra/singleabs.h:56-61. -/
noncomputable def profile (F : RealFns) (fuel : ℕ) (uu aa : ℝ) : CRes (Option ℝ) :=
  (w F fuel ⟨uu, aa⟩).map fun r => r.map Complex.re

end Verif.Model.Faddeeva
