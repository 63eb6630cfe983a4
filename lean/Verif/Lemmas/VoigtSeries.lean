import Verif.Lemmas.Hermite
import Mathlib.Analysis.SpecialFunctions.Gaussian.PoissonSummation
import Mathlib.Analysis.SpecialFunctions.Integrals.Basic
import Mathlib.Analysis.SpecialFunctions.Trigonometric.DerivHyp
import Mathlib.MeasureTheory.Integral.Prod
import Mathlib.MeasureTheory.Integral.IntervalIntegral.FundThmCalculus

/-!
The Voigt function as a sum: an integral representation along the line profile, and the sum over a grid which Poisson
summation makes of it.
-/

namespace Verif.VoigtSeries
open MeasureTheory Real Verif.Spec

/-- The kernel which links both: for the integral over all `s`, and for the sum over a grid. -/
theorem kernel {y : ℝ} (hy : 0 < y) (s x : ℝ) :
    ∫ v in (0 : ℝ)..x, cosh (2 * s * v) * sin (2 * y * (x - v)) = y * (cosh (2 * s * x) - cos (2 * x * y)) / (2 * (s ^ 2 + y ^ 2)) := by
  have hd : s ^ 2 + y ^ 2 ≠ 0 := by positivity
  have h : ∀ v ∈ Set.uIcc 0 x, HasDerivAt (fun v => (s * sinh (2 * s * v) * sin (2 * y * (x - v)) +
      y * cosh (2 * s * v) * cos (2 * y * (x - v))) / (2 * (s ^ 2 + y ^ 2))) (cosh (2 * s * v) * sin (2 * y * (x - v))) v := by
    intro v _
    have a1 : HasDerivAt (fun v => 2 * s * v) (2 * s) v := by simpa using (hasDerivAt_id v).const_mul (2 * s)
    have a2 : HasDerivAt (fun v => 2 * y * (x - v)) (-(2 * y)) v := by
      simpa using ((hasDerivAt_id v).const_sub x).const_mul (2 * y)
    have := (((a1.sinh.const_mul s).mul a2.sin).add ((a1.cosh.const_mul y).mul a2.cos)).div_const (2 * (s ^ 2 + y ^ 2))
    refine HasDerivAt.congr_deriv this ?_
    rw [div_eq_iff (by positivity)]
    ring
  rw [intervalIntegral.integral_eq_sub_of_hasDerivAt h (Continuous.intervalIntegrable (by fun_prop) _ _)]
  simp only [sub_self, mul_zero, sinh_zero, sin_zero, cosh_zero, cos_zero, sub_zero]
  rw [show 2 * y * x = 2 * x * y by ring]
  field_simp
  ring

theorem cosh_integrable (x : ℝ) : Integrable fun s : ℝ => exp (-s ^ 2) * cosh (2 * s * x) := by
  have h1 : ∀ x : ℝ, Integrable fun s : ℝ => exp (-s ^ 2) * exp (2 * s * x) := by
    intro x
    have h := (gauss_integrable.comp_sub_right x).const_mul (exp (x ^ 2))
    refine h.congr (Filter.Eventually.of_forall fun s => ?_)
    simp only
    rw [← exp_add, ← exp_add]
    ring_nf
  have h := ((h1 x).add (h1 (-x))).div_const 2
  refine h.congr (Filter.Eventually.of_forall fun s => ?_)
  simp only [Pi.add_apply, cosh_eq]
  rw [show 2 * s * -x = -(2 * s * x) by ring]
  ring

theorem gauss_cosh (v : ℝ) : ∫ s : ℝ, exp (-s ^ 2) * cosh (2 * s * v) = √π * exp (v ^ 2) := by
  have h1 : ∀ x : ℝ, Integrable fun s : ℝ => exp (-s ^ 2) * exp (2 * s * x) := by
    intro x
    have h := (gauss_integrable.comp_sub_right x).const_mul (exp (x ^ 2))
    refine h.congr (Filter.Eventually.of_forall fun s => ?_)
    simp only
    rw [← exp_add, ← exp_add]
    ring_nf
  have h2 : ∀ x : ℝ, ∫ s : ℝ, exp (-s ^ 2) * exp (2 * s * x) = √π * exp (x ^ 2) := by
    intro x
    have : ∀ s : ℝ, exp (-s ^ 2) * exp (2 * s * x) = exp (x ^ 2) * exp (-(s - x) ^ 2) := by
      intro s
      rw [← exp_add, ← exp_add]
      ring_nf
    simp_rw [this]
    rw [integral_const_mul, integral_sub_right_eq_self (fun s : ℝ => exp (-s ^ 2)), gauss_integral]
    ring
  have : ∀ s : ℝ, exp (-s ^ 2) * cosh (2 * s * v) = (1 / 2) * (exp (-s ^ 2) * exp (2 * s * v)) + (1 / 2) * (exp (-s ^ 2) * exp (2 * s * -v)) := by
    intro s
    rw [cosh_eq, show 2 * s * -v = -(2 * s * v) by ring]
    ring
  simp_rw [this]
  rw [integral_add ((h1 v).const_mul _) ((h1 (-v)).const_mul _), integral_const_mul, integral_const_mul, h2, h2, neg_sq]
  ring

/-- The Voigt function with the Gaussian at the centre: a sum of cosines hyperbolic. -/
theorem voigtH_cosh {y : ℝ} (hy : 0 < y) (x : ℝ) :
    exp (x ^ 2) * voigtH y x = 1 / π * ∫ s : ℝ, exp (-s ^ 2) * cosh (2 * s * x) * lorentz y s ∧
    Integrable fun s : ℝ => exp (-s ^ 2) * cosh (2 * s * x) * lorentz y s := by
  have hint : Integrable fun s : ℝ => exp (-s ^ 2) * cosh (2 * s * x) * lorentz y s := by
    refine (cosh_integrable x).mul_bdd (c := y⁻¹) (lorentz_continuous hy).aestronglyMeasurable ?_
    exact Filter.Eventually.of_forall fun t => by
      rw [norm_eq_abs, abs_of_pos (lorentz_pos hy _)]; exact lorentz_le hy _
  refine ⟨?_, hint⟩
  have e1 : ∀ u : ℝ, exp (u ^ 2) * voigtH y u = 1 / π * ∫ s : ℝ, exp (-s ^ 2) * exp (2 * s * u) * lorentz y s := by
    intro u
    unfold voigtH
    rw [← integral_sub_left_eq_self (fun t : ℝ => exp (-t ^ 2) * lorentz y (u - t)) volume u, ← mul_assoc, mul_comm (exp (u ^ 2)),
      mul_assoc, ← integral_const_mul]
    congr 2
    funext s
    rw [sub_sub_cancel, ← mul_assoc, ← exp_add, ← exp_add]
    ring_nf
  have i1 : ∀ u : ℝ, Integrable fun s : ℝ => exp (-s ^ 2) * exp (2 * s * u) * lorentz y s := by
    intro u
    have h : Integrable fun s : ℝ => exp (-s ^ 2) * exp (2 * s * u) := by
      have h := (gauss_integrable.comp_sub_right u).const_mul (exp (u ^ 2))
      refine h.congr (Filter.Eventually.of_forall fun s => ?_)
      simp only
      rw [← exp_add, ← exp_add]
      ring_nf
    refine h.mul_bdd (c := y⁻¹) (lorentz_continuous hy).aestronglyMeasurable ?_
    exact Filter.Eventually.of_forall fun t => by
      rw [norm_eq_abs, abs_of_pos (lorentz_pos hy _)]; exact lorentz_le hy _
  have e2 : ∀ s : ℝ, exp (-s ^ 2) * cosh (2 * s * x) * lorentz y s =
      (1 / 2) * (exp (-s ^ 2) * exp (2 * s * x) * lorentz y s) + (1 / 2) * (exp (-s ^ 2) * exp (2 * s * -x) * lorentz y s) := by
    intro s
    rw [cosh_eq, show 2 * s * -x = -(2 * s * x) by ring]
    ring
  simp_rw [e2]
  rw [integral_add ((i1 x).const_mul _) ((i1 (-x)).const_mul _), integral_const_mul, integral_const_mul, mul_add]
  have a1 := e1 x
  have a2 := e1 (-x)
  rw [voigtH_even, neg_sq] at a2
  linear_combination (1 / 2) * a1 + (1 / 2) * a2

/-- The Voigt function from its value at the centre. -/
theorem voigtH_repr {y : ℝ} (hy : 0 < y) (x : ℝ) :
    exp (x ^ 2) * voigtH y x = cos (2 * x * y) * voigtH y 0 + 2 / √π * ∫ v in (0 : ℝ)..x, exp (v ^ 2) * sin (2 * y * (x - v)) := by
  obtain ⟨e, hi⟩ := voigtH_cosh hy x
  obtain ⟨e0, hi0⟩ := voigtH_cosh hy 0
  simp only [mul_zero, cosh_zero, mul_one, zero_pow two_ne_zero, exp_zero, one_mul] at e0 hi0
  have hfin : IsFiniteMeasure (volume.restrict (Set.uIoc 0 x)) :=
    isFiniteMeasure_restrict.2 (by rw [Set.uIoc, Real.volume_Ioc]; exact ENNReal.ofReal_ne_top)
  have hfub : Integrable (Function.uncurry fun (v s : ℝ) => exp (-s ^ 2) * (cosh (2 * s * v) * sin (2 * y * (x - v))))
      ((volume.restrict (Set.uIoc 0 x)).prod volume) := by
    have hb : Integrable (fun p : ℝ × ℝ => (1 : ℝ) * (exp (-p.2 ^ 2) * cosh (2 * p.2 * x))) ((volume.restrict (Set.uIoc 0 x)).prod volume) :=
      Integrable.mul_prod (f := fun _ : ℝ => (1 : ℝ)) (g := fun s : ℝ => exp (-s ^ 2) * cosh (2 * s * x)) (integrable_const 1) (cosh_integrable x)
    refine hb.mono' ?_ ?_
    · exact Continuous.aestronglyMeasurable (by unfold Function.uncurry; fun_prop)
    · have hm : ∀ᵐ p : ℝ × ℝ ∂((volume.restrict (Set.uIoc 0 x)).prod volume), p.1 ∈ Set.uIoc 0 x :=
        Measure.quasiMeasurePreserving_fst.ae (ae_restrict_mem measurableSet_uIoc)
      filter_upwards [hm] with p hp
      simp only [Function.uncurry, norm_mul, norm_eq_abs, abs_exp, one_mul]
      rw [abs_of_pos (cosh_pos _)]
      have h1 : |sin (2 * y * (x - p.1))| ≤ 1 := abs_sin_le_one _
      have h2 : cosh (2 * p.2 * p.1) ≤ cosh (2 * p.2 * x) := by
        rw [cosh_le_cosh, abs_mul, abs_mul (2 * p.2)]
        refine mul_le_mul_of_nonneg_left ?_ (abs_nonneg _)
        have := Set.abs_sub_left_of_mem_uIcc (Set.uIoc_subset_uIcc hp)
        simpa using this
      calc exp (-p.2 ^ 2) * (cosh (2 * p.2 * p.1) * |sin (2 * y * (x - p.1))|)
          ≤ exp (-p.2 ^ 2) * (cosh (2 * p.2 * x) * 1) := by
            gcongr
        _ = exp (-p.2 ^ 2) * cosh (2 * p.2 * x) := by ring
  have hsw := intervalIntegral_integral_swap (a := 0) (b := x) hfub
  simp_rw [intervalIntegral.integral_const_mul, kernel hy] at hsw
  have l1 : ∀ v : ℝ, ∫ s : ℝ, exp (-s ^ 2) * (cosh (2 * s * v) * sin (2 * y * (x - v))) = √π * (exp (v ^ 2) * sin (2 * y * (x - v))) := by
    intro v
    simp_rw [← mul_assoc]
    rw [integral_mul_const, gauss_cosh]
  simp_rw [l1] at hsw
  rw [intervalIntegral.integral_const_mul] at hsw
  have l2 : ∀ s : ℝ, exp (-s ^ 2) * (y * (cosh (2 * s * x) - cos (2 * x * y)) / (2 * (s ^ 2 + y ^ 2))) =
      (1 / 2) * (exp (-s ^ 2) * cosh (2 * s * x) * lorentz y s) - (cos (2 * x * y) / 2) * (exp (-s ^ 2) * lorentz y s) := by
    intro s
    have : s ^ 2 + y ^ 2 ≠ 0 := by positivity
    unfold lorentz
    field_simp
  simp_rw [l2] at hsw
  rw [integral_sub (hi.const_mul _) (hi0.const_mul _), integral_const_mul, integral_const_mul] at hsw
  have hp : √π * √π = π := mul_self_sqrt pi_pos.le
  have hp0 : √π ≠ 0 := by positivity
  have hq : (2 : ℝ) / √π = 2 / π * √π := by
    rw [div_mul_eq_mul_div, div_eq_div_iff hp0 pi_pos.ne', mul_assoc, hp]
  rw [hq, mul_assoc (2 / π), hsw, e, e0]
  ring

end Verif.VoigtSeries
