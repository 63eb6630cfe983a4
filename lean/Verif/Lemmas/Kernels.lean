import Verif.Lemmas.Absorption
import Mathlib.Analysis.Calculus.Deriv.MeanValue
import Mathlib.Analysis.SpecialFunctions.Integrals.Basic
import Mathlib.Analysis.SumIntegralComparisons
import Mathlib.Order.Monotone.Union
import Mathlib.MeasureTheory.Constructions.HaarToSphere
import Mathlib.MeasureTheory.Measure.Lebesgue.VolumeOfBalls

/-! Helper lemmas on the SPH kernels: truncated power form, continuity, monotonicity, integrals. -/

namespace Verif
namespace Absorption

open Real

theorem cubic_eq (q : ℝ) : sph_cubic_kernel q =
    8 / π * (2 * (max 0 (1 - q)) ^ 3 - 8 * (max 0 (1 / 2 - q)) ^ 3) := by
  unfold sph_cubic_kernel
  simp only
  split_ifs with h1 h2
  · rw [max_eq_left (by linarith), max_eq_left (by linarith)]; ring
  · rw [max_eq_right (by linarith), max_eq_right (by norm_num at h2; linarith)]; ring
  · rw [max_eq_right (by linarith), max_eq_left (by norm_num at h2; linarith)]; ring

theorem quintic_eq (q : ℝ) : sph_quintic_kernel q =
    9 / 40 / π * ((max 0 (3 - 3 * q)) ^ 5 - 6 * (max 0 (2 - 3 * q)) ^ 5
      + 15 * (max 0 (1 - 3 * q)) ^ 5) := by
  unfold sph_quintic_kernel
  simp only
  split_ifs with h1 h2 h3
  · rw [max_eq_left (by linarith), max_eq_left (by linarith), max_eq_left (by linarith)]; ring
  · rw [max_eq_right (by linarith), max_eq_right (by linarith), max_eq_right (by linarith)]; ring
  · rw [max_eq_right (by linarith), max_eq_right (by linarith), max_eq_left (by linarith)]; ring
  · have : 2 / 3 ≤ q := by
      by_contra hh; push Not at hh h2; exact h3 ⟨hh, h2⟩
    rw [max_eq_right (by linarith), max_eq_left (by linarith), max_eq_left (by linarith)]; ring

theorem cubic_continuous : Continuous sph_cubic_kernel := by
  rw [show sph_cubic_kernel = _ from funext cubic_eq]; fun_prop

theorem quintic_continuous : Continuous sph_quintic_kernel := by
  rw [show sph_quintic_kernel = _ from funext quintic_eq]; fun_prop

theorem antitoneOn_of_hasDerivAt {f f' : ℝ → ℝ} {a b : ℝ} (hf : ∀ x, HasDerivAt f (f' x) x)
    (h : ∀ x, a ≤ x → x ≤ b → f' x ≤ 0) : AntitoneOn f (Set.Icc a b) := by
  apply antitoneOn_of_deriv_nonpos (convex_Icc a b)
  · exact fun x _ => (hf x).continuousAt.continuousWithinAt
  · exact fun x _ => (hf x).differentiableAt.differentiableWithinAt
  · intro x hx
    rw [interior_Icc] at hx
    rw [(hf x).deriv]
    exact h x hx.1.le hx.2.le

theorem antitoneOn_glue {f : ℝ → ℝ} {a b c : ℝ} (hab : a ≤ b) (hbc : b ≤ c)
    (h1 : AntitoneOn f (Set.Icc a b)) (h2 : AntitoneOn f (Set.Icc b c)) :
    AntitoneOn f (Set.Icc a c) := by
  rw [← Set.Icc_union_Icc_eq_Icc hab hbc]
  exact AntitoneOn.union_right h1 h2 (isGreatest_Icc hab) (isLeast_Icc hbc)

theorem antitoneOn_tail {f : ℝ → ℝ} (h1 : AntitoneOn f (Set.Icc 0 1)) (h2 : ∀ q, 1 ≤ q → f q = 0) :
    AntitoneOn f (Set.Ici 0) := by
  have : Set.Ici (0 : ℝ) = Set.Icc 0 1 ∪ Set.Ici 1 := (Set.Icc_union_Ici_eq_Ici (by norm_num)).symm
  rw [this]
  refine AntitoneOn.union_right h1 ?_ (isGreatest_Icc (by norm_num)) isLeast_Ici
  intro x hx y hy _
  rw [h2 x hx, h2 y hy]

theorem cubic_zero {q : ℝ} (h : 1 ≤ q) : sph_cubic_kernel q = 0 := by
  unfold sph_cubic_kernel; rw [if_pos h]

theorem quintic_zero {q : ℝ} (h : 1 ≤ q) : sph_quintic_kernel q = 0 := by
  unfold sph_quintic_kernel; rw [if_pos h]

theorem cubic_inner {q : ℝ} (h : q ≤ 1 / 2) :
    sph_cubic_kernel q = 8 / π * (1 - 6 * q ^ 2 + 6 * q ^ 3) := by
  rw [cubic_eq, max_eq_right (by linarith), max_eq_right (by linarith)]; ring

theorem cubic_outer {q : ℝ} (h : 1 / 2 ≤ q) (h1 : q ≤ 1) :
    sph_cubic_kernel q = 8 / π * (2 * (1 - q) ^ 3) := by
  rw [cubic_eq, max_eq_right (by linarith), max_eq_left (by linarith)]; ring

theorem quintic_inner {q : ℝ} (h : q ≤ 1 / 3) : sph_quintic_kernel q =
    9 / 40 / π * (66 - 540 * q ^ 2 + 2430 * q ^ 4 - 2430 * q ^ 5) := by
  rw [quintic_eq, max_eq_right (by linarith), max_eq_right (by linarith),
    max_eq_right (by linarith)]; ring

theorem quintic_middle {q : ℝ} (h : 1 / 3 ≤ q) (h1 : q ≤ 2 / 3) : sph_quintic_kernel q =
    9 / 40 / π * ((3 - 3 * q) ^ 5 - 6 * (2 - 3 * q) ^ 5) := by
  rw [quintic_eq, max_eq_right (by linarith), max_eq_right (by linarith),
    max_eq_left (by linarith)]; ring

theorem quintic_outer {q : ℝ} (h : 2 / 3 ≤ q) (h1 : q ≤ 1) : sph_quintic_kernel q =
    9 / 40 / π * (243 * (1 - q) ^ 5) := by
  rw [quintic_eq, max_eq_right (by linarith), max_eq_left (by linarith),
    max_eq_left (by linarith)]; ring

theorem antitoneOn_congr_mul {f g : ℝ → ℝ} {c a b : ℝ} (hc : 0 ≤ c)
    (h : ∀ x, a ≤ x → x ≤ b → f x = c * g x) (hg : AntitoneOn g (Set.Icc a b)) :
    AntitoneOn f (Set.Icc a b) := by
  intro x hx y hy hxy
  rw [h x hx.1 hx.2, h y hy.1 hy.2]
  exact mul_le_mul_of_nonneg_left (hg hx hy hxy) hc

theorem cubic_antitone : AntitoneOn sph_cubic_kernel (Set.Ici 0) := by
  have hpi := pi_pos
  apply antitoneOn_tail _ (fun q h => cubic_zero h)
  apply antitoneOn_glue (b := 1 / 2) (by norm_num) (by norm_num)
  · apply antitoneOn_congr_mul (c := 8 / π) (by positivity) (fun x _ h => cubic_inner h)
    apply antitoneOn_of_hasDerivAt (f' := fun x => -(6 * (2 * x)) + 6 * (3 * x ^ 2))
    · intro x
      have h2 := ((hasDerivAt_pow 2 x).const_mul 6)
      have h3 := ((hasDerivAt_pow 3 x).const_mul 6)
      have := ((hasDerivAt_const x (1 : ℝ)).sub h2).add h3
      exact this.congr_deriv (by push_cast; ring)
    · intro x h0 h1; nlinarith
  · apply antitoneOn_congr_mul (c := 8 / π) (by positivity) (fun x h h1 => cubic_outer h h1)
    intro x hx y hy hxy
    have := pow_le_pow_left₀ (by linarith [hy.2] : 0 ≤ 1 - y) (by linarith : 1 - y ≤ 1 - x) 3
    simp only; linarith

theorem quintic_antitone : AntitoneOn sph_quintic_kernel (Set.Ici 0) := by
  have hpi := pi_pos
  apply antitoneOn_tail _ (fun q h => quintic_zero h)
  apply antitoneOn_glue (b := 1 / 3) (by norm_num) (by norm_num)
  · apply antitoneOn_congr_mul (c := 9 / 40 / π) (by positivity) (fun x _ h => quintic_inner h)
    apply antitoneOn_of_hasDerivAt
      (f' := fun x => -(540 * (2 * x)) + 2430 * (4 * x ^ 3) - 2430 * (5 * x ^ 4))
    · intro x
      have h2 := ((hasDerivAt_pow 2 x).const_mul 540)
      have h4 := ((hasDerivAt_pow 4 x).const_mul 2430)
      have h5 := ((hasDerivAt_pow 5 x).const_mul 2430)
      have := (((hasDerivAt_const x (66 : ℝ)).sub h2).add h4).sub h5
      exact this.congr_deriv (by push_cast; ring)
    · intro x h0 h1
      have : x ^ 2 ≤ 1 / 9 := by nlinarith
      have h3 : x ^ 3 ≤ 1 / 9 * x := by nlinarith
      have : 0 ≤ x ^ 4 := by positivity
      nlinarith
  · apply antitoneOn_glue (b := 2 / 3) (by norm_num) (by norm_num)
    · apply antitoneOn_congr_mul (c := 9 / 40 / π) (by positivity)
        (fun x h h1 => quintic_middle h h1)
      apply antitoneOn_of_hasDerivAt
        (f' := fun x => 5 * (3 - 3 * x) ^ 4 * (-3) - 6 * (5 * (2 - 3 * x) ^ 4 * (-3)))
      · intro x
        have hl : ∀ c : ℝ, HasDerivAt (fun x : ℝ => c - 3 * x) (-3) x := by
          intro c
          have := (hasDerivAt_const x c).sub ((hasDerivAt_id x).const_mul 3)
          exact this.congr_deriv (by norm_num)
        have h1 := (hl 3).pow 5
        have h2 := ((hl 2).pow 5).const_mul 6
        have := h1.sub h2
        exact this.congr_deriv (by norm_num)
      · intro x h0 h1
        have hu0 : 0 ≤ 2 - 3 * x := by linarith
        have hu1 : 2 - 3 * x ≤ 1 := by linarith
        rw [show (3 : ℝ) - 3 * x = (2 - 3 * x) + 1 by ring]
        generalize 2 - 3 * x = u at *
        have : u ^ 4 ≤ u ^ 2 := pow_le_pow_of_le_one hu0 hu1 (by norm_num)
        have h16 : 16 * u ^ 2 ≤ (u + 1) ^ 4 := by nlinarith [sq_nonneg (u - 1), sq_nonneg (u + 1), mul_nonneg (sq_nonneg (u-1)) (sq_nonneg (u + 1))]
        nlinarith [sq_nonneg u]
    · apply antitoneOn_congr_mul (c := 9 / 40 / π) (by positivity)
        (fun x h h1 => quintic_outer h h1)
      intro x hx y hy hxy
      have := pow_le_pow_left₀ (by linarith [hy.2] : 0 ≤ 1 - y) (by linarith : 1 - y ≤ 1 - x) 5
      simp only; linarith

/-! ### Unit mass -/

theorem integral_poly {f F p : ℝ → ℝ} {a b : ℝ} (hab : a ≤ b)
    (h : ∀ x, a ≤ x → x ≤ b → f x = p x) (hF : ∀ x, HasDerivAt F (p x) x) (hp : Continuous p) :
    ∫ x in a..b, f x = F b - F a := by
  rw [intervalIntegral.integral_congr (g := p)]
  · exact intervalIntegral.integral_eq_sub_of_hasDerivAt (fun x _ => hF x) (hp.intervalIntegrable a b)
  · intro x hx
    rw [Set.uIcc_of_le hab] at hx
    exact h x hx.1 hx.2

/-- Volume integral of a radial function supported in the unit ball. -/
theorem integral_radial (f : ℝ → ℝ) (h0 : ∀ q, 1 < q → f q = 0) :
    ∫ x : EuclideanSpace ℝ (Fin 3), f ‖x‖ = 4 * π * ∫ q in (0 : ℝ)..1, q ^ 2 * f q := by
  rw [MeasureTheory.integral_fun_norm_addHaar MeasureTheory.volume f]
  simp only [finrank_euclideanSpace_fin, nsmul_eq_mul, smul_eq_mul]
  rw [MeasureTheory.measureReal_def, EuclideanSpace.volume_ball_fin_three]
  rw [intervalIntegral.integral_of_le (by norm_num)]
  have : ∫ y in Set.Ioi (0 : ℝ), y ^ (3 - 1) * f y = ∫ y in Set.Ioc (0 : ℝ) 1, y ^ 2 * f y := by
    rw [← MeasureTheory.integral_indicator measurableSet_Ioi,
      ← MeasureTheory.integral_indicator measurableSet_Ioc]
    congr 1
    funext y
    by_cases h1 : 0 < y
    · by_cases h2 : y ≤ 1
      · rw [Set.indicator_of_mem (Set.mem_Ioi.2 h1), Set.indicator_of_mem (Set.mem_Ioc.2 ⟨h1, h2⟩)]
      · rw [Set.indicator_of_mem (Set.mem_Ioi.2 h1), Set.indicator_of_notMem (fun h => h2 h.2),
          h0 y (by linarith), mul_zero]
    · rw [Set.indicator_of_notMem (by rwa [Set.mem_Ioi]), Set.indicator_of_notMem (fun h => h1 h.1)]
  rw [this, ENNReal.toReal_mul, ENNReal.toReal_pow, ENNReal.toReal_ofReal (by norm_num),
    ENNReal.toReal_ofReal (by positivity)]
  push_cast
  ring

theorem cubic_radial : ∫ q in (0 : ℝ)..1, q ^ 2 * sph_cubic_kernel q = 1 / (4 * π) := by
  have hpi := pi_pos
  have hc : Continuous fun q => q ^ 2 * sph_cubic_kernel q := (continuous_pow 2).mul cubic_continuous
  rw [← intervalIntegral.integral_add_adjacent_intervals (b := 1 / 2)
    (hc.intervalIntegrable _ _) (hc.intervalIntegrable _ _)]
  rw [integral_poly (a := 0) (b := 1 / 2) (F := fun q => 8 / π * (q ^ 3 / 3 - 6 * q ^ 5 / 5 + q ^ 6))
    (p := fun q => 8 / π * (q ^ 2 - 6 * q ^ 4 + 6 * q ^ 5)) (by norm_num)]
  rw [integral_poly (a := 1 / 2) (b := 1)
    (F := fun q => 16 / π * (q ^ 3 / 3 - 3 * q ^ 4 / 4 + 3 * q ^ 5 / 5 - q ^ 6 / 6))
    (p := fun q => 16 / π * (q ^ 2 - 3 * q ^ 3 + 3 * q ^ 4 - q ^ 5)) (by norm_num)]
  · field_simp; norm_num
  · intro x h1 h2; rw [cubic_outer h1 h2]; ring
  · intro x
    have h := (((((hasDerivAt_pow 3 x).div_const 3).sub (((hasDerivAt_pow 4 x).const_mul 3).div_const 4)).add
      (((hasDerivAt_pow 5 x).const_mul 3).div_const 5)).sub ((hasDerivAt_pow 6 x).div_const 6)).const_mul (16 / π)
    exact h.congr_deriv (by push_cast; ring)
  · fun_prop
  · intro x _ h2; rw [cubic_inner h2]; ring
  · intro x
    have h := ((((hasDerivAt_pow 3 x).div_const 3).sub (((hasDerivAt_pow 5 x).const_mul 6).div_const 5)).add
      (hasDerivAt_pow 6 x)).const_mul (8 / π)
    exact h.congr_deriv (by push_cast; ring)
  · fun_prop

theorem quintic_radial : ∫ q in (0 : ℝ)..1, q ^ 2 * sph_quintic_kernel q = 1 / (4 * π) := by
  have hpi := pi_pos
  have hc : Continuous fun q => q ^ 2 * sph_quintic_kernel q :=
    (continuous_pow 2).mul quintic_continuous
  rw [← intervalIntegral.integral_add_adjacent_intervals (b := 1 / 3)
    (hc.intervalIntegrable _ _) (hc.intervalIntegrable _ _)]
  rw [← intervalIntegral.integral_add_adjacent_intervals (a := 1 / 3) (b := 2 / 3)
    (hc.intervalIntegrable _ _) (hc.intervalIntegrable _ _)]
  have hd : ∀ (c0 c1 c2 c3 c4 c5 : ℝ) (x : ℝ), HasDerivAt (fun q => 9 / 40 / π *
      (c0 * q ^ 3 / 3 + c1 * q ^ 4 / 4 + c2 * q ^ 5 / 5 + c3 * q ^ 6 / 6 + c4 * q ^ 7 / 7 + c5 * q ^ 8 / 8))
      (9 / 40 / π * (c0 * x ^ 2 + c1 * x ^ 3 + c2 * x ^ 4 + c3 * x ^ 5 + c4 * x ^ 6 + c5 * x ^ 7)) x := by
    intro c0 c1 c2 c3 c4 c5 x
    have h := (((((((hasDerivAt_pow 3 x).const_mul c0).div_const 3).add
      (((hasDerivAt_pow 4 x).const_mul c1).div_const 4)).add
      (((hasDerivAt_pow 5 x).const_mul c2).div_const 5)).add
      (((hasDerivAt_pow 6 x).const_mul c3).div_const 6)).add
      (((hasDerivAt_pow 7 x).const_mul c4).div_const 7)).add
      (((hasDerivAt_pow 8 x).const_mul c5).div_const 8) |>.const_mul (9 / 40 / π)
    exact h.congr_deriv (by push_cast; ring)
  rw [integral_poly (a := 0) (b := 1 / 3) (by norm_num) _ (hd 66 0 (-540) 0 2430 (-2430)) (by fun_prop)]
  rw [integral_poly (a := 1 / 3) (b := 2 / 3) (by norm_num) _ (hd 51 225 (-1890) 4050 (-3645) 1215) (by fun_prop)]
  rw [integral_poly (a := 2 / 3) (b := 1) (by norm_num) _ (hd 243 (-1215) 2430 (-2430) 1215 (-243)) (by fun_prop)]
  · field_simp; norm_num
  · intro x h1 h2; rw [quintic_outer h1 h2]; ring
  · intro x h1 h2; rw [quintic_middle h1 h2]; ring
  · intro x h1 h2; rw [quintic_inner h2]; ring

end Absorption
end Verif
