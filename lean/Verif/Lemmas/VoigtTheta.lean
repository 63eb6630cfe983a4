import Verif.Lemmas.VoigtSeries
import Mathlib.Analysis.SpecificLimits.Basic
import Mathlib.Analysis.Complex.ExponentialBounds
import Mathlib.Analysis.Real.Pi.Bounds

/-!
Sums of Gaussians over a grid: Poisson summation gives the integral, with a relative error far below that of a `double`.
-/

namespace Verif.VoigtSeries
open Real

/-- A term of the sum over the grid. -/
noncomputable def gterm (h v : ℝ) (n : ℕ) : ℝ := 2 * exp (-(h * (n + 1)) ^ 2) * cosh (2 * (h * (n + 1)) * v)

theorem gterm_eq (h v : ℝ) (n : ℕ) : gterm h v n = exp (v ^ 2) * (exp (-(h * (n + 1) - v) ^ 2) + exp (-(h * (n + 1) + v) ^ 2)) := by
  unfold gterm
  rw [cosh_eq, mul_add (exp (v ^ 2)), ← exp_add, ← exp_add]
  have e1 : v ^ 2 + -(h * ((n : ℝ) + 1) - v) ^ 2 = -(h * ((n : ℝ) + 1)) ^ 2 + 2 * (h * (n + 1)) * v := by ring
  have e2 : v ^ 2 + -(h * ((n : ℝ) + 1) + v) ^ 2 = -(h * ((n : ℝ) + 1)) ^ 2 + -(2 * (h * (n + 1)) * v) := by ring
  rw [e1, e2, exp_add, exp_add]
  ring

theorem gauss_geom {h : ℝ} (hh : 0 < h) (v : ℝ) : Summable fun n : ℕ => exp (-(h * ((n : ℝ) + 1) - v) ^ 2) := by
  have hg : Summable fun n : ℕ => exp (1 + 2 * v) * exp (-2 * h) ^ (n + 1) := by
    refine Summable.mul_left _ ?_
    have := summable_geometric_of_lt_one (exp_pos (-2 * h)).le (by rw [exp_lt_one_iff]; linarith)
    exact (summable_nat_add_iff 1).2 this
  refine Summable.of_nonneg_of_le (fun n => (exp_pos _).le) (fun n => ?_) hg
  rw [← exp_nat_mul, ← exp_add, exp_le_exp]
  push_cast
  nlinarith [sq_nonneg (h * ((n : ℝ) + 1) - v - 1)]

/-- The whole sum over the grid. -/
noncomputable def gsum (h v : ℝ) : ℝ := 1 + ∑' n, gterm h v n

theorem gterm_summable {h : ℝ} (hh : 0 < h) (v : ℝ) : Summable (gterm h v) := by
  have h1 := gauss_geom hh v
  have h2 := gauss_geom hh (-v)
  refine ((h1.add h2).mul_left (exp (v ^ 2))).congr fun n => ?_
  rw [gterm_eq, sub_neg_eq_add]

/-- Poisson summation. -/
theorem gsum_poisson {h : ℝ} (hh : 0 < h) (hh' : h ≤ 0.52) (v : ℝ) : |h / √π * gsum h v - exp (v ^ 2)| ≤ 6e-16 * exp (v ^ 2) := by
  have hpi := pi_pos
  have ha : 0 < ((h ^ 2 / π : ℝ) : ℂ).re := by rw [Complex.ofReal_re]; positivity
  have key := Complex.tsum_exp_neg_quadratic ha ((h * v / π : ℝ) : ℂ)
  -- the left side
  have hl : ∀ n : ℤ, Complex.exp (-π * ((h ^ 2 / π : ℝ) : ℂ) * n ^ 2 + 2 * π * ((h * v / π : ℝ) : ℂ) * n) =
      ((exp (v ^ 2) * exp (-(h * n - v) ^ 2) : ℝ) : ℂ) := by
    intro n
    rw [← exp_add, Complex.ofReal_exp]
    congr 1
    push_cast
    have : (π : ℂ) ≠ 0 := by exact_mod_cast hpi.ne'
    field_simp
    ring
  simp_rw [hl] at key
  have s1 := ((gauss_geom hh v).mul_left (exp (v ^ 2)))
  have s2 := ((gauss_geom hh (-v)).mul_left (exp (v ^ 2)))
  have hsumL : HasSum (fun n : ℤ => exp (v ^ 2) * exp (-(h * (n : ℝ) - v) ^ 2)) (gsum h v) := by
    have := HasSum.of_add_one_of_neg_add_one (f := fun n : ℤ => exp (v ^ 2) * exp (-(h * (n : ℝ) - v) ^ 2))
      (m := ∑' n : ℕ, exp (v ^ 2) * exp (-(h * ((n : ℝ) + 1) - v) ^ 2)) (m' := ∑' n : ℕ, exp (v ^ 2) * exp (-(h * ((n : ℝ) + 1) - -v) ^ 2)) ?_ ?_
    · convert this using 1
      unfold gsum
      have e : ∀ n, gterm h v n = exp (v ^ 2) * exp (-(h * ((n : ℝ) + 1) - v) ^ 2) + exp (v ^ 2) * exp (-(h * ((n : ℝ) + 1) - -v) ^ 2) := by
        intro n
        rw [gterm_eq, sub_neg_eq_add]
        ring
      simp_rw [e]
      rw [s1.tsum_add s2]
      simp only [Int.cast_zero, mul_zero, zero_sub, neg_sq]
      rw [← exp_add, add_neg_cancel, exp_zero]
      ring
    · simpa using s1.hasSum
    · have e : ∀ n : ℕ, exp (v ^ 2) * exp (-(h * (((-((n : ℤ) + 1) : ℤ)) : ℝ) - v) ^ 2) = exp (v ^ 2) * exp (-(h * ((n : ℝ) + 1) - -v) ^ 2) := by
        intro n
        push_cast
        congr 2
        ring
      simp_rw [e]
      exact s2.hasSum
  have hL : (∑' n : ℤ, ((exp (v ^ 2) * exp (-(h * (n : ℝ) - v) ^ 2) : ℝ) : ℂ)) = ((gsum h v : ℝ) : ℂ) := by
    rw [← Complex.ofReal_tsum, hsumL.tsum_eq]
  rw [hL] at key
  -- the right side
  set q := exp (-(π ^ 2 / h ^ 2)) with hq
  have hq0 : 0 < q := exp_pos _
  have hq1 : q ≤ 2.4e-16 := by
    have h36 : 36 ≤ π ^ 2 / h ^ 2 := by
      rw [le_div_iff₀ (by positivity)]
      have := pi_gt_d2
      norm_num at this hh'
      nlinarith
    have e36 : exp (-36) ≤ 2.4e-16 := by
      have h1 : exp (-1) ≤ 0.36788 := by
        rw [exp_neg, inv_le_comm₀ (exp_pos _) (by norm_num)]
        have := exp_one_gt_d9
        norm_num at this ⊢
        linarith
      have e : exp (-36) = exp (-1) ^ 36 := by
        rw [← exp_nat_mul]
        norm_num
      rw [e]
      calc exp (-1) ^ 36 ≤ (0.36788 : ℝ) ^ 36 := by gcongr
        _ ≤ 2.4e-16 := by norm_num
    exact (exp_le_exp.2 (by linarith)).trans e36
  set f : ℤ → ℂ := fun n => Complex.exp (-π / ((h ^ 2 / π : ℝ) : ℂ) * (n + Complex.I * ((h * v / π : ℝ) : ℂ)) ^ 2) with hf
  have hfn : ∀ n : ℤ, ‖f n‖ = exp (v ^ 2) * exp (-(π ^ 2 / h ^ 2) * (n : ℝ) ^ 2) := by
    intro n
    rw [hf]
    simp only
    rw [Complex.norm_exp, ← exp_add]
    congr 1
    have e : -(π : ℂ) / ((h ^ 2 / π : ℝ) : ℂ) * (n + Complex.I * ((h * v / π : ℝ) : ℂ)) ^ 2 =
        ((-(π ^ 2 / h ^ 2) * ((n : ℝ) ^ 2 - (h * v / π) ^ 2) : ℝ) : ℂ) + ((-(π ^ 2 / h ^ 2) * (2 * n * (h * v / π)) : ℝ) : ℂ) * Complex.I := by
      push_cast
      have h1 : (π : ℂ) ≠ 0 := by exact_mod_cast hpi.ne'
      have h2 : (h : ℂ) ≠ 0 := by exact_mod_cast hh.ne'
      field_simp
      linear_combination (-(π : ℂ)^2 * 0 - (h : ℂ) ^ 2 * (v : ℂ) ^ 2) * Complex.I_sq
    rw [e, Complex.add_re, Complex.re_ofReal_mul, Complex.I_re, mul_zero, add_zero, Complex.ofReal_re]
    field_simp
    ring
  have hb : ∀ (k : ℕ) (m : ℤ), (m : ℝ) ^ 2 = ((k : ℝ) + 1) ^ 2 → ‖f m‖ ≤ exp (v ^ 2) * (q * q ^ k) := by
    intro k m hm
    rw [hfn, hm]
    refine mul_le_mul_of_nonneg_left ?_ (exp_pos _).le
    rw [hq, ← exp_nat_mul, ← exp_add, exp_le_exp]
    have : 0 ≤ π ^ 2 / h ^ 2 := by positivity
    nlinarith [mul_nonneg this (Nat.cast_nonneg (α := ℝ) k), mul_nonneg (mul_nonneg this (Nat.cast_nonneg (α := ℝ) k)) (Nat.cast_nonneg (α := ℝ) k)]
  have hgeo : HasSum (fun k : ℕ => exp (v ^ 2) * (q * q ^ k)) (exp (v ^ 2) * (q * (1 - q)⁻¹)) := by
    refine ((hasSum_geometric_of_lt_one hq0.le ?_).mul_left _).mul_left _
    norm_num at hq1
    linarith
  have b1 : ∀ k : ℕ, ‖f ((k : ℤ) + 1)‖ ≤ exp (v ^ 2) * (q * q ^ k) := fun k => hb k _ (by push_cast; ring)
  have b2 : ∀ k : ℕ, ‖f (-((k : ℤ) + 1))‖ ≤ exp (v ^ 2) * (q * q ^ k) := fun k => hb k _ (by push_cast; ring)
  have t1 : Summable fun k : ℕ => f ((k : ℤ) + 1) := Summable.of_norm_bounded hgeo.summable b1
  have t2 : Summable fun k : ℕ => f (-((k : ℤ) + 1)) := Summable.of_norm_bounded hgeo.summable b2
  have n1 := tsum_of_norm_bounded hgeo b1
  have n2 := tsum_of_norm_bounded hgeo b2
  have hR := (HasSum.of_add_one_of_neg_add_one t1.hasSum t2.hasSum).tsum_eq
  have f0 : f 0 = ((exp (v ^ 2) : ℝ) : ℂ) := by
    rw [hf]
    simp only
    rw [Complex.ofReal_exp]
    congr 1
    push_cast
    have h1 : (π : ℂ) ≠ 0 := by exact_mod_cast hpi.ne'
    have h2 : (h : ℂ) ≠ 0 := by exact_mod_cast hh.ne'
    field_simp
    linear_combination (-(h : ℂ) ^ 2 * (v : ℂ) ^ 2) * Complex.I_sq
  have hfac : ((h ^ 2 / π : ℝ) : ℂ) ^ (1 / 2 : ℂ) = ((h / √π : ℝ) : ℂ) := by
    have : (1 / 2 : ℂ) = ((1 / 2 : ℝ) : ℂ) := by push_cast; rfl
    rw [this, ← Complex.ofReal_cpow (by positivity), ← sqrt_eq_rpow, sqrt_div (by positivity), sqrt_sq hh.le]
  rw [hfac, show (∑' n : ℤ, Complex.exp (-π / ((h ^ 2 / π : ℝ) : ℂ) * (n + Complex.I * ((h * v / π : ℝ) : ℂ)) ^ 2)) = ∑' n, f n from rfl, hR, f0] at key
  have hd : (h / √π : ℝ) ≠ 0 := by positivity
  have key2 : ((h / √π * gsum h v - exp (v ^ 2) : ℝ) : ℂ) = (∑' k : ℕ, f ((k : ℤ) + 1)) + ∑' k : ℕ, f (-((k : ℤ) + 1)) := by
    have hdc : ((h / √π : ℝ) : ℂ) ≠ 0 := by exact_mod_cast hd
    rw [Complex.ofReal_sub, Complex.ofReal_mul, key, ← mul_assoc, mul_one_div_cancel hdc]
    ring
  have : ‖((h / √π * gsum h v - exp (v ^ 2) : ℝ) : ℂ)‖ ≤ exp (v ^ 2) * (q * (1 - q)⁻¹) + exp (v ^ 2) * (q * (1 - q)⁻¹) := by
    rw [key2]
    exact (norm_add_le _ _).trans (add_le_add n1 n2)
  rw [Complex.norm_real, norm_eq_abs] at this
  refine this.trans ?_
  rw [← mul_add, mul_comm]
  refine mul_le_mul_of_nonneg_right ?_ (exp_pos _).le
  have h3 : (1 - q)⁻¹ ≤ 1.1 := by
    rw [inv_le_comm₀ (by norm_num at hq1; linarith) (by norm_num)]
    norm_num at hq1 ⊢
    linarith
  have h4 : q * (1 - q)⁻¹ ≤ 2.4e-16 * 1.1 := by
    refine mul_le_mul hq1 h3 ?_ (by norm_num)
    rw [inv_nonneg]
    norm_num at hq1
    linarith
  norm_num at h4 ⊢
  linarith

/-- The tail of the sum. -/
theorem gsum_tail {h v x : ℝ} {N : ℕ} (hh : 0.5 ≤ h) (hv : |v| ≤ x) (hd : 5 ≤ h * N - x) :
    |gsum h v - (1 + ∑ n ∈ Finset.range N, gterm h v n)| ≤ 0.0137 * exp (-(h * N - x) ^ 2) * exp (v ^ 2) := by
  have hh0 : 0 < h := lt_of_lt_of_le (by norm_num) hh
  have hs := gterm_summable hh0 v
  unfold gsum
  rw [← hs.sum_add_tsum_nat_add N, show ∀ a b : ℝ, 1 + (a + b) - (1 + a) = b by intros; ring]
  set d := h * N - x with hdd
  set r := exp (-5) with hr
  have hr0 : 0 < r := exp_pos _
  have hr1 : r ≤ 0.00675 := by
    have h1 : exp (-1) ≤ 0.36788 := by
      rw [exp_neg, inv_le_comm₀ (exp_pos _) (by norm_num)]
      have := exp_one_gt_d9
      norm_num at this ⊢
      linarith
    have e : exp (-5) = exp (-1) ^ 5 := by
      rw [← exp_nat_mul]
      norm_num
    rw [hr, e]
    calc exp (-1) ^ 5 ≤ (0.36788 : ℝ) ^ 5 := by gcongr
      _ ≤ 0.00675 := by norm_num
  have hgeo : HasSum (fun k : ℕ => exp (v ^ 2) * exp (-d ^ 2) * 2 * (r * r ^ k)) (exp (v ^ 2) * exp (-d ^ 2) * 2 * (r * (1 - r)⁻¹)) := by
    refine ((hasSum_geometric_of_lt_one hr0.le ?_).mul_left _).mul_left _
    norm_num at hr1
    linarith
  have hb : ∀ k : ℕ, ‖gterm h v (k + N)‖ ≤ exp (v ^ 2) * exp (-d ^ 2) * 2 * (r * r ^ k) := by
    intro k
    rw [gterm_eq, norm_eq_abs, abs_of_pos (by positivity), mul_assoc, mul_assoc]
    refine mul_le_mul_of_nonneg_left ?_ (exp_pos _).le
    have hk : (0 : ℝ) ≤ k := Nat.cast_nonneg k
    have hv' := abs_le.1 hv
    have aux : ∀ t : ℝ, d + (k + 1) / 2 ≤ t → exp (-t ^ 2) ≤ exp (-d ^ 2) * (r * r ^ k) := by
      intro t ht
      rw [hr, ← exp_nat_mul, ← exp_add, ← exp_add, exp_le_exp]
      have : (d + (k + 1) / 2) ^ 2 ≤ t ^ 2 := by
        have : 0 ≤ d + (k + 1) / 2 := by positivity
        gcongr
      nlinarith
    have hhk : (k + 1) / 2 ≤ h * ((k : ℝ) + 1) := by
      norm_num at hh
      nlinarith
    have a1 := aux (h * (((k + N : ℕ) : ℝ) + 1) - v) (by push_cast; rw [hdd]; linarith)
    have a2 := aux (h * (((k + N : ℕ) : ℝ) + 1) + v) (by push_cast; rw [hdd]; linarith)
    linarith
  have := tsum_of_norm_bounded hgeo hb
  rw [norm_eq_abs] at this
  refine this.trans ?_
  have h3 : (1 - r)⁻¹ ≤ 1.01 := by
    rw [inv_le_comm₀ (by norm_num at hr1; linarith) (by norm_num)]
    norm_num at hr1 ⊢
    linarith
  have h4 : r * (1 - r)⁻¹ ≤ 0.00675 * 1.01 := by
    refine mul_le_mul hr1 h3 ?_ (by norm_num)
    rw [inv_nonneg]
    norm_num at hr1
    linarith
  calc exp (v ^ 2) * exp (-d ^ 2) * 2 * (r * (1 - r)⁻¹) ≤ exp (v ^ 2) * exp (-d ^ 2) * 2 * (0.00675 * 1.01) := by gcongr
    _ = 0.013635 * exp (-d ^ 2) * exp (v ^ 2) := by ring
    _ ≤ _ := by gcongr; norm_num

/-- The finite sum over the grid is nearly the Gaussian. -/
theorem gsum_trunc {h v x : ℝ} {N : ℕ} (hh : 0.5 ≤ h) (hh' : h ≤ 0.52) (hv : |v| ≤ x) (hd : 5 ≤ h * N - x) :
    |h / √π * (1 + ∑ n ∈ Finset.range N, gterm h v n) - exp (v ^ 2)| ≤ (6e-16 + 0.0045 * exp (-(h * N - x) ^ 2)) * exp (v ^ 2) := by
  have hh0 : 0 < h := lt_of_lt_of_le (by norm_num) hh
  have h1 := gsum_poisson hh0 hh' v
  have h2 := gsum_tail hh hv hd
  have hs : 0 < √π := sqrt_pos.2 pi_pos
  have h3 : h / √π ≤ 0.32 := by
    rw [div_le_iff₀ hs]
    have : 1.7 ≤ √π := by
      rw [le_sqrt (by norm_num) pi_pos.le]
      have := pi_gt_d2
      norm_num at this ⊢
      linarith
    norm_num at this hh' ⊢
    linarith
  have h0 : 0 < h / √π := by positivity
  generalize 1 + ∑ n ∈ Finset.range N, gterm h v n = S at *
  have h4 : |h / √π * S - h / √π * gsum h v| ≤ 0.32 * (0.0137 * exp (-(h * N - x) ^ 2) * exp (v ^ 2)) := by
    rw [← mul_sub, abs_mul, abs_of_pos h0, abs_sub_comm]
    exact mul_le_mul h3 h2 (abs_nonneg _) (by norm_num)
  calc |h / √π * S - exp (v ^ 2)| ≤ |h / √π * S - h / √π * gsum h v| + |h / √π * gsum h v - exp (v ^ 2)| := abs_sub_le _ _ _
    _ ≤ 0.32 * (0.0137 * exp (-(h * N - x) ^ 2) * exp (v ^ 2)) + 6e-16 * exp (v ^ 2) := add_le_add h4 h1
    _ = (6e-16 + 0.004384 * exp (-(h * N - x) ^ 2)) * exp (v ^ 2) := by ring
    _ ≤ _ := by gcongr; norm_num

end Verif.VoigtSeries
