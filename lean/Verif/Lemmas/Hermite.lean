import Verif.Spec.Voigt
import Mathlib.MeasureTheory.Integral.IntegralEqImproper

/-!
Hermite polynomials, and the approximation of the Faddeeva function by its continued fraction.
-/

namespace Verif.Hermite
open MeasureTheory Real Verif.Spec

/-- Hermite polynomials with leading coefficient 1. -/
def hB {K : Type} [Field K] (z : K) : ℕ → K
  | 0 => 1
  | 1 => z
  | k + 2 => z * hB z (k + 1) - ((k : K) + 1) / 2 * hB z k

/-- Their associated polynomials: the numerators of the continued fraction. -/
def hA {K : Type} [Field K] (z : K) : ℕ → K
  | 0 => 0
  | 1 => 1
  | k + 2 => z * hA z (k + 1) - ((k : K) + 1) / 2 * hA z k

theorem hB_succ {K : Type} [Field K] (z : K) (k : ℕ) : hB z (k + 2) = z * hB z (k + 1) - ((k : K) + 1) / 2 * hB z k := rfl

theorem hB_ofReal (t : ℝ) : ∀ n, ((hB t n : ℝ) : ℂ) = hB (t : ℂ) n
  | 0 => by simp [hB]
  | 1 => by simp [hB]
  | n + 2 => by
    rw [hB_succ, hB_succ, ← hB_ofReal t (n + 1), ← hB_ofReal t n]
    push_cast
    rfl

theorem hB_continuous : ∀ n, Continuous fun t : ℝ => hB t n
  | 0 => by simpa [hB] using continuous_const
  | 1 => by simpa [hB] using (continuous_id' (X := ℝ))
  | n + 2 => by
    have h1 := hB_continuous (n + 1)
    have h0 := hB_continuous n
    simp_rw [hB_succ]
    fun_prop

/-! ### Integrals with the Gaussian -/

/-- All moments exist. -/
def GI (f : ℝ → ℝ) : Prop := ∀ k : ℕ, Integrable fun t : ℝ => t ^ k * f t * exp (-t ^ 2)

theorem GI_one : GI fun _ => 1 := by
  intro k
  have h := integrable_rpow_mul_exp_neg_mul_sq one_pos (s := (k : ℝ)) (by have : (0 : ℝ) ≤ k := Nat.cast_nonneg k; linarith)
  refine h.congr (Filter.Eventually.of_forall fun t => ?_)
  simp only [rpow_natCast, mul_one, neg_one_mul]

theorem GI_mul_id {f : ℝ → ℝ} (h : GI f) : GI fun t => t * f t := by
  intro k
  refine (h (k + 1)).congr (Filter.Eventually.of_forall fun t => ?_)
  ring

theorem GI_lin {f g : ℝ → ℝ} (hf : GI f) (hg : GI g) (a b : ℝ) : GI fun t => a * f t + b * g t := by
  intro k
  refine (((hf k).const_mul a).add ((hg k).const_mul b)).congr (Filter.Eventually.of_forall fun t => ?_)
  simp only [Pi.add_apply]
  ring

theorem GI_hB {f : ℝ → ℝ} (hf : GI f) : ∀ n, GI fun t => hB t n * f t
  | 0 => by simpa [hB] using hf
  | 1 => by simpa [hB] using GI_mul_id hf
  | n + 2 => by
    have h := GI_lin (GI_mul_id (GI_hB hf (n + 1))) (GI_hB hf n) 1 (-((n : ℝ) + 1) / 2)
    intro k
    refine (h k).congr (Filter.Eventually.of_forall fun t => ?_)
    simp only [hB_succ]
    ring

theorem GI_integrable {f : ℝ → ℝ} (h : GI f) : Integrable fun t => f t * exp (-t ^ 2) := by
  refine (h 0).congr (Filter.Eventually.of_forall fun t => ?_)
  simp

/-- The Gaussian mean, up to the factor `√π`. -/
noncomputable def E (f : ℝ → ℝ) : ℝ := ∫ t, f t * exp (-t ^ 2)

theorem E_lin {f g : ℝ → ℝ} (hf : GI f) (hg : GI g) (a b : ℝ) : E (fun t => a * f t + b * g t) = a * E f + b * E g := by
  unfold E
  rw [← integral_const_mul, ← integral_const_mul, ← integral_add ((GI_integrable hf).const_mul a) ((GI_integrable hg).const_mul b)]
  congr 1
  funext t
  ring

theorem hB_deriv : ∀ (n : ℕ) (t : ℝ), HasDerivAt (fun t : ℝ => hB t (n + 1)) (((n : ℝ) + 1) * hB t n) t
  | 0, t => by
    simpa [hB] using hasDerivAt_id' t
  | 1, t => by
    have e : (fun t : ℝ => hB t (1 + 1)) = fun t : ℝ => t * t - (((0 : ℕ) : ℝ) + 1) / 2 := by
      funext t
      simp [hB]
    rw [e]
    refine (((hasDerivAt_id t).mul (hasDerivAt_id t)).sub_const _).congr_deriv ?_
    simp [hB]
    ring
  | n + 2, t => by
    have h1 := hB_deriv (n + 1) t
    have h0 := hB_deriv n t
    have h := ((hasDerivAt_id t).mul h1).sub (h0.const_mul ((((n + 1 : ℕ) : ℝ) + 1) / 2))
    refine (h.congr_deriv ?_)
    have e := hB_succ t n
    simp only [id]
    push_cast
    rw [e]
    ring

theorem E_hB (n : ℕ) : E (fun t => hB t (n + 1)) = 0 := by
  have hg1 : GI fun t => hB t (n + 1) := by simpa using GI_hB GI_one (n + 1)
  have hg0 : GI fun t => hB t n := by simpa using GI_hB GI_one n
  have hd : ∀ t : ℝ, HasDerivAt (fun t => hB t n * exp (-t ^ 2)) (-2 * (hB t (n + 1) * exp (-t ^ 2))) t := by
    intro t
    have he : HasDerivAt (fun t : ℝ => exp (-t ^ 2)) (exp (-t ^ 2) * (-(2 * t))) t := by
      have := ((hasDerivAt_pow 2 t).neg).exp
      simpa using this
    cases n with
    | zero =>
      have : (fun t : ℝ => hB t 0 * exp (-t ^ 2)) = fun t : ℝ => exp (-t ^ 2) := by funext t; simp [hB]
      rw [this]
      refine he.congr_deriv ?_
      simp [hB]
      ring
    | succ m =>
      refine ((hB_deriv m t).mul he).congr_deriv ?_
      rw [hB_succ]
      ring
  have h := integral_eq_zero_of_hasDerivAt_of_integrable hd ((GI_integrable hg1).const_mul (-2)) (GI_integrable hg0)
  rw [integral_const_mul] at h
  unfold E
  linarith

theorem E_one : E (fun _ => 1) = √π := by
  unfold E
  simp_rw [one_mul]
  exact gauss_integral

/-- `t B_k = B_{k+1} + k/2 B_{k-1}`. -/
theorem hB_mul_id (t : ℝ) (k : ℕ) : t * hB t (k + 1) = hB t (k + 2) + ((k : ℝ) + 1) / 2 * hB t k := by
  rw [hB_succ]
  ring

theorem GI_BB (j k : ℕ) : GI fun t => hB t j * hB t k := by
  have := GI_hB (GI_hB GI_one k) j
  simpa using this

theorem M_rec (j k : ℕ) : E (fun t => hB t (j + 2) * hB t (k + 1)) = E (fun t => hB t (j + 1) * hB t (k + 2)) +
    ((k : ℝ) + 1) / 2 * E (fun t => hB t (j + 1) * hB t k) - ((j : ℝ) + 1) / 2 * E (fun t => hB t j * hB t (k + 1)) := by
  have h1 : E (fun t => 1 * (hB t (j + 1) * hB t (k + 2)) + ((k : ℝ) + 1) / 2 * (hB t (j + 1) * hB t k)) =
      E (fun t => 1 * (hB t (j + 2) * hB t (k + 1)) + ((j : ℝ) + 1) / 2 * (hB t j * hB t (k + 1))) := by
    congr 1
    funext t
    have a := hB_mul_id t k
    have b := hB_mul_id t j
    linear_combination hB t (k + 1) * b - hB t (j + 1) * a
  rw [E_lin (GI_BB _ _) (GI_BB _ _), E_lin (GI_BB _ _) (GI_BB _ _)] at h1
  linarith

theorem M_rec0 (k : ℕ) : E (fun t => hB t 1 * hB t (k + 1)) = E (fun t => hB t 0 * hB t (k + 2)) +
    ((k : ℝ) + 1) / 2 * E (fun t => hB t 0 * hB t k) := by
  rw [← one_mul (E fun t => hB t 0 * hB t (k + 2)), ← E_lin (GI_BB _ _) (GI_BB _ _)]
  congr 1
  funext t
  have a := hB_mul_id t k
  simp only [hB] at a ⊢
  linarith

theorem M_zero (k : ℕ) : E (fun t => hB t 0 * hB t (k + 1)) = 0 := by
  have : (fun t : ℝ => hB t 0 * hB t (k + 1)) = fun t => hB t (k + 1) := by funext t; simp [hB]
  rw [this, E_hB]

theorem M_00 : E (fun t => hB t 0 * hB t 0) = √π := by
  have : (fun t : ℝ => hB t 0 * hB t 0) = fun _ => 1 := by funext t; simp [hB]
  rw [this, E_one]

/-- Hermite polynomials of different degrees are orthogonal. -/
theorem M_lt : ∀ j k, j < k → E (fun t => hB t j * hB t k) = 0
  | 0, 0, h => absurd h (lt_irrefl _)
  | 0, k + 1, _ => M_zero k
  | 1, 0, h => absurd h (by omega)
  | 1, 1, h => absurd h (by omega)
  | 1, k + 2, _ => by
    rw [M_rec0 (k + 1), M_zero, M_zero]
    ring
  | j + 2, 0, h => absurd h (by omega)
  | j + 2, k + 1, h => by
    rw [M_rec, M_lt (j + 1) (k + 2) (by omega), M_lt (j + 1) k (by omega), M_lt j (k + 1) (by omega)]
    ring

/-- Their norm. -/
theorem M_self : ∀ n, E (fun t => hB t n * hB t n) = √π * (n.factorial / 2 ^ n)
  | 0 => by rw [M_00]; simp
  | 1 => by
    rw [M_rec0 0, M_zero, M_00]
    norm_num
    ring
  | n + 2 => by
    rw [M_rec, M_lt (n + 1) (n + 1 + 2) (by omega), M_lt n (n + 1 + 1) (by omega), M_self (n + 1), Nat.factorial_succ (n + 1)]
    push_cast
    rw [pow_succ]
    field_simp
    ring

/-! ### The continued fraction -/

/-- The divided difference of a Hermite polynomial. -/
noncomputable def hD (z : ℂ) (t : ℝ) : ℕ → ℂ
  | 0 => 0
  | 1 => 1
  | k + 2 => z * hD z t (k + 1) + hB t (k + 1) - ((k : ℂ) + 1) / 2 * hD z t k

theorem hD_succ (z : ℂ) (t : ℝ) (k : ℕ) : hD z t (k + 2) = z * hD z t (k + 1) + hB t (k + 1) - ((k : ℂ) + 1) / 2 * hD z t k := rfl

theorem hA_succ {K : Type} [Field K] (z : K) (k : ℕ) : hA z (k + 2) = z * hA z (k + 1) - ((k : K) + 1) / 2 * hA z k := rfl

theorem hD_mul (z : ℂ) (t : ℝ) : ∀ n, (z - t) * hD z t n = hB z n - hB t n
  | 0 => by simp [hD, hB]
  | 1 => by simp [hD, hB]
  | n + 2 => by
    have h1 := hD_mul z t (n + 1)
    have h0 := hD_mul z t n
    have e : ((hB t (n + 2) : ℝ) : ℂ) = t * (hB t (n + 1) : ℝ) - ((n : ℂ) + 1) / 2 * (hB t n : ℝ) := by
      rw [hB_succ]
      push_cast
      rfl
    rw [hD_succ, hB_succ z, e]
    linear_combination z * h1 - ((n : ℂ) + 1) / 2 * h0

theorem GI_ofReal {f : ℝ → ℝ} (h : GI f) : Integrable fun t : ℝ => ((f t : ℝ) : ℂ) * (exp (-t ^ 2) : ℝ) := by
  have := (GI_integrable h).ofReal (𝕜 := ℂ)
  refine this.congr (Filter.Eventually.of_forall fun t => ?_)
  simp

theorem hD_integrable (z : ℂ) {f : ℝ → ℝ} (h : GI f) : ∀ n, Integrable fun t : ℝ => hD z t n * (f t : ℝ) * (exp (-t ^ 2) : ℝ)
  | 0 => by simp [hD]
  | 1 => by simpa [hD] using GI_ofReal h
  | n + 2 => by
    have h1 := hD_integrable z h (n + 1)
    have h0 := hD_integrable z h n
    have hb := GI_ofReal (GI_hB h (n + 1))
    refine (((h1.const_mul z).add hb).sub (h0.const_mul (((n : ℂ) + 1) / 2))).congr (Filter.Eventually.of_forall fun t => ?_)
    simp only [hD_succ, Pi.sub_apply, Pi.add_apply]
    push_cast
    ring

theorem hD_rec (z : ℂ) {f : ℝ → ℝ} (h : GI f) (n : ℕ) : ∫ t : ℝ, hD z t (n + 2) * (f t : ℝ) * (exp (-t ^ 2) : ℝ) =
    z * (∫ t : ℝ, hD z t (n + 1) * (f t : ℝ) * (exp (-t ^ 2) : ℝ)) + (E (fun t => hB t (n + 1) * f t) : ℝ) -
      ((n : ℂ) + 1) / 2 * ∫ t : ℝ, hD z t n * (f t : ℝ) * (exp (-t ^ 2) : ℝ) := by
  have h1 := hD_integrable z h (n + 1)
  have h0 := hD_integrable z h n
  have hb := GI_ofReal (GI_hB h (n + 1))
  have he : ((E (fun t => hB t (n + 1) * f t) : ℝ) : ℂ) = ∫ t : ℝ, ((hB t (n + 1) * f t : ℝ) : ℂ) * (exp (-t ^ 2) : ℝ) := by
    unfold E
    rw [← integral_complex_ofReal]
    congr 1
    funext t
    push_cast
    rfl
  have hs : ∀ t : ℝ, hD z t (n + 2) * (f t : ℝ) * (exp (-t ^ 2) : ℝ) = z * (hD z t (n + 1) * (f t : ℝ) * (exp (-t ^ 2) : ℝ)) +
      ((hB t (n + 1) * f t : ℝ) : ℂ) * (exp (-t ^ 2) : ℝ) - ((n : ℂ) + 1) / 2 * (hD z t n * (f t : ℝ) * (exp (-t ^ 2) : ℝ)) := by
    intro t
    rw [hD_succ]
    push_cast
    ring
  simp_rw [hs]
  have hab : Integrable fun t : ℝ => z * (hD z t (n + 1) * (f t : ℝ) * (exp (-t ^ 2) : ℝ)) + ((hB t (n + 1) * f t : ℝ) : ℂ) * (exp (-t ^ 2) : ℝ) :=
    (h1.const_mul z).add hb
  rw [integral_sub hab (h0.const_mul _), integral_add (h1.const_mul z) hb, integral_const_mul, integral_const_mul, he]

theorem hD_orth (z : ℂ) : ∀ n m, n ≤ m → ∫ t : ℝ, hD z t n * (hB t m : ℝ) * (exp (-t ^ 2) : ℝ) = 0
  | 0, m, _ => by simp [hD]
  | 1, 0, h => absurd h (by omega)
  | 1, m + 1, _ => by
    have he : ((E (fun t => hB t (m + 1)) : ℝ) : ℂ) = ∫ t : ℝ, ((hB t (m + 1) : ℝ) : ℂ) * (exp (-t ^ 2) : ℝ) := by
      unfold E
      rw [← integral_complex_ofReal]
      congr 1
      funext t
      push_cast
      rfl
    simp only [hD, one_mul]
    rw [← he, E_hB]
    simp
  | n + 2, m, h => by
    have hg : GI fun t => hB t m := by simpa using GI_hB GI_one m
    rw [hD_rec z hg, hD_orth z (n + 1) m (by omega), hD_orth z n m (by omega), M_lt (n + 1) m (by omega)]
    simp

theorem hD_mean (z : ℂ) : ∀ n, ∫ t : ℝ, hD z t n * (exp (-t ^ 2) : ℝ) = (√π : ℝ) * hA z n
  | 0 => by simp [hD, hA]
  | 1 => by
    have he : ((E (fun _ => 1) : ℝ) : ℂ) = ∫ t : ℝ, ((exp (-t ^ 2) : ℝ) : ℂ) := by
      unfold E
      rw [← integral_complex_ofReal]
      congr 1
      funext t
      push_cast
      rw [one_mul]
    simp only [hD, one_mul, hA, mul_one]
    rw [← he, E_one]
  | n + 2 => by
    have h := hD_rec z GI_one n
    simp only [Complex.ofReal_one, mul_one] at h
    rw [h, hD_mean z (n + 1), hD_mean z n, E_hB, hA_succ]
    simp
    ring

theorem ne_of_im {z : ℂ} (h : 0 < z.im) (t : ℝ) : z - t ≠ 0 := by
  intro e
  have := congrArg Complex.im e
  simp at this
  exact h.ne' this

theorem norm_ge_im {z : ℂ} (h : 0 < z.im) (t : ℝ) : ‖(z - (t : ℂ))⁻¹‖ ≤ z.im⁻¹ := by
  rw [norm_inv]
  refine inv_anti₀ h ?_
  refine le_trans ?_ (Complex.abs_im_le_norm _)
  simp [abs_of_pos h]

theorem div_integrable {z : ℂ} (hz : 0 < z.im) {f : ℝ → ℝ} (h : GI f) :
    Integrable fun t : ℝ => ((f t : ℝ) : ℂ) * (exp (-t ^ 2) : ℝ) * (z - t)⁻¹ := by
  refine (GI_ofReal h).mul_bdd (c := z.im⁻¹) ?_ (Filter.Eventually.of_forall fun t => norm_ge_im hz t)
  exact Continuous.aestronglyMeasurable (Continuous.inv₀ (by fun_prop) (ne_of_im hz))

/-- What the continued fraction leaves. -/
theorem remainder {z : ℂ} (hz : 0 < z.im) (n : ℕ) : hB z n ^ 2 * ∫ t : ℝ, ((exp (-t ^ 2) : ℝ) : ℂ) * (z - t)⁻¹ =
    hB z n * ((√π : ℝ) * hA z n) + ∫ t : ℝ, ((hB t n * hB t n : ℝ) : ℂ) * (exp (-t ^ 2) : ℝ) * (z - t)⁻¹ := by
  have hg : GI fun t => hB t n := by simpa using GI_hB GI_one n
  have i1 := hD_integrable z GI_one n
  simp only [Complex.ofReal_one, mul_one] at i1
  have i2 := hD_integrable z hg n
  have i3 := div_integrable hz (GI_BB n n)
  have hab : Integrable fun t : ℝ => hB z n * (hD z t n * (exp (-t ^ 2) : ℝ)) + hD z t n * (hB t n : ℝ) * (exp (-t ^ 2) : ℝ) :=
    (i1.const_mul _).add i2
  rw [← hD_mean, ← integral_const_mul, ← integral_const_mul]
  rw [← add_zero (∫ t : ℝ, hB z n * (hD z t n * (exp (-t ^ 2) : ℝ))), ← hD_orth z n n le_rfl, ← integral_add (i1.const_mul _) i2,
    ← integral_add hab i3]
  congr 1
  funext t
  have h := hD_mul z t n
  have hne := ne_of_im hz t
  push_cast
  field_simp
  have e : hB z n = (z - t) * hD z t n + (hB t n : ℝ) := by rw [h]; ring
  rw [e]
  ring

theorem remainder_le {z : ℂ} (hz : 0 < z.im) (n : ℕ) :
    ‖∫ t : ℝ, ((hB t n * hB t n : ℝ) : ℂ) * (exp (-t ^ 2) : ℝ) * (z - t)⁻¹‖ ≤ z.im⁻¹ * (√π * (n.factorial / 2 ^ n)) := by
  rw [← M_self n]
  unfold E
  rw [← integral_const_mul]
  refine norm_integral_le_of_norm_le ((GI_integrable (GI_BB n n)).const_mul _) (Filter.Eventually.of_forall fun t => ?_)
  rw [norm_mul, norm_mul, Complex.norm_real, Complex.norm_real, norm_eq_abs, norm_eq_abs, abs_of_nonneg (mul_self_nonneg _), abs_of_pos (exp_pos _),
    mul_comm]
  have := norm_ge_im hz t
  have h0 : 0 ≤ hB t n * hB t n * exp (-t ^ 2) := mul_nonneg (mul_self_nonneg _) (exp_pos _).le
  exact mul_le_mul_of_nonneg_right this h0

/-- The error of the continued fraction. -/
theorem faddeeva_cf {z : ℂ} (hz : 0 < z.im) (n : ℕ) (hB0 : hB z n ≠ 0) :
    ‖faddeeva z - Complex.I / (√π : ℝ) * (hA z n / hB z n)‖ ≤ n.factorial / 2 ^ n / (√π * z.im * ‖hB z n‖ ^ 2) := by
  have h := remainder hz n
  have hb := remainder_le hz n
  have hJ : faddeeva z = Complex.I / π * ∫ t : ℝ, ((exp (-t ^ 2) : ℝ) : ℂ) * (z - t)⁻¹ := by
    unfold faddeeva
    congr 2
    funext t
    rw [div_eq_mul_inv]
    push_cast
    rfl
  set J := ∫ t : ℝ, ((exp (-t ^ 2) : ℝ) : ℂ) * (z - t)⁻¹
  set R := ∫ t : ℝ, ((hB t n * hB t n : ℝ) : ℂ) * (exp (-t ^ 2) : ℝ) * (z - t)⁻¹
  have hpi : ((√π : ℝ) : ℂ) * (√π : ℝ) = π := by rw [← Complex.ofReal_mul, mul_self_sqrt pi_pos.le]
  have hs : ((√π : ℝ) : ℂ) ≠ 0 := by
    rw [Complex.ofReal_ne_zero]
    exact (sqrt_pos.2 pi_pos).ne'
  have hJ2 : J = (√π : ℝ) * (hA z n / hB z n) + R / hB z n ^ 2 := by
    field_simp
    linear_combination h
  have e : faddeeva z - Complex.I / (√π : ℝ) * (hA z n / hB z n) = Complex.I / π * (R / hB z n ^ 2) := by
    rw [hJ, hJ2, ← hpi]
    field_simp
    ring
  have hpos : 0 < ‖hB z n‖ := norm_pos_iff.2 hB0
  rw [e, norm_mul, norm_div, norm_div, Complex.norm_I, norm_pow, Complex.norm_real, norm_eq_abs, abs_of_pos pi_pos]
  have : 1 / π * (‖R‖ / ‖hB z n‖ ^ 2) ≤ 1 / π * (z.im⁻¹ * (√π * (n.factorial / 2 ^ n)) / ‖hB z n‖ ^ 2) := by gcongr
  refine this.trans (le_of_eq ?_)
  have hp2 : √π * √π = π := mul_self_sqrt pi_pos.le
  have hs0 : √π ≠ 0 := (sqrt_pos.2 pi_pos).ne'
  have hy := hz.ne'
  field_simp
  linarith

/-! ### The size of the polynomials -/

/-- Beyond the zeros each polynomial is at least half the argument times the one before. -/
theorem hB_ratio {r : ℝ} (hr : 0 < r) : ∀ n : ℕ, 2 * (n : ℝ) ≤ r ^ 2 → 0 < hB r n ∧ r / 2 * hB r n ≤ hB r (n + 1)
  | 0, _ => by
    simp only [hB]
    exact ⟨one_pos, by linarith⟩
  | n + 1, h => by
    push_cast at h
    obtain ⟨h1, h2⟩ := hB_ratio hr n (by linarith)
    have h3 : 0 < hB r (n + 1) := lt_of_lt_of_le (by positivity) h2
    refine ⟨h3, ?_⟩
    rw [hB_succ]
    have h4 : hB r n ≤ 2 / r * hB r (n + 1) := by
      rw [div_mul_eq_mul_div, le_div_iff₀ hr]
      linarith
    have h5 : ((n : ℝ) + 1) / 2 * hB r n ≤ r ^ 2 / 4 * (2 / r * hB r (n + 1)) := by
      refine mul_le_mul (by linarith) h4 h1.le (by positivity)
    have e : r ^ 2 / 4 * (2 / r * hB r (n + 1)) = r / 2 * hB r (n + 1) := by
      field_simp
      ring
    rw [e] at h5
    linarith

/-- The polynomial at a complex number is at least as large as at its modulus. -/
theorem hB_norm {z : ℂ} (hr : 0 < ‖z‖) (n : ℕ) (h : 2 * (n : ℝ) ≤ ‖z‖ ^ 2) :
    hB ‖z‖ n ≤ ‖hB z n‖ ∧ hB ‖z‖ (n + 1) * ‖hB z n‖ ≤ ‖hB z (n + 1)‖ * hB ‖z‖ n := by
  induction n with
  | zero => simp [hB]
  | succ n ih =>
    push_cast at h
    obtain ⟨h1, h2⟩ := ih (by linarith)
    have p0 := (hB_ratio hr n (by linarith)).1
    have p1 := (hB_ratio hr (n + 1) (by push_cast; linarith)).1
    have hle : hB ‖z‖ (n + 1) ≤ ‖hB z (n + 1)‖ := by
      have : hB ‖z‖ (n + 1) * hB ‖z‖ n ≤ ‖hB z (n + 1)‖ * hB ‖z‖ n :=
        le_trans (mul_le_mul_of_nonneg_left h1 p1.le) h2
      exact le_of_mul_le_mul_right this p0
    refine ⟨hle, ?_⟩
    rw [hB_succ z, hB_succ ‖z‖]
    have hn : ‖((n : ℂ) + 1) / 2‖ = ((n : ℝ) + 1) / 2 := by
      have : ((n : ℂ) + 1) / 2 = (((n : ℝ) + 1) / 2 : ℝ) := by push_cast; rfl
      rw [this, Complex.norm_real, norm_eq_abs, abs_of_nonneg (by positivity)]
    have tri : ‖z‖ * ‖hB z (n + 1)‖ - ((n : ℝ) + 1) / 2 * ‖hB z n‖ ≤ ‖z * hB z (n + 1) - ((n : ℂ) + 1) / 2 * hB z n‖ := by
      have := norm_sub_norm_le (z * hB z (n + 1)) (((n : ℂ) + 1) / 2 * hB z n)
      rw [norm_mul, norm_mul, hn] at this
      exact this
    have h3 := mul_le_mul_of_nonneg_right tri p1.le
    have h4 := mul_le_mul_of_nonneg_left h2 (by positivity : 0 ≤ ((n : ℝ) + 1) / 2)
    nlinarith

/-- The ratio of successive polynomials grows. -/
theorem hB_ratio_mono {r s : ℝ} (hs : 0 < s) (hsr : s ≤ r) (n : ℕ) (h : 2 * (n : ℝ) ≤ s ^ 2) :
    hB s (n + 1) * hB r n ≤ hB r (n + 1) * hB s n := by
  have hr : 0 < r := lt_of_lt_of_le hs hsr
  have hsq : s ^ 2 ≤ r ^ 2 := by gcongr
  induction n with
  | zero => simpa [hB] using hsr
  | succ n ih =>
    push_cast at h
    have h2 := ih (by linarith)
    have p1 := (hB_ratio hr (n + 1) (by push_cast; linarith)).1
    have q1 := (hB_ratio hs (n + 1) (by push_cast; linarith)).1
    rw [hB_succ r, hB_succ s]
    have h4 := mul_le_mul_of_nonneg_left h2 (by positivity : 0 ≤ ((n : ℝ) + 1) / 2)
    have h5 := mul_le_mul_of_nonneg_right hsr (mul_pos p1 q1).le
    nlinarith

/-- A polynomial grows at least linearly. -/
theorem hB_grow {r s : ℝ} (hs : 0 < s) (hsr : s ≤ r) (n : ℕ) (h : 2 * (n : ℝ) ≤ s ^ 2) :
    hB s (n + 1) * r ≤ hB r (n + 1) * s := by
  have hr : 0 < r := lt_of_lt_of_le hs hsr
  have hsq : s ^ 2 ≤ r ^ 2 := by gcongr
  induction n with
  | zero =>
    simp only [hB]
    linarith
  | succ n ih =>
    push_cast at h
    have h2 := ih (by linarith)
    have h3 := hB_ratio_mono hs hsr (n + 1) (by push_cast; linarith)
    have p1 := (hB_ratio hr (n + 1) (by push_cast; linarith)).1
    have q1 := (hB_ratio hs (n + 1) (by push_cast; linarith))
    have q2 : 0 < hB s (n + 2) := lt_of_lt_of_le (mul_pos (by positivity) q1.1) q1.2
    have h4 : hB s (n + 2) * r * hB s (n + 1) ≤ hB r (n + 2) * s * hB s (n + 1) := by
      have a := mul_le_mul_of_nonneg_left h2 q2.le
      have b := mul_le_mul_of_nonneg_right h3 hs.le
      nlinarith
    exact le_of_mul_le_mul_right h4 q1.1

/-- A bound of the error at one radius holds beyond it. -/
theorem err_mono {r s K : ℝ} (hs : 0 < s) (hsr : s ≤ r) (n : ℕ) (h : 2 * (n : ℝ) ≤ s ^ 2) {c : ℝ} (hc : 0 ≤ c)
    (hK : c * (s ^ 2 + 1 / 2) ≤ K * hB s (n + 1) ^ 2) (hK0 : 0 ≤ K) : c * (r ^ 2 + 1 / 2) ≤ K * hB r (n + 1) ^ 2 := by
  have hr : 0 < r := lt_of_lt_of_le hs hsr
  have hg := hB_grow hs hsr n h
  have q1 := hB_ratio hs n h
  have q2 : 0 < hB s (n + 1) := lt_of_lt_of_le (mul_pos (by positivity) q1.1) q1.2
  have hsq : s ^ 2 ≤ r ^ 2 := by gcongr
  have h1 : (hB s (n + 1) * r) ^ 2 ≤ (hB r (n + 1) * s) ^ 2 := by gcongr
  have h2 : c * (r ^ 2 + 1 / 2) * s ^ 2 ≤ c * (s ^ 2 + 1 / 2) * r ^ 2 := by nlinarith
  have h3 : c * (s ^ 2 + 1 / 2) * r ^ 2 ≤ K * hB s (n + 1) ^ 2 * r ^ 2 := by gcongr
  have h4 : K * (hB s (n + 1) * r) ^ 2 ≤ K * (hB r (n + 1) * s) ^ 2 := by gcongr
  have h5 : c * (r ^ 2 + 1 / 2) * s ^ 2 ≤ K * hB r (n + 1) ^ 2 * s ^ 2 := by
    rw [mul_pow, mul_pow] at h4
    linarith
  exact le_of_mul_le_mul_right h5 (by positivity)

/-! ### A lower bound of the Voigt function -/

theorem E_sq : E (fun t => t * t) = √π / 2 := by
  have h := M_self 1
  simp only [hB] at h
  rw [h]
  norm_num
  ring

theorem E_id : E (fun t => t) = 0 := by
  have h := E_hB 0
  simpa [hB] using h

/-- The Voigt function is at least a Lorentzian, a little wider. -/
theorem voigtH_ge_lorentz {a : ℝ} (ha : 0 < a) (u : ℝ) : a / (√π * (u ^ 2 + a ^ 2 + 1 / 2)) ≤ voigtH a u := by
  set c := u ^ 2 + a ^ 2 + 1 / 2 with hc
  have hc0 : 0 < c := by positivity
  have g1 : GI fun t : ℝ => t * t := by simpa using GI_mul_id (GI_mul_id GI_one)
  have g0 : GI fun t : ℝ => t := by simpa using GI_mul_id GI_one
  have h1 : E (fun t => (a / c ^ 2) * ((2 * u) * t + (-1) * (t * t)) + (a * (2 / c - (u ^ 2 + a ^ 2) / c ^ 2)) * 1) = a * √π / c := by
    rw [E_lin (GI_lin g0 g1 _ _) GI_one, E_lin g0 g1, E_id, E_sq, E_one]
    field_simp
    rw [hc]
    ring
  have h2 : E (fun t => (a / c ^ 2) * ((2 * u) * t + (-1) * (t * t)) + (a * (2 / c - (u ^ 2 + a ^ 2) / c ^ 2)) * 1) ≤
      ∫ t : ℝ, exp (-t ^ 2) * lorentz a (u - t) := by
    unfold E
    refine integral_mono (GI_integrable (GI_lin (GI_lin g0 g1 _ _) GI_one _ _)) (voigt_integrand ha u) (fun t => ?_)
    simp only
    rw [mul_comm]
    refine mul_le_mul_of_nonneg_left ?_ (exp_pos _).le
    unfold lorentz
    have hD : 0 < (u - t) ^ 2 + a ^ 2 := by positivity
    rw [le_div_iff₀ hD]
    have e : a / c ^ 2 * (2 * u * t + -1 * (t * t)) + a * (2 / c - (u ^ 2 + a ^ 2) / c ^ 2) * 1 = a * (2 * c - ((u - t) ^ 2 + a ^ 2)) / c ^ 2 := by
      field_simp
      ring
    rw [e, div_mul_eq_mul_div, div_le_iff₀ (by positivity)]
    nlinarith [mul_nonneg ha.le (sq_nonneg (c - ((u - t) ^ 2 + a ^ 2)))]
  rw [h1] at h2
  unfold voigtH
  have h3 := mul_le_mul_of_nonneg_left h2 (by positivity : (0 : ℝ) ≤ 1 / π)
  refine le_trans (le_of_eq ?_) h3
  have hp2 : √π * √π = π := mul_self_sqrt pi_pos.le
  have hs0 : √π ≠ 0 := (sqrt_pos.2 pi_pos).ne'
  field_simp
  linarith

/-! ### The damping wing -/

theorem lorentz_expand {a : ℝ} (ha : 0 < a) (u t : ℝ) :
    |1 / ((u - t) ^ 2 + a ^ 2) - 1 / (u ^ 2 + a ^ 2) - 2 * u / (u ^ 2 + a ^ 2) ^ 2 * t| ≤
      16 / (u ^ 2 + a ^ 2) ^ 2 * (t * t) + exp (-(u ^ 2 + a ^ 2) / 8) / a ^ 2 * exp (t ^ 2 / 2) := by
  set q := u ^ 2 + a ^ 2 with hq
  have hq0 : 0 < q := by positivity
  have hu : u ^ 2 ≤ q := by rw [hq]; nlinarith
  have hD : 0 < (u - t) ^ 2 + a ^ 2 := by positivity
  set D := (u - t) ^ 2 + a ^ 2 with hDd
  have hexp : 0 ≤ exp (-q / 8) / a ^ 2 * exp (t ^ 2 / 2) := by positivity
  by_cases ht : t ^ 2 ≤ q / 4
  · have hDq : q / 4 ≤ D := by
      have := sq_nonneg (u - 2 * t)
      rw [hDd, hq] at *
      nlinarith
    have e : 1 / D - 1 / q - 2 * u / q ^ 2 * t = t ^ 2 * (4 * u ^ 2 - q - 2 * u * t) / (D * q ^ 2) := by
      field_simp
      rw [hDd, hq]
      ring
    have hnum : |4 * u ^ 2 - q - 2 * u * t| ≤ 4 * q := by
      rw [abs_le]
      constructor <;> nlinarith [sq_nonneg (u - 2 * t), sq_nonneg (u + 2 * t)]
    rw [e, abs_div, abs_mul, abs_of_nonneg (sq_nonneg t), abs_of_pos (by positivity : 0 < D * q ^ 2)]
    have h1 : t ^ 2 * |4 * u ^ 2 - q - 2 * u * t| / (D * q ^ 2) ≤ t ^ 2 * (4 * q) / (q / 4 * q ^ 2) := by
      gcongr
    have e2 : t ^ 2 * (4 * q) / (q / 4 * q ^ 2) = 16 / q ^ 2 * (t * t) := by
      field_simp
      ring
    linarith
  · rw [not_le] at ht
    have h1 : 1 / D ≤ 1 / a ^ 2 := one_div_le_one_div_of_le (by positivity) (by rw [hDd]; nlinarith [sq_nonneg (u - t)])
    have h1' : 0 < 1 / D := by positivity
    have h2 : 1 / q ≤ 4 / q ^ 2 * (t * t) := by
      rw [div_mul_eq_mul_div, div_le_div_iff₀ hq0 (by positivity)]
      nlinarith
    have h2' : 0 < 1 / q := by positivity
    have h3 : |2 * u / q ^ 2 * t| ≤ 4 / q ^ 2 * (t * t) := by
      have e : 2 * u / q ^ 2 * t = 2 * u * t / q ^ 2 := by ring
      have e2 : 4 / q ^ 2 * (t * t) = 4 * (t * t) / q ^ 2 := by ring
      rw [e, e2, abs_div, abs_of_pos (by positivity : 0 < q ^ 2)]
      refine div_le_div_of_nonneg_right ?_ (by positivity)
      rw [abs_le]
      constructor <;> nlinarith [sq_nonneg (u - 2 * t), sq_nonneg (u + 2 * t)]
    have h4 : 1 / a ^ 2 ≤ exp (-q / 8) / a ^ 2 * exp (t ^ 2 / 2) := by
      rw [div_mul_eq_mul_div, ← exp_add]
      refine div_le_div_of_nonneg_right ?_ (by positivity)
      exact one_le_exp (by linarith)
    have e3 : 16 / q ^ 2 * (t * t) = 4 * (4 / q ^ 2 * (t * t)) := by ring
    have h5 : 0 ≤ 4 / q ^ 2 * (t * t) := mul_nonneg (by positivity) (mul_self_nonneg t)
    rw [abs_le] at h3 ⊢
    constructor <;> linarith [h3.1, h3.2]

/-- Far from the centre the Voigt function is a Lorentzian. -/
theorem voigtH_wing {a : ℝ} (ha : 0 < a) (u : ℝ) :
    |voigtH a u - a / (√π * (u ^ 2 + a ^ 2))| ≤
      a / (√π * (u ^ 2 + a ^ 2)) * (8 / (u ^ 2 + a ^ 2) + √2 * (u ^ 2 + a ^ 2) * exp (-(u ^ 2 + a ^ 2) / 8) / a ^ 2) := by
  have hb := lorentz_expand ha u
  set q := u ^ 2 + a ^ 2 with hq
  have hq0 : 0 < q := by positivity
  have g1 : GI fun t : ℝ => t * t := by simpa using GI_mul_id (GI_mul_id GI_one)
  have g0 : GI fun t : ℝ => t := by simpa using GI_mul_id GI_one
  have hhalf : ∀ t : ℝ, exp (t ^ 2 / 2) * exp (-t ^ 2) = exp (-(1 / 2) * t ^ 2) := by
    intro t
    rw [← exp_add]
    congr 1
    ring
  have ihalf : Integrable fun t : ℝ => exp (t ^ 2 / 2) * exp (-t ^ 2) := by
    simp_rw [hhalf]
    exact integrable_exp_neg_mul_sq (by norm_num)
  have vhalf : ∫ t : ℝ, exp (t ^ 2 / 2) * exp (-t ^ 2) = √π * √2 := by
    simp_rw [hhalf]
    rw [integral_gaussian, ← sqrt_mul pi_pos.le]
    congr 1
    ring
  have hp2 : √π * √π = π := mul_self_sqrt pi_pos.le
  have hs : 0 < √π := sqrt_pos.2 pi_pos
  -- the difference as one integral
  have hlin : E (fun t => a * (1 / q) * 1 + a * (2 * u / q ^ 2) * t) = a * √π / q := by
    rw [E_lin GI_one g0, E_one, E_id]
    ring
  have hdiff : voigtH a u - a / (√π * q) =
      1 / π * ∫ t : ℝ, (exp (-t ^ 2) * lorentz a (u - t) - (a * (1 / q) * 1 + a * (2 * u / q ^ 2) * t) * exp (-t ^ 2)) := by
    rw [integral_sub (voigt_integrand ha u) (GI_integrable (GI_lin GI_one g0 _ _))]
    have : ∫ t : ℝ, (a * (1 / q) * 1 + a * (2 * u / q ^ 2) * t) * exp (-t ^ 2) = a * √π / q := hlin
    rw [this]
    unfold voigtH
    rw [mul_sub]
    congr 1
    field_simp
    linarith
  have hbd : ‖∫ t : ℝ, (exp (-t ^ 2) * lorentz a (u - t) - (a * (1 / q) * 1 + a * (2 * u / q ^ 2) * t) * exp (-t ^ 2))‖ ≤
      ∫ t : ℝ, (a * (16 / q ^ 2) * (t * t * exp (-t ^ 2)) + a * (exp (-q / 8) / a ^ 2) * (exp (t ^ 2 / 2) * exp (-t ^ 2))) := by
    refine norm_integral_le_of_norm_le (((GI_integrable g1).const_mul _).add (ihalf.const_mul _)) (Filter.Eventually.of_forall fun t => ?_)
    have e : exp (-t ^ 2) * lorentz a (u - t) - (a * (1 / q) * 1 + a * (2 * u / q ^ 2) * t) * exp (-t ^ 2) =
        a * exp (-t ^ 2) * (1 / ((u - t) ^ 2 + a ^ 2) - 1 / q - 2 * u / q ^ 2 * t) := by
      unfold lorentz
      ring
    rw [e, norm_eq_abs, abs_mul, abs_of_pos (by positivity : 0 < a * exp (-t ^ 2))]
    refine (mul_le_mul_of_nonneg_left (hb t) (by positivity)).trans (le_of_eq ?_)
    ring
  have hsq : ∫ t : ℝ, t * t * exp (-t ^ 2) = √π / 2 := E_sq
  rw [integral_add ((GI_integrable g1).const_mul _) (ihalf.const_mul _), integral_const_mul, integral_const_mul, hsq, vhalf] at hbd
  rw [hdiff, abs_mul, abs_of_pos (by positivity : (0 : ℝ) < 1 / π)]
  refine (mul_le_mul_of_nonneg_left hbd (by positivity)).trans (le_of_eq ?_)
  have e1 : 1 / π = 1 / √π * (1 / √π) := by
    rw [one_div_mul_one_div, hp2]
  rw [e1]
  have hs2 : √π ≠ 0 := hs.ne'
  generalize √π = s at hs2 ⊢
  field_simp
  ring

end Verif.Hermite
