import Verif.Props.Faddeeva
import Verif.Lemmas.Erfcx
import Verif.Lemmas.Hermite
import Mathlib.Analysis.Complex.ExponentialBounds
import Mathlib.Analysis.Real.Pi.Bounds

/-!
The table of `erfcx` is within 5e-13 of the scaled complementary error function. A polynomial of the table almost solves
the differential equation of `erfcx`; the residual is a polynomial with small coefficients, which the kernel computes.
-/

namespace Verif.Props
open Real Set Verif.Model.Faddeeva Verif.Spec Verif.Erfcx

/-- The value of a polynomial with integer coefficients. -/
def pev {K : Type} [Ring K] (t : K) : List ℤ → K
  | [] => 0
  | a :: p => a + pev t p * t

def padd : List ℤ → List ℤ → List ℤ
  | [], q => q
  | p, [] => p
  | a :: p, b :: q => (a + b) :: padd p q

def pscale (c : ℤ) (p : List ℤ) : List ℤ := p.map (c * ·)

def pmul : List ℤ → List ℤ → List ℤ
  | [], _ => []
  | a :: p, q => padd (pscale a q) (0 :: pmul p q)

def pder : List ℤ → List ℤ
  | [] => []
  | _ :: p => padd p (0 :: pder p)

/-- The sum of the absolute values of the coefficients. -/
def pl1 : List ℤ → ℤ
  | [] => 0
  | a :: p => |a| + pl1 p

theorem pev_padd (t : ℝ) : ∀ p q, pev t (padd p q) = pev t p + pev t q
  | [], q => by simp [padd, pev]
  | a :: p, [] => by simp [padd, pev]
  | a :: p, b :: q => by
    simp only [padd, pev, pev_padd t p q]
    push_cast
    ring

theorem pev_pscale (t : ℝ) (c : ℤ) : ∀ p, pev t (pscale c p) = c * pev t p
  | [] => by simp [pscale, pev]
  | a :: p => by
    have := pev_pscale t c p
    simp only [pscale, List.map_cons, pev] at this ⊢
    rw [this]
    push_cast
    ring

theorem pev_pmul (t : ℝ) : ∀ p q, pev t (pmul p q) = pev t p * pev t q
  | [], q => by simp [pmul, pev]
  | a :: p, q => by
    simp only [pmul, pev_padd, pev_pscale, pev, pev_pmul t p q]
    push_cast
    ring

theorem pev_pder (t : ℝ) : ∀ p, HasDerivAt (fun s : ℝ => pev s p) (pev t (pder p)) t
  | [] => by
    simp only [pev, pder]
    exact hasDerivAt_const _ _
  | a :: p => by
    have h := ((pev_pder t p).mul (hasDerivAt_id t)).const_add (a : ℝ)
    simp only [pev, pder, pev_padd]
    refine h.congr_deriv ?_
    simp
    ring

theorem pl1_nonneg : ∀ p, 0 ≤ pl1 p
  | [] => le_refl _
  | a :: p => add_nonneg (abs_nonneg a) (pl1_nonneg p)

theorem pev_le {t : ℝ} (ht : |t| ≤ 1) : ∀ p, |pev t p| ≤ (pl1 p : ℝ)
  | [] => by simp [pev, pl1]
  | a :: p => by
    have h := pev_le ht p
    have h2 : |pev t p * t| ≤ pl1 p := by
      rw [abs_mul]
      nlinarith [abs_nonneg (pev t p), abs_nonneg t]
    have h3 := abs_add_le (a : ℝ) (pev t p * t)
    simp only [pev, pl1]
    push_cast
    linarith

theorem pev_int (z : ℤ) : ∀ p, ((pev z p : ℤ) : ℝ) = pev (z : ℝ) p
  | [] => by simp [pev]
  | a :: p => by
    simp only [pev]
    push_cast
    rw [pev_int z p]

/-- The coefficients of a case in units of `1e-40`. -/
def rowInts (row : List (ℕ × ℕ)) : List ℤ := row.map fun c => (c.1 : ℤ) * 10 ^ (40 - c.2)

theorem horner_ints (t : ℝ) : ∀ row : List (ℕ × ℕ), (row.all fun c => decide (c.2 ≤ 40)) = true →
    horner t row = pev t (rowInts row) / 10 ^ 40
  | [], _ => by simp [horner, rowInts, pev]
  | [c], h => by
    have hc : c.2 ≤ 40 := by simpa using h
    have e : (10 : ℝ) ^ 40 = 10 ^ (40 - c.2) * 10 ^ c.2 := by rw [← pow_add, Nat.sub_add_cancel hc]
    simp only [horner, rowInts, pev, lit, List.map_cons, List.map_nil]
    push_cast
    rw [e]
    field_simp
    ring
  | c :: d :: cs, h => by
    have hc : c.2 ≤ 40 ∧ ((d :: cs).all fun c => decide (c.2 ≤ 40)) = true := by simpa using h
    have e : (10 : ℝ) ^ 40 = 10 ^ (40 - c.2) * 10 ^ c.2 := by rw [← pow_add, Nat.sub_add_cancel hc.1]
    have ih := horner_ints t (d :: cs) hc.2
    have e2 : rowInts (c :: d :: cs) = (c.1 : ℤ) * 10 ^ (40 - c.2) :: rowInts (d :: cs) := rfl
    rw [e2, horner.eq_3 _ _ _ (by simp), ih]
    simp only [pev, lit]
    push_cast
    have : (c.1 : ℝ) / 10 ^ c.2 = c.1 * 10 ^ (40 - c.2) / 10 ^ 40 := by
      rw [e]
      field_simp
    rw [this]
    ring

/-- `2/√π` in units of `1e-40`. -/
def sInt : ℤ := 112837916709551257389615890312 * 10 ^ 11

/-- The residual of the case `k` in the differential equation, times `1600 y100`, as a polynomial of `t`. -/
def residual (k : ℕ) (p : List ℤ) : List ℤ :=
  let c : ℤ := 2 * k + 1
  padd (pscale (-1) (pmul (pder p) [c ^ 3, 3 * c ^ 2, 3 * c, 1]))
    (padd (pmul [1600 * (4 * c - 800), 6400] p) [800 * sInt * c, 800 * sInt])

/-- What is checked of the case `k`: the residual is below 3.8e-13, and the step to the case before below 1.4e-17. -/
def erfcxCheck (k : ℕ) : Bool :=
  match erfcxTab[k - 1]?, erfcxTab[k]? with
  | some row0, some row =>
    (row.all fun c => decide (c.2 ≤ 40)) && decide (pl1 (residual k (rowInts row)) ≤ 1600 * k * (38 * 10 ^ 26))
      && decide (|pev (-1) (rowInts row) - pev 1 (rowInts row0)| ≤ 14 * 10 ^ 22)
  | _, _ => false

theorem erfcx_check : ∀ k < 100, 7 ≤ k → erfcxCheck k = true := by decide +kernel

/-- The case `k` as a function of `x`. -/
noncomputable def piece (k : ℕ) (x : ℝ) : ℝ :=
  match erfcxTab[k]? with
  | some row => horner (2 * (400 / (4 + x)) - (2 * k + 1)) row
  | none => 1

/-- The interval of the case `k`. -/
def RowCovers (k : ℕ) (x : ℝ) : Prop := 0 < x ∧ (k : ℝ) ≤ 400 / (4 + x) ∧ 400 / (4 + x) ≤ k + 1

theorem piece_residual {k : ℕ} (hk : 7 ≤ k) (hk2 : k < 100) {x : ℝ} (hx : RowCovers k x) :
    ∃ d, HasDerivAt (piece k) d x ∧ |d - 2 * x * piece k x + 2 / √π| ≤ 3.81e-13 := by
  have h := erfcx_check k hk2 hk
  unfold erfcxCheck at h
  split at h
  · rename_i row0 row _ hrow
    simp only [Bool.and_eq_true, decide_eq_true_eq] at h
    obtain ⟨⟨h40, hres⟩, -⟩ := h
    obtain ⟨hx0, hl, hr⟩ := hx
    have hpiece : piece k = fun x : ℝ => pev (2 * (400 / (4 + x)) - (2 * k + 1)) (rowInts row) / 10 ^ 40 := by
      funext x
      unfold piece
      rw [hrow]
      exact horner_ints _ _ h40
    have hx4 : 4 + x ≠ 0 := by positivity
    have hin : HasDerivAt (fun x : ℝ => 2 * (400 / (4 + x)) - (2 * (k : ℝ) + 1)) (-800 / (4 + x) ^ 2) x := by
      have h1 := ((((hasDerivAt_id x).const_add 4).inv hx4).const_mul 800).sub_const (2 * (k : ℝ) + 1)
      have e : (fun x : ℝ => 2 * (400 / (4 + x)) - (2 * (k : ℝ) + 1)) = fun x => 800 * (4 + id x)⁻¹ - (2 * (k : ℝ) + 1) := by
        funext x
        rw [div_eq_mul_inv]
        simp only [id]
        ring
      rw [e]
      refine h1.congr_deriv ?_
      simp only [id]
      ring
    set y := 400 / (4 + x) with hy
    set t := 2 * y - (2 * (k : ℝ) + 1) with ht
    have hd := ((pev_pder t (rowInts row)).comp x hin).div_const (10 ^ 40)
    refine ⟨_, by rw [hpiece]; exact hd, ?_⟩
    rw [hpiece]
    simp only [← hy, ← ht]
    set P := pev t (rowInts row) with hP
    set P' := pev t (pder (rowInts row)) with hP'
    have hk7 : (7 : ℝ) ≤ k := by exact_mod_cast hk
    have hy0 : 0 < y := by linarith
    have hxy : x = 400 / y - 4 := by
      rw [hy]
      field_simp
      ring
    have hslope : -800 / (4 + x) ^ 2 = -(y ^ 2 / 200) := by
      rw [hy]
      field_simp
      norm_num
    have ht1 : |t| ≤ 1 := by
      rw [abs_le, ht]
      constructor <;> linarith
    have hRv : pev t (residual k (rowInts row)) = -P' * (2 * y) ^ 3 + 1600 * (4 * (2 * y) - 800) * P + 800 * sInt * (2 * y) := by
      unfold residual
      simp only [pev_padd, pev_pscale, pev_pmul, ← hP, ← hP', pev]
      push_cast
      rw [ht]
      ring
    have hRle : |pev t (residual k (rowInts row))| ≤ 1600 * k * (38 * 10 ^ 26) := by
      refine (pev_le ht1 _).trans ?_
      exact_mod_cast hres
    have hs : 0 < √π := sqrt_pos.2 pi_pos
    have hsInt : |2 / √π - (sInt : ℝ) / 10 ^ 40| ≤ 1e-18 := by
      have e : (sInt : ℝ) / 10 ^ 40 = 2 * ispi := by
        unfold sInt ispi
        norm_num
      rw [e]
      have h1 := ispi_err
      have e2 : 2 / √π - 2 * ispi = -(2 / √π) * (ispi * √π - 1) := by
        field_simp
        ring
      have h2 : 2 / √π ≤ 2 := by
        rw [div_le_iff₀ hs]
        have : 1 ≤ √π := one_le_sqrt.2 (by linarith [pi_gt_three])
        linarith
      rw [e2, abs_mul, abs_neg, abs_of_pos (by positivity)]
      calc 2 / √π * |ispi * √π - 1| ≤ 2 * 1e-19 := mul_le_mul h2 h1 (abs_nonneg _) (by norm_num)
        _ ≤ 1e-18 := by norm_num
    have key : P' * (-800 / (4 + x) ^ 2) / 10 ^ 40 - 2 * x * (P / 10 ^ 40) + 2 / √π =
        pev t (residual k (rowInts row)) / (1600 * y * 10 ^ 40) + (2 / √π - (sInt : ℝ) / 10 ^ 40) := by
      rw [hRv, hslope, hxy]
      field_simp
      ring
    rw [key]
    have h1 : |pev t (residual k (rowInts row)) / (1600 * y * 10 ^ 40)| ≤ 3.8e-13 := by
      rw [abs_div, abs_of_pos (by positivity : (0 : ℝ) < 1600 * y * 10 ^ 40), div_le_iff₀ (by positivity)]
      nlinarith
    have h2 := abs_add_le (pev t (residual k (rowInts row)) / (1600 * y * 10 ^ 40)) (2 / √π - (sInt : ℝ) / 10 ^ 40)
    norm_num at h1 hsInt ⊢
    linarith
  · exact absurd h (by simp)

/-- The right end of the interval of the case `k`. -/
noncomputable def rightEnd (k : ℕ) : ℝ := 400 / k - 4

theorem rightEnd_y {k : ℕ} (hk : 0 < k) : 400 / (4 + rightEnd k) = k := by
  unfold rightEnd
  have : (0 : ℝ) < k := by exact_mod_cast hk
  field_simp
  ring

theorem piece_step {k : ℕ} (hk : 7 ≤ k) (hk2 : k + 1 < 100) : |piece (k + 1) (rightEnd (k + 1)) - piece k (rightEnd (k + 1))| ≤ 1.4e-17 := by
  have h := erfcx_check (k + 1) hk2 (by omega)
  have h0 := erfcx_check k (by omega) hk
  unfold erfcxCheck at h h0
  split at h
  · rename_i row0 row hrow0 hrow
    split at h0
    · rename_i row0' row' _ hrow'
      rw [Nat.add_sub_cancel] at hrow0
      rw [hrow0] at hrow'
      cases Option.some.inj hrow'
      simp only [Bool.and_eq_true, decide_eq_true_eq] at h h0
      unfold piece
      rw [hrow0, hrow]
      dsimp only
      rw [rightEnd_y (by omega), horner_ints _ _ h.1.1, horner_ints _ _ h0.1.1]
      have e1 : 2 * ((k + 1 : ℕ) : ℝ) - (2 * ((k + 1 : ℕ) : ℝ) + 1) = ((-1 : ℤ) : ℝ) := by push_cast; ring
      have e2 : 2 * ((k + 1 : ℕ) : ℝ) - (2 * (k : ℝ) + 1) = ((1 : ℤ) : ℝ) := by push_cast; ring
      rw [e1, e2, ← pev_int, ← pev_int, ← sub_div, abs_div, abs_of_pos (by positivity : (0 : ℝ) < 10 ^ 40), div_le_iff₀ (by positivity)]
      have h3 := h.2
      have h4 : ((|pev (-1) (rowInts row) - pev 1 (rowInts row0)| : ℤ) : ℝ) ≤ ((14 * 10 ^ 22 : ℤ) : ℝ) := by exact_mod_cast h3
      push_cast at h4
      refine h4.trans ?_
      norm_num
    · exact absurd h0 (by simp)
  · exact absurd h (by simp)

theorem voigtH_zero_le {a : ℝ} (ha : 0 < a) : voigtH a 0 ≤ 1 := by
  have h := MeasureTheory.integral_mono (voigt_integrand ha 0) (lorentz_integrable ha) (fun t => by
    have h1 : exp (-t ^ 2) ≤ 1 := exp_le_one_iff.2 (by nlinarith [sq_nonneg t])
    have h2 := lorentz_pos ha t
    have h3 : lorentz a (0 - t) = lorentz a t := by rw [zero_sub, lorentz_even]
    dsimp only
    rw [h3]
    nlinarith)
  rw [lorentz_integral ha] at h
  unfold voigtH
  rw [div_mul_eq_mul_div, one_mul, div_le_one pi_pos]
  exact h

theorem covers_Icc {k : ℕ} (hk : 0 < k) {x s : ℝ} (hx : RowCovers k x) (hs : s ∈ Icc x (rightEnd k)) : RowCovers k s := by
  obtain ⟨h0, hl, hr⟩ := hx
  have hs0 : 0 < s := h0.trans_le hs.1
  have hk0 : (0 : ℝ) < k := by exact_mod_cast hk
  refine ⟨hs0, ?_, ?_⟩
  · rw [le_div_iff₀ (by positivity)]
    have h1 := hs.2
    unfold rightEnd at h1
    have h2 : 4 + s ≤ 400 / k := by linarith
    rw [le_div_iff₀ hk0] at h2
    linarith
  · refine le_trans ?_ hr
    exact div_le_div_of_nonneg_left (by norm_num) (by positivity) (by linarith [hs.1])

theorem covers_le {k : ℕ} (hk : 0 < k) {x : ℝ} (hx : RowCovers k x) : x ≤ rightEnd k := by
  obtain ⟨h0, hl, -⟩ := hx
  have hk0 : (0 : ℝ) < k := by exact_mod_cast hk
  unfold rightEnd
  rw [le_div_iff₀ (by positivity)] at hl
  have : 4 + x ≤ 400 / k := by
    rw [le_div_iff₀ hk0]
    linarith
  linarith

/-- One interval: the error at a point from the error at the right end. -/
theorem piece_gronwall {k : ℕ} (hk : 7 ≤ k) (hk2 : k < 100) {x : ℝ} (hx : RowCovers k x) :
    |piece k x - voigtH x 0| ≤ exp (x ^ 2 - rightEnd k ^ 2) * |piece k (rightEnd k) - voigtH (rightEnd k) 0| +
      3.81e-13 * (√π / 2) * (voigtH x 0 - exp (x ^ 2 - rightEnd k ^ 2) * voigtH (rightEnd k) 0) := by
  have hk0 : 0 < k := by omega
  have hex : ∀ s : ℝ, ∃ d : ℝ, s ∈ Icc x (rightEnd k) → HasDerivAt (piece k) d s ∧ |d - 2 * s * piece k s + 2 / √π| ≤ 3.81e-13 := by
    intro s
    by_cases hs : s ∈ Icc x (rightEnd k)
    · obtain ⟨d, hd⟩ := piece_residual hk hk2 (covers_Icc hk0 hx hs)
      exact ⟨d, fun _ => hd⟩
    · exact ⟨0, fun h => absurd h hs⟩
  choose f' hf' using hex
  exact gronwall hx.1 (covers_le hk0 hx) (fun s hs => (hf' s hs).1) (fun s hs => (hf' s hs).2)

theorem piece_first : |piece 7 (rightEnd 7)| ≤ 1 := by
  unfold piece
  rw [rightEnd_y (by norm_num)]
  have h : erfcxTab[7]? = some ((erfcxTab[7]?).getD []) := by decide +kernel
  rw [h]
  dsimp only
  have h40 : (((erfcxTab[7]?).getD []).all fun c => decide (c.2 ≤ 40)) = true := by decide +kernel
  rw [horner_ints _ _ h40]
  have e1 : 2 * ((7 : ℕ) : ℝ) - (2 * ((7 : ℕ) : ℝ) + 1) = -1 := by norm_num
  rw [e1, abs_div, abs_of_pos (by positivity : (0 : ℝ) < 10 ^ 40), div_le_one (by positivity)]
  refine (pev_le (by norm_num) _).trans ?_
  have : pl1 (rowInts ((erfcxTab[7]?).getD [])) ≤ 10 ^ 40 := by decide +kernel
  exact_mod_cast this

/-- All intervals, from the right to the left. -/
theorem piece_err : ∀ (j : ℕ), 7 + j < 100 → ∀ x, RowCovers (7 + j) x →
    |piece (7 + j) x - voigtH x 0| ≤ 3.81e-13 * (√π / 2) * voigtH x 0 + j * 1.4e-17 + exp (x ^ 2 - rightEnd 7 ^ 2) * 2
  | 0, hj, x, hx => by
    have h := piece_gronwall (le_refl 7) hj hx
    have hb : 0 < rightEnd 7 := by unfold rightEnd; norm_num
    have h1 := piece_first
    have h2 := voigtH_zero_le hb
    have h3 := voigtH_pos hb 0
    have h4 : |piece 7 (rightEnd 7) - voigtH (rightEnd 7) 0| ≤ 2 := by
      rw [abs_le] at h1 ⊢
      constructor <;> linarith
    have h5 := exp_pos (x ^ 2 - rightEnd 7 ^ 2)
    have hs : 0 < √π := sqrt_pos.2 pi_pos
    have h6 := mul_le_mul_of_nonneg_left h4 h5.le
    have h7 : 0 ≤ 3.81e-13 * (√π / 2) * (exp (x ^ 2 - rightEnd 7 ^ 2) * voigtH (rightEnd 7) 0) := by positivity
    push_cast
    rw [zero_mul, add_zero]
    linarith
  | j + 1, hj, x, hx => by
    have e : 7 + (j + 1) = 7 + j + 1 := by ring
    rw [e] at hj hx ⊢
    have h := piece_gronwall (by omega) hj hx
    have hxb := covers_le (by omega) hx
    set b := rightEnd (7 + j + 1) with hb
    have hb0 : 0 < b := hx.1.trans_le hxb
    have hcov : RowCovers (7 + j) b := by
      refine ⟨hb0, ?_, ?_⟩
      · rw [hb, rightEnd_y (by omega)]
        push_cast
        linarith
      · rw [hb, rightEnd_y (by omega)]
        push_cast
        linarith
    have ih := piece_err j (by omega) b hcov
    have hstep := piece_step (k := 7 + j) (by omega) hj
    rw [← hb] at hstep
    have h4 : |piece (7 + j + 1) b - voigtH b 0| ≤ 3.81e-13 * (√π / 2) * voigtH b 0 + (j * 1.4e-17 + 1.4e-17) + exp (b ^ 2 - rightEnd 7 ^ 2) * 2 := by
      have := abs_sub_le (piece (7 + j + 1) b) (piece (7 + j) b) (voigtH b 0)
      linarith
    have hE := exp_pos (x ^ 2 - b ^ 2)
    have hE1 : exp (x ^ 2 - b ^ 2) ≤ 1 := by
      rw [exp_le_one_iff]
      nlinarith [hx.1]
    have hE2 : exp (x ^ 2 - b ^ 2) * exp (b ^ 2 - rightEnd 7 ^ 2) = exp (x ^ 2 - rightEnd 7 ^ 2) := by
      rw [← exp_add]
      ring_nf
    have h5 := mul_le_mul_of_nonneg_left h4 hE.le
    have h6 : exp (x ^ 2 - b ^ 2) * ((j : ℝ) * 1.4e-17 + 1.4e-17) ≤ (j : ℝ) * 1.4e-17 + 1.4e-17 := by
      have : 0 ≤ (j : ℝ) * 1.4e-17 + 1.4e-17 := by positivity
      nlinarith
    push_cast
    rw [← hE2]
    linarith

/-- The complementary error function of the code is the Voigt function at the centre of the line. -/
theorem erfcx_table {x : ℝ} (hx : 0 < x) (hx50 : x ≤ 50) : |erfcx_y100 (400 / (4 + x)) - voigtH x 0| ≤ 5e-13 * voigtH x 0 := by
  have hy0 : 0 < 400 / (4 + x) := by positivity
  have hy1 : 7 ≤ 400 / (4 + x) := by
    rw [le_div_iff₀ (by positivity)]
    linarith
  have hy2 : 400 / (4 + x) < 100 := by
    rw [div_lt_iff₀ (by positivity)]
    linarith
  obtain ⟨k, hk⟩ : ∃ k : ℕ, ⌊400 / (4 + x)⌋ = (k : ℤ) := Int.eq_ofNat_of_zero_le (Int.floor_nonneg.2 hy0.le)
  have hk1 : ((k : ℤ) : ℝ) ≤ 400 / (4 + x) := by rw [← hk]; exact Int.floor_le _
  have hk2 : 400 / (4 + x) < ((k : ℤ) : ℝ) + 1 := by rw [← hk]; exact Int.lt_floor_add_one _
  have hk3 : 7 ≤ k := by
    have : (7 : ℤ) ≤ ⌊400 / (4 + x)⌋ := Int.le_floor.2 (by exact_mod_cast hy1)
    omega
  have hk4 : k < 100 := by
    have : ⌊400 / (4 + x)⌋ < (100 : ℤ) := Int.floor_lt.2 (by exact_mod_cast hy2)
    omega
  have hval : erfcx_y100 (400 / (4 + x)) = piece k x := by
    unfold erfcx_y100 toInt
    rw [if_pos hy0.le, hk]
    rfl
  obtain ⟨j, rfl⟩ := Nat.exists_eq_add_of_le hk3
  have h := piece_err j hk4 x ⟨hx, by simpa using hk1, by simpa using hk2.le⟩
  rw [hval]
  refine h.trans ?_
  have hH := voigtH_pos hx 0
  have hlow : 0.011 ≤ voigtH x 0 := by
    by_cases h1 : x ≤ 1
    · have h2 := voigtH_ge hx h1
      have h3 : (1 / 3 : ℝ) ≤ exp (-1 ^ 2) := by
        rw [one_pow, exp_neg, one_div]
        exact inv_anti₀ (exp_pos _) (by linarith [exp_one_lt_d9])
      linarith
    · have h2 := Verif.Hermite.voigtH_ge_lorentz hx 0
      refine le_trans ?_ h2
      have hs : √π ≤ 1.7725 := by
        rw [sqrt_le_left (by norm_num)]
        have := pi_lt_d4
        norm_num at this ⊢
        linarith
      have hs0 : 0 < √π := sqrt_pos.2 pi_pos
      push Not at h1
      rw [le_div_iff₀ (by positivity)]
      have : 0.011 * (√π * (0 ^ 2 + x ^ 2 + 1 / 2)) ≤ 0.011 * (1.7725 * (0 ^ 2 + x ^ 2 + 1 / 2)) := by gcongr
      refine this.trans ?_
      norm_num
      nlinarith
  have hj : (j : ℝ) ≤ 92 := by
    have : j ≤ 92 := by omega
    exact_mod_cast this
  have hexp : exp (x ^ 2 - rightEnd 7 ^ 2) ≤ 1e-20 := by
    have h1 : x ^ 2 - rightEnd 7 ^ 2 ≤ -(300 : ℝ) := by
      unfold rightEnd
      norm_num
      nlinarith
    have h2 : exp (-(300 : ℝ)) = (exp 1 ^ 300)⁻¹ := by
      rw [exp_neg, ← exp_nat_mul]
      norm_num
    refine (exp_le_exp.2 h1).trans ?_
    rw [h2]
    have h3 : (2 : ℝ) ^ 100 ≤ exp 1 ^ 300 := by
      have h4 : (2 : ℝ) ^ 100 ≤ 2 ^ 300 := pow_le_pow_right₀ (by norm_num) (by norm_num)
      exact h4.trans (pow_le_pow_left₀ (by norm_num) (by linarith [exp_one_gt_d9]) _)
    refine (inv_anti₀ (by positivity) h3).trans ?_
    norm_num
  have hs : √π / 2 ≤ 0.8863 := by
    have : √π ≤ 1.7726 := by
      rw [sqrt_le_left (by norm_num)]
      have := pi_lt_d4
      norm_num at this ⊢
      linarith
    linarith
  have h1 : 3.81e-13 * (√π / 2) * voigtH x 0 ≤ 3.81e-13 * 0.8863 * voigtH x 0 := by gcongr
  have h2 : (j : ℝ) * 1.4e-17 ≤ 92 * 1.4e-17 := by gcongr
  norm_num at h1 h2 hexp hlow ⊢
  linarith

example := erfcx_table (x := 2.5) (by norm_num) (by norm_num)

end Verif.Props
