import Verif.Props.FaddeevaSafe

/-!
Property C99: the line profile in the damping wings is the Voigt function, to a small relative error.
-/

namespace Verif.Props
open Verif.Model.Faddeeva Verif.Spec Verif.Hermite Real

/-- The arguments in the wings: a large width, or far from the centre. -/
def InWing (u a : ℝ) : Prop := 7 < a ∨ 6 < |u| ∧ (0.1 < a ∨ 8 < |u| ∧ 1e-10 < a ∨ 28 < |u|)

/-- What the code computes there. -/
theorem profile_cf (F : RealFns) (fuel : ℕ) {u a : ℝ} (hu : u ≠ 0) (ha : 0 < a) (h : InWing u a) :
    profile F fuel u a = .ok (some (cfUpper |u| u a).re) := by
  have h' : useCF |u| |a| := by
    rw [abs_of_pos ha]
    exact h
  unfold profile w
  simp only [hu, ha.ne', if_false, if_pos h', Except.map, Option.map]
  unfold cf
  simp only
  rw [if_neg (not_lt.2 ha.le), if_neg (not_lt.2 ha.le), abs_of_pos ha]

/-- Up to 4000 widths from the centre. -/
theorem profile_wing (F : RealFns) (fuel : ℕ) {u a : ℝ} (hu : u ≠ 0) (ha : 0 < a) (h : InWing u a) (h4 : |u| + a ≤ 4000) :
    ∃ r, profile F fuel u a = .ok (some r) ∧ |r - voigtH a u| ≤ 5e-12 * max 1 (1 / a ^ 2) * voigtH a u := by
  refine ⟨_, profile_cf F fuel hu ha h, ?_⟩
  unfold cfUpper
  rw [if_neg (not_lt.2 h4)]
  exact cfn_err ha h

/-- Further out. -/
theorem profile_far (F : RealFns) (fuel : ℕ) {u a : ℝ} (hu : u ≠ 0) (ha : 1e-100 ≤ a) (h : 4000 < |u| + a) :
    ∃ r, profile F fuel u a = .ok (some r) ∧ |r - voigtH a u| ≤ (if 1e7 < |u| + a then 1e-12 else 2e-6) * voigtH a u := by
  have ha0 : 0 < a := lt_of_lt_of_le (by norm_num) ha
  refine ⟨_, profile_cf F fuel hu ha0 ?_, cf_far_err ha h⟩
  by_cases h7 : 7 < a
  · exact Or.inl h7
  · rw [not_lt] at h7
    exact Or.inr ⟨by linarith, Or.inr (Or.inr (by linarith))⟩

/-- For damping parameters as in the lines of the package: the relative error anywhere in the wing is below a thousandth. -/
theorem profile_wing_all (F : RealFns) (fuel : ℕ) {u a : ℝ} (ha : 1e-4 ≤ a) (h : 8 < |u|) :
    ∃ r, profile F fuel u a = .ok (some r) ∧ |r - voigtH a u| ≤ 1e-3 * voigtH a u := by
  have ha0 : 0 < a := lt_of_lt_of_le (by norm_num) ha
  have hu : u ≠ 0 := by
    intro e
    rw [e, abs_zero] at h
    linarith
  have hH := voigtH_pos ha0 u
  by_cases h4 : |u| + a ≤ 4000
  · obtain ⟨r, hr, he⟩ := profile_wing F fuel hu ha0 (Or.inr ⟨by linarith, Or.inr (Or.inl ⟨h, lt_of_lt_of_le (by norm_num) ha⟩)⟩) h4
    refine ⟨r, hr, he.trans (mul_le_mul_of_nonneg_right ?_ hH.le)⟩
    have h1 : 1 / a ^ 2 ≤ 1e8 := by
      rw [div_le_iff₀ (by positivity)]
      have : (1e-4 : ℝ) ^ 2 ≤ a ^ 2 := by gcongr
      norm_num at this ⊢
      linarith
    have h2 : max 1 (1 / a ^ 2) ≤ 1e8 := max_le (by norm_num) h1
    generalize max 1 (1 / a ^ 2) = M at h2 ⊢
    norm_num at h2 ⊢
    linarith
  · rw [not_le] at h4
    obtain ⟨r, hr, he⟩ := profile_far F fuel hu (ha.trans' (by norm_num)) h4
    refine ⟨r, hr, he.trans (mul_le_mul_of_nonneg_right ?_ hH.le)⟩
    split <;> norm_num

/-- The profile is positive in the wings. -/
theorem profile_wing_pos (F : RealFns) (fuel : ℕ) {u a : ℝ} (hu : u ≠ 0) (ha : 0 < a) (h : InWing u a) :
    ∃ r, profile F fuel u a = .ok (some r) ∧ 0 < r := by
  refine ⟨_, profile_cf F fuel hu ha h, ?_⟩
  have hi : 0 < ispi := by unfold ispi; norm_num
  have hs : 0 < √π := sqrt_pos.2 pi_pos
  unfold cfUpper
  split
  · split
    · rw [cf1_re ha]
      positivity
    · unfold cf2
      simp only
      have e : u * (2 * u * a) - a * (u * u - a * a - 0.5) = a * (u ^ 2 + a ^ 2 + 0.5) := by ring
      have hD : 0 < (u * u - a * a - 0.5) * (u * u - a * a - 0.5) + 2 * u * a * (2 * u * a) := by
        have h1 := mul_self_nonneg (u * u - a * a - 0.5)
        have h2 : 0 < 2 * u * a * (2 * u * a) := mul_self_pos.2 (by simp [hu, ha.ne'])
        linarith
      rw [e]
      positivity
  · unfold cfn
    simp only
    have hp := cfLoop_pos (xs := u) ha (cfTerms |u| a).toNat (0.5 * ((cfTerms |u| a : ℝ) - 1)) (u, a) ha
    generalize cfLoop u a (cfTerms |u| a).toNat (0.5 * ((cfTerms |u| a : ℝ) - 1)) (u, a) = W at hp
    have := mul_self_nonneg W.1
    positivity

/-- At the centre of a line with a large damping parameter. -/
theorem profile_centre (F : RealFns) (fuel : ℕ) {a : ℝ} (ha : 50 < a) :
    ∃ r, profile F fuel 0 a = .ok (some r) ∧ |r - voigtH a 0| ≤ 1e-12 * voigtH a 0 := by
  have ha0 : 0 < a := by linarith
  have hH := voigtH_pos ha0 0
  have hs : 0 < √π := sqrt_pos.2 pi_pos
  have hval : profile F fuel 0 a = .ok (some (F.erfcx a)) := by
    unfold profile w
    simp [Except.map]
  refine ⟨_, hval, ?_⟩
  unfold RealFns.erfcx
  rw [if_pos ha0.le, if_pos ha]
  split
  · rename_i h7
    have hr := far_err (a := a) (u := 0) (r := a / (√π * ((0 : ℝ) ^ 2 + a ^ 2))) (le_trans (by norm_num) ha.le) (by norm_num at h7 ⊢; nlinarith)
      (by rw [sub_self, abs_zero]; positivity)
    have e : ispi / a = ispi * √π * (a / (√π * ((0 : ℝ) ^ 2 + a ^ 2))) := by
      field_simp
      ring
    rw [e]
    refine (scale_err hH hr).trans (mul_le_mul_of_nonneg_right ?_ hH.le)
    have hq2 : 2.5e15 ≤ (0 : ℝ) ^ 2 + a ^ 2 := by
      norm_num at h7 ⊢
      nlinarith
    have : 11 / ((0 : ℝ) ^ 2 + a ^ 2) ≤ 11 / 2.5e15 := by gcongr
    norm_num at this ⊢
    linarith
  · set z : ℂ := ⟨0, a⟩ with hzd
    have hz : 0 < z.im := ha0
    have hn : ‖z‖ = a := by
      have : z = Complex.I * a := by
        apply Complex.ext <;> simp [hzd]
      rw [this, norm_mul, Complex.norm_I, Complex.norm_real, norm_eq_abs, abs_of_pos ha0, one_mul]
    have h5 : (Nat.factorial 5 : ℝ) / 2 ^ 5 * ((50 : ℝ) ^ 2 + 1 / 2) ≤ 1e-12 * hB (50 : ℝ) 5 ^ 2 := by
      simp only [hB]
      norm_num [Nat.factorial]
    have hK := err_mono (n := 4) (by norm_num) ha.le (by norm_num) (by positivity) h5 (by norm_num)
    obtain ⟨hne, hrel⟩ := cf_rel hz (n := 5) (by norm_num) (by norm_num : (0 : ℝ) ≤ 1e-12) (by rw [hn]; norm_num; nlinarith) (by rw [hn]; exact hK)
    have hzI : z = Complex.I * a := by
      apply Complex.ext <;> simp [hzd]
    have hval : (Complex.I / (√π : ℝ) * (hA z 5 / hB z 5)).re =
        1 / √π * (((a * a) * (a * a + 4.5) + 2) / (a * ((a * a) * (a * a + 5) + 3.75))) := by
      have hAz : hA z 5 = (((a * a) * (a * a + 4.5) + 2 : ℝ) : ℂ) := by
        rw [hzI]
        simp only [hA]
        have hI := Complex.I_sq
        push_cast
        norm_num
        linear_combination (a ^ 4 * (Complex.I ^ 2 - 1) - 9 / 2 * a ^ 2 : ℂ) * hI
      have hBz : hB z 5 = Complex.I * ((a * ((a * a) * (a * a + 5) + 3.75) : ℝ) : ℂ) := by
        rw [hzI]
        simp only [hB]
        have hI := Complex.I_sq
        push_cast
        norm_num
        linear_combination (a ^ 5 * Complex.I * (Complex.I ^ 2 - 1) - 5 * a ^ 3 * Complex.I : ℂ) * hI
      have hBr : a * ((a * a) * (a * a + 5) + 3.75) ≠ 0 := by positivity
      have : Complex.I / (√π : ℝ) * (hA z 5 / hB z 5) =
          ((1 / √π * (((a * a) * (a * a + 4.5) + 2) / (a * ((a * a) * (a * a + 5) + 3.75))) : ℝ) : ℂ) := by
        rw [hAz, hBz]
        generalize a * ((a * a) * (a * a + 5) + 3.75) = X at hBr ⊢
        generalize (a * a) * (a * a + 4.5) + 2 = Y
        have h1 : (X : ℂ) ≠ 0 := Complex.ofReal_ne_zero.2 hBr
        have h2 : ((√π : ℝ) : ℂ) ≠ 0 := Complex.ofReal_ne_zero.2 hs.ne'
        have h3 := Complex.I_ne_zero
        push_cast
        field_simp
      rw [this, Complex.ofReal_re]
    have e : ispi * ((a * a) * (a * a + 4.5) + 2) / (a * ((a * a) * (a * a + 5) + 3.75)) =
        ispi * √π * (Complex.I / (√π : ℝ) * (hA z 5 / hB z 5)).re := by
      rw [hval]
      field_simp
    rw [e]
    refine (scale_err hH hrel).trans (mul_le_mul_of_nonneg_right ?_ hH.le)
    have h6 : 1e-12 / z.im ^ 2 ≤ 1e-12 / 50 ^ 2 := by
      have : z.im = a := rfl
      rw [this]
      gcongr
    norm_num at h6 ⊢
    linarith

/-- The hypotheses are met: the wing of a Lyman alpha line, at ten widths from its centre. -/
example : InWing 10 5e-4 ∧ |(10 : ℝ)| + 5e-4 ≤ 4000 ∧ (1e-4 : ℝ) ≤ 5e-4 ∧ 8 < |(10 : ℝ)| := by
  have h : |(10 : ℝ)| = 10 := abs_of_pos (by norm_num)
  rw [h]
  refine ⟨Or.inr ⟨by rw [h]; norm_num, Or.inr (Or.inl ⟨by rw [h]; norm_num, by norm_num⟩)⟩, by norm_num, by norm_num, by norm_num⟩

/-! The theorems at work ten Doppler widths from the centre, and far away. -/

theorem inWing_ex : InWing 10 5e-4 := by
  have h : |(10 : ℝ)| = 10 := abs_of_pos (by norm_num)
  unfold InWing
  rw [h]
  norm_num

example (F : RealFns) := profile_wing F 10 (u := 10) (a := 5e-4) (by norm_num) (by norm_num) inWing_ex
  (by rw [abs_of_pos (by norm_num)]; norm_num)

example (F : RealFns) := profile_far F 10 (u := 5000) (a := 5e-4) (by norm_num) (by norm_num) (by rw [abs_of_pos (by norm_num)]; norm_num)

example (F : RealFns) := profile_wing_all F 10 (u := 10) (a := 5e-4) (by norm_num) (by rw [abs_of_pos (by norm_num)]; norm_num)

example (F : RealFns) := profile_wing_pos F 10 (u := 10) (a := 5e-4) (by norm_num) (by norm_num) inWing_ex

end Verif.Props
