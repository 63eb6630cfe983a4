import Verif.Props.ErfcxTable
import Verif.Props.ProfileLarge
import Verif.Props.ProfileTiny
import Verif.Props.ProfileWing

/-!
C102: the value of the line profile is the Voigt function, to within a small relative error, whatever the branch of the
Faddeeva function which gave it.
-/

namespace Verif.Props
open Verif.Model.Faddeeva Verif.Spec Real

/-- The scaled complementary error function of the code at every positive number. -/
theorem erfcx_accurate (F : RealFns) {a : ℝ} (ha : 0 < a) : |F.erfcx a - voigtH a 0| ≤ 1e-12 * voigtH a 0 := by
  have hH := voigtH_pos ha 0
  rcases le_or_gt a 50 with h | h
  · have h1 := erfcx_table ha h
    have e : F.erfcx a = erfcx_y100 (400 / (4 + a)) := by
      unfold RealFns.erfcx
      rw [if_pos ha.le, if_neg (not_lt.2 h)]
    rw [e]
    refine h1.trans (mul_le_mul_of_nonneg_right (by norm_num) hH.le)
  · obtain ⟨r, hr, he⟩ := profile_centre F 0 h
    have hval : profile F 0 0 a = .ok (some (F.erfcx a)) := by
      unfold profile w
      simp [Except.map]
    rw [hval] at hr
    cases hr
    exact he

/-- At the centre of a line. -/
theorem profile_line_centre (F : RealFns) (fuel : ℕ) {a : ℝ} (ha : 0 < a) :
    ∃ r, profile F fuel 0 a = .ok (some r) ∧ |r - voigtH a 0| ≤ 1e-12 * voigtH a 0 := by
  refine ⟨_, ?_, erfcx_accurate F ha⟩
  unfold profile w
  simp [Except.map]

/-- Within ten thermal widths of the centre, whenever the continued fraction is not used. -/
theorem profile_core_accurate (F : RealFns) (fuel : ℕ) {u a : ℝ} (h10 : |u| < 10) (ha : 0 < a) (h : ¬InWing u a) :
    ∃ r, profile F fuel u a = .ok (some r) ∧ |r - voigtH a u| ≤ 2e-12 * voigtH a u := by
  have hH := voigtH_pos ha u
  have hE := erfcx_accurate F ha
  by_cases hu : u = 0
  · subst hu
    obtain ⟨r, hr, he⟩ := profile_line_centre F fuel ha
    exact ⟨r, hr, he.trans (mul_le_mul_of_nonneg_right (by norm_num) hH.le)⟩
  · rcases lt_or_ge |u| 5e-4 with h5 | h5
    · obtain ⟨r, hr, he⟩ := profile_tiny F fuel hu h5 ha h (by norm_num) hE
      exact ⟨r, hr, he.trans (mul_le_mul_of_nonneg_right (by norm_num) hH.le)⟩
    · obtain ⟨r, hr, he⟩ := profile_core F fuel h5 h10 ha h hE
      exact ⟨r, hr, he.trans (mul_le_mul_of_nonneg_right (by norm_num) hH.le)⟩

/-- The profile is the Voigt function everywhere, to within a relative error of 6e-10. -/
theorem profile_accurate (F : RealFns) (fuel : ℕ) (u : ℝ) {a : ℝ} (ha : 1e-100 ≤ a) :
    ∃ r, profile F fuel u a = .ok (some r) ∧ |r - voigtH a u| ≤ 6e-10 * voigtH a u := by
  have ha0 : 0 < a := lt_of_lt_of_le (by norm_num) ha
  have hH := voigtH_pos ha0 u
  by_cases hu : u = 0
  · subst hu
    obtain ⟨r, hr, he⟩ := profile_line_centre F fuel ha0
    exact ⟨r, hr, he.trans (mul_le_mul_of_nonneg_right (by norm_num) hH.le)⟩
  by_cases h : InWing u a
  · exact profile_wing_accurate F fuel hu ha h
  rcases lt_or_ge |u| 10 with h10 | h10
  · obtain ⟨r, hr, he⟩ := profile_core_accurate F fuel h10 ha0 h
    exact ⟨r, hr, he.trans (mul_le_mul_of_nonneg_right (by norm_num) hH.le)⟩
  · obtain ⟨r, hr, he⟩ := profile_large F fuel h10 ha0 h
    exact ⟨r, hr, he.trans (mul_le_mul_of_nonneg_right (by norm_num) hH.le)⟩

/-- For damping parameters of any size, within 28 widths of the centre. -/
theorem profile_accurate_near (F : RealFns) (fuel : ℕ) {u a : ℝ} (hu : |u| ≤ 28) (ha : 0 < a) :
    ∃ r, profile F fuel u a = .ok (some r) ∧ |r - voigtH a u| ≤ 6e-10 * voigtH a u := by
  rcases le_or_gt 1e-100 a with h | h
  · exact profile_accurate F fuel u h
  have hH := voigtH_pos ha u
  have h1 : a ≤ 1e-10 := h.le.trans (by norm_num)
  have hw : ¬InWing u a := by
    unfold InWing
    norm_num at h1 hu ⊢
    exact ⟨by linarith, fun _ => ⟨by linarith, fun _ => by linarith, hu⟩⟩
  rcases lt_or_ge |u| 10 with h10 | h10
  · obtain ⟨r, hr, he⟩ := profile_core_accurate F fuel h10 ha hw
    exact ⟨r, hr, he.trans (mul_le_mul_of_nonneg_right (by norm_num) hH.le)⟩
  · obtain ⟨r, hr, he⟩ := profile_large F fuel h10 ha hw
    exact ⟨r, hr, he.trans (mul_le_mul_of_nonneg_right (by norm_num) hH.le)⟩

/-- The profile is positive. -/
theorem profile_pos (F : RealFns) (fuel : ℕ) (u : ℝ) {a : ℝ} (ha : 1e-100 ≤ a) : ∃ r, profile F fuel u a = .ok (some r) ∧ 0 < r := by
  obtain ⟨r, hr, he⟩ := profile_accurate F fuel u ha
  refine ⟨r, hr, ?_⟩
  have hH := voigtH_pos (lt_of_lt_of_le (by norm_num) ha) u
  have := abs_le.1 he
  norm_num at this
  linarith [this.1]

/-- A line without damping is a Gaussian. -/
theorem profile_gauss (F : RealFns) (fuel : ℕ) (u : ℝ) : profile F fuel u 0 = .ok (some (exp (-u ^ 2))) := by
  unfold profile w
  by_cases hu : u = 0
  · subst hu
    have h : F.erfcx 0 = 1 := by
      have h1 : toInt (400 / (4 + 0)) = Int.ofNat 100 := by
        unfold toInt
        norm_num
      unfold RealFns.erfcx
      rw [if_pos (le_refl (0 : ℝ)), if_neg (by norm_num)]
      unfold erfcx_y100
      rw [h1]
      rfl
    simp [Except.map, h]
  · simp [Except.map, hu]
    ring_nf

/-- Values of Lyman alpha in gas of 10⁴ K, at the centre and half a width, 4 widths and 20 widths from it. -/
example : (1e-100 : ℝ) ≤ 4.7e-4 ∧ ¬InWing 0.5 4.7e-4 ∧ ¬InWing 4 4.7e-4 ∧ InWing 20 4.7e-4 := by
  unfold InWing
  norm_num

/-! The theorems at work for the damping constant of Lyman alpha in gas of ten thousand degrees. -/

example (F : RealFns) := erfcx_accurate F (a := 4.7e-4) (by norm_num)

example (F : RealFns) := profile_line_centre F 10 (a := 4.7e-4) (by norm_num)

example (F : RealFns) := profile_core_accurate F 10 (u := 0.5) (a := 4.7e-4) (by norm_num [abs_of_pos]) (by norm_num) (by unfold InWing; norm_num)

example (F : RealFns) := profile_accurate F 10 (-3) (a := 4.7e-4) (by norm_num)

example (F : RealFns) := profile_accurate_near F 10 (u := 20) (a := 1e-200) (by norm_num [abs_of_pos]) (by norm_num)

example (F : RealFns) := profile_pos F 10 (-3) (a := 4.7e-4) (by norm_num)

end Verif.Props
