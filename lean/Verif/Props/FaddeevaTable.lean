import Verif.Props.FaddeevaSafe
import Mathlib.Analysis.Real.Pi.Bounds

/-!
Property C99: the constants of the series in Faddeeva.cpp are what they stand for.
-/

namespace Verif.Props
open Verif.Model.Faddeeva Real

/-- The table without its last element, as whole numbers and powers of ten. -/
def tabNat : List (ℕ × ℕ) :=
  [
    (764405281671221563, 18), (341424527166548425, 18), (891072646929412548, 19), (135887299055460086, 19),
    (121085455253437481, 20), (630452613933449404, 22), (191805156577114683, 23), (340969447714832381, 25),
    (354175089099469393, 27), (214965079583260682, 29), (762368911833724354, 32), (157982797110681093, 34),
    (191294189103582677, 37), (135344656764205340, 40), (559535712428588720, 44), (135164257972401769, 47),
    (190784582843501167, 51), (157351920291442930, 55), (758312432328032845, 60), (213536275438697082, 64),
    (351352063787195769, 69), (337800830266396920, 74), (189769439468301000, 79), (622929926072668851, 85),
    (119481172006938722, 90), (133908181133005953, 96), (876924303483223939, 103), (335555576166254986, 109),
    (750264110688173024, 116), (980192200745410268, 123), (748265412822268959, 130), (333770122566809425, 137),
    (869934598159861140, 145), (132486951484088852, 152), (117898144201315253, 160), (613039120236180012, 169),
    (186258785950822098, 177), (330668408201432783, 186), (343017280887946235, 195), (207915397775808219, 204),
    (736384545323984966, 214), (152394760394085741, 223), (184281935046532100, 233), (130209553802992923, 243),
    (537588903521080531, 254), (129689584599763145, 264), (182813078022866562, 275), (150576355348684241, 286),
    (724692320799294194, 298), (203797051314726829, 309), (334880215927873807, 321)]

theorem sci_true (m e : ℕ) : (OfScientific.ofScientific m true e : ℝ) = (m : ℝ) / 10 ^ e := by
  have h : (OfScientific.ofScientific m true e : ℝ) = ((OfScientific.ofScientific m true e : ℚ) : ℝ) := by
    rw [← Rat.cast_ofScientific (K := ℝ)]
  have h2 : (OfScientific.ofScientific m true e : ℚ) = (m : ℚ) / 10 ^ e := by
    change Rat.ofScientific m true e = _
    rw [Rat.ofScientific_true_def, Rat.mkRat_eq_div]
    push_cast
    rfl
  rw [h, h2]
  push_cast
  rfl

theorem table_eq : expa2n2 = tabNat.map (fun p => (p.1 : ℝ) / 10 ^ p.2) ++ [0] := by
  unfold expa2n2 tabNat
  simp only [List.map_cons, List.map_nil, List.cons_append, List.nil_append]
  repeat (first | refine congrArg₂ List.cons (sci_true _ _) ?_)
  norm_num

/-- Bounds on the exponential in the table. -/
theorem expA_bounds : (764405281671221563381528 : ℝ) / 10 ^ 24 ≤ exp (-cA ^ 2) ∧ exp (-cA ^ 2) ≤ 764405281671221563381529 / 10 ^ 24 := by
  have h := Real.exp_bound (x := -cA ^ 2) (by unfold cA; norm_num [abs_le]) (n := 20) (by norm_num)
  rw [abs_le] at h
  simp only [Finset.sum_range_succ, Finset.sum_range_zero, Nat.factorial] at h
  have e : |-cA ^ 2| = cA ^ 2 := by rw [abs_neg, abs_of_nonneg (sq_nonneg _)]
  rw [e] at h
  unfold cA at h ⊢
  norm_num at h ⊢
  constructor <;> linarith [h.1, h.2]

theorem tab_check : ∀ p ∈ tabNat.zipIdx,
    p.1.1 * 10 ^ (24 * (p.2 + 1) ^ 2) * 10 ^ 17 ≤ (10 ^ 17 + 10) * 764405281671221563381528 ^ ((p.2 + 1) ^ 2) * 10 ^ p.1.2 ∧
    (10 ^ 17 - 10) * 764405281671221563381529 ^ ((p.2 + 1) ^ 2) * 10 ^ p.1.2 ≤ p.1.1 * 10 ^ (24 * (p.2 + 1) ^ 2) * 10 ^ 17 := by
  decide +kernel

theorem tab_get {i : ℕ} (hi : i < 51) : ∃ m e : ℕ, expa2n2[i]? = some ((m : ℝ) / 10 ^ e) ∧ ((m, e), i) ∈ tabNat.zipIdx := by
  have hl : tabNat.length = 51 := rfl
  have hlt : i < tabNat.length := by omega
  refine ⟨tabNat[i].1, tabNat[i].2, ?_, ?_⟩
  · rw [table_eq, List.getElem?_append_left (by simpa using hlt), List.getElem?_map, List.getElem?_eq_getElem hlt]
    rfl
  · rw [List.mem_zipIdx_iff_getElem?]
    simp [hlt]

/-- The table holds the values of the Gaussian. -/
theorem table_gauss {i : ℕ} (hi : i < 51) : ∃ t, expa2n2[i]? = some t ∧ |t - exp (-(cA * (i + 1)) ^ 2)| ≤ 1e-16 * exp (-(cA * (i + 1)) ^ 2) := by
  obtain ⟨m, e, hg, hz⟩ := tab_get hi
  refine ⟨_, hg, ?_⟩
  obtain ⟨c1, c2⟩ := tab_check _ hz
  obtain ⟨b1, b2⟩ := expA_bounds
  simp only at c1 c2
  have hq : exp (-(cA * ((i : ℝ) + 1)) ^ 2) = exp (-cA ^ 2) ^ ((i + 1) ^ 2) := by
    rw [← exp_nat_mul]
    congr 1
    push_cast
    ring
  rw [hq]
  have p1 : ((764405281671221563381528 : ℝ) / 10 ^ 24) ^ ((i + 1) ^ 2) ≤ exp (-cA ^ 2) ^ ((i + 1) ^ 2) := by gcongr
  have p2 : exp (-cA ^ 2) ^ ((i + 1) ^ 2) ≤ ((764405281671221563381529 : ℝ) / 10 ^ 24) ^ ((i + 1) ^ 2) := by gcongr
  generalize exp (-cA ^ 2) ^ ((i + 1) ^ 2) = g at *
  rw [div_pow, ← pow_mul] at p1 p2
  have d1 : (m : ℝ) * 10 ^ (24 * (i + 1) ^ 2) * 10 ^ 17 ≤ (10 ^ 17 + 10) * 764405281671221563381528 ^ ((i + 1) ^ 2) * 10 ^ e := by exact_mod_cast c1
  have d2 : (10 ^ 17 - 10) * (764405281671221563381529 : ℝ) ^ ((i + 1) ^ 2) * 10 ^ e ≤ (m : ℝ) * 10 ^ (24 * (i + 1) ^ 2) * 10 ^ 17 := by
    have : ((10 ^ 17 - 10 : ℕ) : ℝ) = 10 ^ 17 - 10 := by norm_num
    rw [← this]
    exact_mod_cast c2
  have hT : (0 : ℝ) < 10 ^ (24 * (i + 1) ^ 2) := by positivity
  have hE : (0 : ℝ) < 10 ^ e := by positivity
  generalize (10 : ℝ) ^ (24 * (i + 1) ^ 2) = T at *
  generalize (10 : ℝ) ^ e = E at *
  generalize (764405281671221563381528 : ℝ) ^ ((i + 1) ^ 2) = L at *
  generalize (764405281671221563381529 : ℝ) ^ ((i + 1) ^ 2) = U at *
  rw [div_le_iff₀ hT] at p1
  rw [le_div_iff₀ hT] at p2
  have u1 : (m : ℝ) / E ≤ (1 + 1e-16) * g := by
    rw [div_le_iff₀ hE]
    have : (m : ℝ) * T * 10 ^ 17 ≤ (10 ^ 17 + 10) * (g * T) * E := d1.trans (by gcongr)
    have h2 : (m : ℝ) * T ≤ ((1 + 1e-16) * g * E) * T := by
      norm_num at this ⊢
      linarith
    exact le_of_mul_le_mul_right h2 hT
  have u2 : (1 - 1e-16) * g ≤ (m : ℝ) / E := by
    rw [le_div_iff₀ hE]
    have : (10 ^ 17 - 10) * (g * T) * E ≤ (m : ℝ) * T * 10 ^ 17 := le_trans (by gcongr) d2
    have h2 : ((1 - 1e-16) * g * E) * T ≤ (m : ℝ) * T := by
      norm_num at this ⊢
      linarith
    exact le_of_mul_le_mul_right h2 hT
  rw [abs_le]
  constructor
  · linarith
  · linarith

/-- The other constants: the square of the spacing of the grid, and its double over pi. -/
theorem cA2_near : |cA2 - cA ^ 2| ≤ 1e-21 := by
  unfold cA2 cA
  rw [abs_le]
  norm_num

theorem cC_near : |cC - 2 * cA / π| ≤ 1e-18 * (2 * cA / π) := by
  have h1 := pi_gt_d20
  have h2 := pi_lt_d20
  have hp := pi_pos
  rw [show (1e-18 : ℝ) * (2 * cA / π) = (1e-18 * (2 * cA)) / π by ring, show cC - 2 * cA / π = (cC * π - 2 * cA) / π by field_simp, abs_div,
    abs_of_pos hp]
  refine div_le_div_of_nonneg_right ?_ hp.le
  unfold cC cA
  rw [abs_le]
  norm_num at h1 h2 ⊢
  constructor <;> linarith

end Verif.Props
