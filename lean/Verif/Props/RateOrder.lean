import Verif.Props.Rates
import Mathlib.Analysis.Calculus.Deriv.MeanValue
import Mathlib.Analysis.SpecialFunctions.Log.Deriv
import Mathlib.Analysis.SpecialFunctions.Exponential
import Mathlib.Analysis.Convex.SpecificFunctions.Basic
import Mathlib.Analysis.SpecialFunctions.Pow.Real
import Mathlib.Analysis.Complex.ExponentialBounds
import Mathlib.Analysis.SpecialFunctions.Pow.Continuity

/-!
C112: what the tables of rates say about one another. Hotter ions recombine more slowly, hotter electrons ionise
more, what is bound more tightly is ionised more slowly, and the more highly charged ion of helium recombines
faster. The last is false of the tables of Badnell, where the two ions are exchanged.
-/

namespace Verif.Props.RateOrder
open Verif.Rates Verif.Props Filter Topology

/-! The fit of Badnell. -/

/-- `exp (-a/T)` grows no faster than `log T / e`. -/
theorem exp_inv_growth {a s t : ℝ} (hs : 0 < s) (hst : s ≤ t) :
    Real.exp (-a / t) - Real.exp (-a / s) ≤ Real.exp (-1) * (Real.log t - Real.log s) := by
  have key : MonotoneOn (fun x : ℝ => Real.exp (-1) * Real.log x - Real.exp (-a / x)) (Set.Ioi 0) := by
    have hd : ∀ x ∈ Set.Ioi (0 : ℝ), HasDerivAt (fun x : ℝ => Real.exp (-1) * Real.log x - Real.exp (-a / x))
        (Real.exp (-1) * x⁻¹ - Real.exp (-a / x) * (a / x ^ 2)) x := by
      intro x hx
      have hx0 : x ≠ 0 := ne_of_gt hx
      have h1 := (Real.hasDerivAt_log hx0).const_mul (Real.exp (-1))
      have h2 : HasDerivAt (fun x : ℝ => -a / x) (a / x ^ 2) x := by
        have := (hasDerivAt_inv hx0).const_mul (-a)
        have e : -a * -(x ^ 2)⁻¹ = a / x ^ 2 := by field_simp
        rw [e] at this
        exact this
      exact h1.sub h2.exp
    apply monotoneOn_of_deriv_nonneg (convex_Ioi 0)
    · intro x hx; exact (hd x hx).continuousAt.continuousWithinAt
    · intro x hx
      rw [interior_Ioi] at hx
      exact (hd x hx).differentiableAt.differentiableWithinAt
    · intro x hx
      rw [interior_Ioi] at hx
      rw [(hd x hx).deriv]
      have hx : 0 < x := hx
      have h : a / x ≤ Real.exp (a / x - 1) := by have := Real.add_one_le_exp (a / x - 1); linarith
      have h2 : a / x * Real.exp (-(a / x)) ≤ Real.exp (-1) := by
        calc a / x * Real.exp (-(a / x)) ≤ Real.exp (a / x - 1) * Real.exp (-(a / x)) := by gcongr
          _ = Real.exp (-1) := by rw [← Real.exp_add]; congr 1; ring
      have e : Real.exp (-1) * x⁻¹ - Real.exp (-a / x) * (a / x ^ 2)
          = (Real.exp (-1) - a / x * Real.exp (-(a / x))) * x⁻¹ := by
        rw [neg_div]; field_simp
      rw [e]
      exact mul_nonneg (by linarith) (by positivity)
  have := key (Set.mem_Ioi.2 hs) (Set.mem_Ioi.2 (lt_of_lt_of_le hs hst)) hst
  simp only at this
  linarith [mul_sub (Real.exp (-1)) (Real.log t) (Real.log s)]

theorem badnellFit_antitone {aa bb cc t0 t1 t2 : ℝ} (ha : 0 < aa) (hb : 0 ≤ bb) (hc : 0 ≤ cc) (hbc : bb + cc ≤ 1)
    (h0 : 0 < t0) (h01 : t0 ≤ t1) (h2 : 0 ≤ t2) (hsmall : cc * Real.exp (-1) * Real.log (t1 / t0) ≤ 1) {s t : ℝ}
    (hs : 0 < s) (hst : s ≤ t) :
    badnellFit t aa bb cc t0 t1 t2 ≤ badnellFit s aa bb cc t0 t1 t2 := by
  have ht : 0 < t := lt_of_lt_of_le hs hst
  have h1 : 0 < t1 := lt_of_lt_of_le h0 h01
  unfold badnellFit
  dsimp only
  have s0 : 0 < √(s / t0) := Real.sqrt_pos.2 (by positivity)
  have s1 : 0 < √(s / t1) := Real.sqrt_pos.2 (by positivity)
  have u0 : 0 < √(t / t0) := Real.sqrt_pos.2 (by positivity)
  have u1 : 0 < √(t / t1) := Real.sqrt_pos.2 (by positivity)
  have m0 : √(s / t0) ≤ √(t / t0) := Real.sqrt_le_sqrt (by gcongr)
  have m1 : √(s / t1) ≤ √(t / t1) := Real.sqrt_le_sqrt (by gcongr)
  have m01 : √(s / t1) ≤ √(s / t0) := Real.sqrt_le_sqrt (by gcongr)
  have hEt : Real.exp (-t2 / t) ≤ 1 := Real.exp_le_one_iff.2 (by rw [neg_div]; have := div_nonneg h2 ht.le; linarith)
  have hEs0 : 0 < Real.exp (-t2 / s) := Real.exp_pos _
  have hEt0 : 0 < Real.exp (-t2 / t) := Real.exp_pos _
  have hgrow := exp_inv_growth (a := t2) hs hst
  have hlst : Real.log s ≤ Real.log t := Real.log_le_log hs hst
  have hfirst : Real.log √(t / t0) - Real.log √(s / t0) = (Real.log t - Real.log s) / 2 := by
    rw [Real.log_sqrt (by positivity), Real.log_sqrt (by positivity), Real.log_div ht.ne' h0.ne',
      Real.log_div hs.ne' h0.ne']
    ring
  have hgap : Real.log (1 + √(s / t0)) - Real.log (1 + √(s / t1)) ≤ Real.log (t1 / t0) / 2 := by
    rw [← Real.log_div (by positivity) (by positivity)]
    have e : Real.log (t1 / t0) / 2 = Real.log (√(s / t0) / √(s / t1)) := by
      rw [Real.log_div s0.ne' s1.ne', Real.log_sqrt (by positivity), Real.log_sqrt (by positivity),
        Real.log_div hs.ne' h0.ne', Real.log_div hs.ne' h1.ne', Real.log_div h1.ne' h0.ne']
      ring
    rw [e]
    apply Real.log_le_log (by positivity)
    rw [div_le_div_iff₀ (by positivity) s1]
    nlinarith
  have hgap0 : 0 ≤ Real.log (1 + √(s / t0)) - Real.log (1 + √(s / t1)) := by
    have := Real.log_le_log (x := 1 + √(s / t1)) (y := 1 + √(s / t0)) (by positivity) (by linarith)
    linarith
  have l0 : Real.log (1 + √(s / t0)) ≤ Real.log (1 + √(t / t0)) := Real.log_le_log (by positivity) (by linarith)
  have l1 : Real.log (1 + √(s / t1)) ≤ Real.log (1 + √(t / t1)) := Real.log_le_log (by positivity) (by linarith)
  apply div_le_div_of_nonneg_left ha.le
  · have := Real.rpow_pos_of_pos (x := 1 + √(s / t0)) (by positivity) (1 - (bb + cc * Real.exp (-t2 / s)))
    have := Real.rpow_pos_of_pos (x := 1 + √(s / t1)) (by positivity) (1 + (bb + cc * Real.exp (-t2 / s)))
    positivity
  · have lg : ∀ x y z : ℝ, 0 < x → 0 < y → ∀ b : ℝ, 0 < z →
        z * (1 + x) ^ (1 - b) * (1 + y) ^ (1 + b)
          = Real.exp (Real.log z + (1 - b) * Real.log (1 + x) + (1 + b) * Real.log (1 + y)) := by
      intro x y z hx hy b hz
      rw [Real.exp_add, Real.exp_add, Real.exp_log hz, Real.rpow_def_of_pos (by linarith),
        Real.rpow_def_of_pos (by linarith), mul_comm (1 - b), mul_comm (1 + b)]
    rw [lg _ _ _ s0 s1 _ s0, lg _ _ _ u0 u1 _ u0]
    apply Real.exp_le_exp.2
    generalize Real.exp (-t2 / t) = Et at *
    generalize Real.exp (-t2 / s) = Es at *
    generalize Real.log (1 + √(s / t0)) = A0 at *
    generalize Real.log (1 + √(t / t0)) = B0 at *
    generalize Real.log (1 + √(s / t1)) = A1 at *
    generalize Real.log (1 + √(t / t1)) = B1 at *
    generalize Real.log √(s / t0) = P at *
    generalize Real.log √(t / t0) = Q at *
    generalize Real.log (t1 / t0) = L at *
    generalize Real.exp (-1) = e1 at *
    generalize hd : Real.log t - Real.log s = d at *
    have hd0 : 0 ≤ d := by linarith
    have hb1 : bb + cc * Et ≤ 1 := by nlinarith
    have f1 : 0 ≤ (1 - (bb + cc * Et)) * (B0 - A0) := mul_nonneg (by linarith) (by linarith)
    have f2 : 0 ≤ (1 + (bb + cc * Et)) * (B1 - A1) := mul_nonneg (by nlinarith) (by linarith)
    have f3 : cc * (Et - Es) * (A0 - A1) ≤ cc * (e1 * d) * (A0 - A1) := by gcongr
    have he1d : 0 ≤ cc * (e1 * d) ∨ cc * (e1 * d) < 0 := le_or_gt _ _
    have f4 : cc * (e1 * d) * (A0 - A1) ≤ d / 2 := by
      rcases he1d with h | h
      · calc cc * (e1 * d) * (A0 - A1) ≤ cc * (e1 * d) * (L / 2) := by gcongr
          _ = cc * e1 * L * (d / 2) := by ring
          _ ≤ 1 * (d / 2) := by gcongr
          _ = d / 2 := one_mul _
      · nlinarith
    nlinarith

theorem badnell_small : (0.0829 : ℝ) * Real.exp (-1) * Real.log (4.475e6 / 7.301) ≤ 1 := by
  have h1 : Real.exp (-1) ≤ 0.4 := by have := Real.exp_neg_one_lt_d9; linarith
  have h2 : Real.log (4.475e6 / 7.301) ≤ 14 := by
    rw [Real.log_le_iff_le_exp (by norm_num)]
    have h := Real.exp_one_gt_d9
    calc (4.475e6 / 7.301 : ℝ) ≤ 2.7 ^ 14 := by norm_num
      _ ≤ (Real.exp 1) ^ 14 := by gcongr; linarith
      _ = Real.exp 14 := by rw [← Real.exp_nat_mul]; norm_num
  have h0 : 0 ≤ Real.log (4.475e6 / 7.301) := Real.log_nonneg (by norm_num)
  have := Real.exp_pos (-1)
  nlinarith

/-- C112: doubly ionised helium recombines more slowly at higher temperature, whichever tables are used. -/
theorem alphaHepp_antitone (name : String) {s t : ℝ} (hs : 0 < s) (hst : s ≤ t) :
    (recombOf name).alphaHepp t ≤ (recombOf name).alphaHepp s := by
  have hH := alphaHp_antitone "C92" hs hst
  unfold recombOf at hH ⊢
  rw [if_neg (by decide), if_neg (by decide)] at hH
  split_ifs
  · exact vernerFit_antitone (by norm_num) (by norm_num) (by norm_num) (by norm_num) (by norm_num) hs hst
  · exact badnellFit_antitone (by norm_num) (by norm_num) (by norm_num) (by norm_num) (by norm_num) (by norm_num)
      (by norm_num) badnell_small hs hst
  · change 4 * cenHp t ≤ 4 * cenHp s
    change cenHp t ≤ cenHp s at hH
    linarith

/-- C112: singly ionised helium recombines radiatively more slowly at higher temperature in the tables of Cen and of
Badnell at every temperature, and in those of Verner below 6e5 K and above 8e5 K. -/
theorem alphaHep_antitone_partial (name : String) {s t : ℝ} (hs : 0 < s) (hst : s ≤ t)
    (h : name = "V96" → t < 6e5 ∨ 8e5 < s) :
    (recombOf name).alphaHep t ≤ (recombOf name).alphaHep s := by
  unfold recombOf
  split_ifs with h1 h2
  · change vernerHep t ≤ vernerHep s
    rcases h h1 with h | h
    · rw [vernerHep_cases.1 h, vernerHep_cases.1 (lt_of_le_of_lt hst h)]
      exact vernerFit_antitone (by norm_num) (by norm_num) (by norm_num) (by norm_num) (by norm_num) hs hst
    · rw [vernerHep_cases.2.1 h, vernerHep_cases.2.1 (lt_of_lt_of_le h hst)]
      exact vernerFit_antitone (by norm_num) (by norm_num) (by norm_num) (by norm_num) (by norm_num) hs hst
  · exact vernerFit_antitone (by norm_num) (by norm_num) (by norm_num) (by norm_num) (by norm_num) hs hst
  · change 1.5e-10 / t ^ (0.6353 : ℝ) ≤ 1.5e-10 / s ^ (0.6353 : ℝ)
    have p0 : 0 < s ^ (0.6353 : ℝ) := Real.rpow_pos_of_pos hs _
    have l0 : s ^ (0.6353 : ℝ) ≤ t ^ (0.6353 : ℝ) := Real.rpow_le_rpow hs.le hst (by norm_num)
    gcongr

/-- C112 (finding): the default tables are not monotone, because of the gap at 6e5 K. -/
theorem alphaHep_not_antitone :
    ∃ s t : ℝ, 0 < s ∧ s < t ∧ (recombOf "V96").alphaHep s < (recombOf "V96").alphaHep t := by
  refine ⟨6e5, 7e5, by norm_num, by norm_num, ?_⟩
  unfold recombOf
  rw [if_pos rfl]
  change vernerHep 6e5 < vernerHep 7e5
  rw [vernerHep_cases.2.2.2 (Or.inl rfl)]
  exact (verner_hep_pos_iff (by norm_num)).2 ⟨by norm_num, by norm_num⟩

/-! The limits. -/

theorem badnellFit_zero (temp aa bb t0 t1 : ℝ) : badnellFit temp aa bb 0 t0 t1 0 = vernerFit temp aa bb t0 t1 := by
  unfold badnellFit vernerFit
  simp

theorem badnellFit_split {aa bb cc t0 t1 t2 temp : ℝ} :
    badnellFit temp aa bb cc t0 t1 t2 = aa / (√(temp / t0) * ((1 + √(temp / t0)) * (1 + √(temp / t1)) *
      ((1 + √(temp / t1)) / (1 + √(temp / t0))) ^ (bb + cc * Real.exp (-t2 / temp)))) := by
  unfold badnellFit
  dsimp only
  have s0 : 0 < 1 + √(temp / t0) := by have := Real.sqrt_nonneg (temp / t0); linarith
  have s1 : 0 < 1 + √(temp / t1) := by have := Real.sqrt_nonneg (temp / t1); linarith
  rw [Real.rpow_sub s0, Real.rpow_add s1, Real.rpow_one, Real.rpow_one, Real.div_rpow s1.le s0.le]
  congr 1
  field_simp

/-- The fits for cold gas: the rate goes as one over the root of the temperature. -/
theorem badnellFit_cold {aa bb cc t0 t1 t2 : ℝ} (h0 : 0 < t0) (h1 : 0 < t1) (h2 : 0 ≤ t2) (hc : t2 = 0 → cc = 0) :
    Tendsto (fun T => √T * badnellFit T aa bb cc t0 t1 t2) (𝓝[>] 0) (𝓝 (aa * √t0)) := by
  have lin : ∀ c : ℝ, Tendsto (fun T : ℝ => 1 + √(T / c)) (𝓝[>] 0) (𝓝 1) := by
    intro c
    have : Continuous (fun T : ℝ => 1 + √(T / c)) := by fun_prop
    have := this.tendsto 0
    simp only [zero_div, Real.sqrt_zero, add_zero] at this
    exact this.mono_left nhdsWithin_le_nhds
  have hE : Tendsto (fun T : ℝ => bb + cc * Real.exp (-t2 / T)) (𝓝[>] 0) (𝓝 bb) := by
    by_cases h : t2 = 0
    · rw [hc h]; simp
    · have h2' : 0 < t2 := lt_of_le_of_ne h2 (Ne.symm h)
      have : Tendsto (fun T : ℝ => -t2 / T) (𝓝[>] 0) atBot := by
        have := (tendsto_inv_nhdsGT_zero (𝕜 := ℝ)).const_mul_atTop_of_neg (show -t2 < 0 by linarith)
        exact this.congr (fun T => by rw [div_eq_mul_inv])
      have := (Real.tendsto_exp_atBot.comp this).const_mul cc |>.const_add bb
      simpa using this
  have hR : Tendsto (fun T : ℝ => ((1 + √(T / t1)) / (1 + √(T / t0))) ^ (bb + cc * Real.exp (-t2 / T))) (𝓝[>] 0) (𝓝 1) := by
    have := ((lin t1).div (lin t0) one_ne_zero).rpow hE (Or.inl (by norm_num))
    simpa using this
  have hD := (((lin t0).mul (lin t1)).mul hR).inv₀ (by norm_num)
  have hM := hD.const_mul (aa * √t0)
  simp only [mul_one, inv_one] at hM
  refine hM.congr' ?_
  filter_upwards [self_mem_nhdsWithin] with T hT
  have hT : 0 < T := hT
  rw [badnellFit_split]
  have a0 := Real.sqrt_pos.2 hT
  have b0 := Real.sqrt_pos.2 h0
  rw [Real.sqrt_div hT.le t0]
  generalize (1 + √T / √t0) * (1 + √(T / t1)) * ((1 + √(T / t1)) / (1 + √T / √t0)) ^ (bb + cc * Real.exp (-t2 / T)) = X
  by_cases hX : X = 0
  · subst hX; simp
  · field_simp

/-- The fits for hot gas: the rate goes as the temperature to the power -3/2. -/
theorem badnellFit_hot {aa bb cc t0 t1 t2 : ℝ} (h0 : 0 < t0) (h1 : 0 < t1) :
    Tendsto (fun T => √T ^ 3 * badnellFit T aa bb cc t0 t1 t2) atTop
      (𝓝 (aa * (t0 * √t1) * ((√t0 / √t1) ^ (bb + cc))⁻¹)) := by
  have b0 := Real.sqrt_pos.2 h0
  have b1 := Real.sqrt_pos.2 h1
  have hx : Tendsto (fun T : ℝ => (√T)⁻¹) atTop (𝓝 0) := tendsto_inv_atTop_zero.comp Real.tendsto_sqrt_atTop
  have lin : ∀ c : ℝ, Tendsto (fun T : ℝ => (√T)⁻¹ + (√c)⁻¹) atTop (𝓝 (√c)⁻¹) := by
    intro c
    have := hx.add_const (√c)⁻¹
    rwa [zero_add] at this
  have hE : Tendsto (fun T : ℝ => bb + cc * Real.exp (-t2 / T)) atTop (𝓝 (bb + cc)) := by
    have : Tendsto (fun T : ℝ => -t2 / T) atTop (𝓝 0) := tendsto_const_nhds.div_atTop tendsto_id
    have := ((Real.continuous_exp.tendsto 0).comp this).const_mul cc |>.const_add bb
    simpa using this
  have hq : Tendsto (fun T : ℝ => ((√T)⁻¹ + (√t1)⁻¹) / ((√T)⁻¹ + (√t0)⁻¹)) atTop (𝓝 (√t0 / √t1)) := by
    have := (lin t1).div (lin t0) (by positivity)
    have e : (√t1)⁻¹ / (√t0)⁻¹ = √t0 / √t1 := by field_simp
    rwa [e] at this
  have hR := hq.rpow hE (Or.inl (by positivity))
  have hp : 0 < (√t0 / √t1) ^ (bb + cc) := Real.rpow_pos_of_pos (by positivity) _
  have hD := (((lin t0).mul (lin t1)).mul hR).inv₀ (by positivity)
  have hM := hD.const_mul (aa * √t0)
  have e : aa * √t0 * ((√t0)⁻¹ * (√t1)⁻¹ * (√t0 / √t1) ^ (bb + cc))⁻¹ =
      aa * (t0 * √t1) * ((√t0 / √t1) ^ (bb + cc))⁻¹ := by
    rw [mul_inv, mul_inv, inv_inv, inv_inv]
    calc aa * √t0 * (√t0 * √t1 * ((√t0 / √t1) ^ (bb + cc))⁻¹)
        = aa * (√t0 * √t0 * √t1) * ((√t0 / √t1) ^ (bb + cc))⁻¹ := by ring
      _ = _ := by rw [Real.mul_self_sqrt h0.le]
  rw [e] at hM
  refine hM.congr' ?_
  filter_upwards [eventually_gt_atTop 0] with T hT
  have a0 := Real.sqrt_pos.2 hT
  rw [badnellFit_split, Real.sqrt_div hT.le t0, Real.sqrt_div hT.le t1]
  have e2 : (1 + √T / √t1) / (1 + √T / √t0) = ((√T)⁻¹ + (√t1)⁻¹) / ((√T)⁻¹ + (√t0)⁻¹) := by field_simp
  rw [e2]
  have hX : 0 < (((√T)⁻¹ + (√t1)⁻¹) / ((√T)⁻¹ + (√t0)⁻¹)) ^ (bb + cc * Real.exp (-t2 / T)) :=
    Real.rpow_pos_of_pos (by positivity) _
  generalize (((√T)⁻¹ + (√t1)⁻¹) / ((√T)⁻¹ + (√t0)⁻¹)) ^ (bb + cc * Real.exp (-t2 / T)) = X at *
  field_simp

/-- A rate that goes as one over the root of the temperature in cold gas and as its power -3/2 in hot gas. -/
structure RadiativeLimits (rate : ℝ → ℝ) : Prop where
  cold : ∃ c, 0 < c ∧ Tendsto (fun T => √T * rate T) (𝓝[>] 0) (𝓝 c)
  hot : ∃ c, 0 < c ∧ Tendsto (fun T => √T ^ 3 * rate T) atTop (𝓝 c)

theorem badnellFit_limits {aa bb cc t0 t1 t2 : ℝ} (ha : 0 < aa) (h0 : 0 < t0) (h1 : 0 < t1) (h2 : 0 ≤ t2)
    (hc : t2 = 0 → cc = 0) : RadiativeLimits (fun T => badnellFit T aa bb cc t0 t1 t2) := by
  have b0 := Real.sqrt_pos.2 h0
  have b1 := Real.sqrt_pos.2 h1
  have hp : 0 < (√t0 / √t1) ^ (bb + cc) := Real.rpow_pos_of_pos (by positivity) _
  exact ⟨⟨aa * √t0, by positivity, badnellFit_cold h0 h1 h2 hc⟩,
    ⟨aa * (t0 * √t1) * ((√t0 / √t1) ^ (bb + cc))⁻¹, by positivity, badnellFit_hot h0 h1⟩⟩

theorem vernerFit_limits {aa bb t0 t1 : ℝ} (ha : 0 < aa) (h0 : 0 < t0) (h1 : 0 < t1) :
    RadiativeLimits (fun T => vernerFit T aa bb t0 t1) := by
  have := badnellFit_limits (bb := bb) (cc := 0) (t2 := 0) ha h0 h1 (le_refl _) (fun _ => rfl)
  simpa only [badnellFit_zero] using this

/-- C112: in the tables of Verner and of Badnell the radiative rates have the limits of recombination onto a bare
charge. -/
theorem radiative_limits {name : String} (hn : name = "V96" ∨ name = "B06") :
    RadiativeLimits (recombOf name).alphaHp ∧ RadiativeLimits (recombOf name).alphaHep ∧
    RadiativeLimits (recombOf name).alphaHepp := by
  have hV : RadiativeLimits vernerHep := by
    obtain ⟨⟨c, hc, h1⟩, -⟩ := vernerFit_limits (aa := 3.294e-11) (bb := 0.6910) (t0 := 1.554e+01) (t1 := 3.676e+07)
      (by norm_num) (by norm_num) (by norm_num)
    obtain ⟨-, ⟨d, hd, h2⟩⟩ := vernerFit_limits (aa := 9.356e-10) (bb := 0.7892) (t0 := 4.266e-02) (t1 := 4.677e+06)
      (by norm_num) (by norm_num) (by norm_num)
    refine ⟨⟨c, hc, h1.congr' ?_⟩, ⟨d, hd, h2.congr' ?_⟩⟩
    · have : Set.Iio (6e5 : ℝ) ∈ 𝓝[>] (0 : ℝ) := mem_nhdsWithin_of_mem_nhds (Iio_mem_nhds (by norm_num))
      filter_upwards [this] with T hT
      rw [vernerHep_cases.1 hT]
    · filter_upwards [eventually_gt_atTop 8e5] with T hT
      rw [vernerHep_cases.2.1 hT]
  unfold recombOf
  rcases hn with rfl | rfl
  · rw [if_pos rfl]
    exact ⟨vernerFit_limits (by norm_num) (by norm_num) (by norm_num), hV,
      vernerFit_limits (by norm_num) (by norm_num) (by norm_num)⟩
  · rw [if_neg (by decide), if_pos rfl]
    exact ⟨vernerFit_limits (by norm_num) (by norm_num) (by norm_num),
      vernerFit_limits (by norm_num) (by norm_num) (by norm_num),
      badnellFit_limits (by norm_num) (by norm_num) (by norm_num) (by norm_num) (by norm_num)⟩

/-! Collisional ionisation. -/

theorem cenGamma_mono {a e : ℝ} (ha : 0 < a) (he : 0 ≤ e) {s t : ℝ} (hs : 0 < s) (hst : s ≤ t) :
    cenGamma a e s ≤ cenGamma a e t := by
  have ht : 0 < t := lt_of_lt_of_le hs hst
  unfold cenGamma
  have hE : Real.exp (-e / s) ≤ Real.exp (-e / t) := by
    apply Real.exp_le_exp.2
    rw [neg_div, neg_div]
    have : e / t ≤ e / s := by gcongr
    linarith
  have hE0 := Real.exp_pos (-e / s)
  have hq : √s / (1 + √(s / 1e5)) ≤ √t / (1 + √(t / 1e5)) := by
    have q : 0 < √(1e5 : ℝ) := Real.sqrt_pos.2 (by norm_num)
    have a0 := Real.sqrt_pos.2 hs
    have m := Real.sqrt_le_sqrt hst
    rw [Real.sqrt_div hs.le, Real.sqrt_div ht.le, div_le_div_iff₀ (by positivity) (by positivity)]
    generalize √s = x at *
    generalize √t = y at *
    have e : x * (1 + y / √(1e5 : ℝ)) - y * (1 + x / √(1e5 : ℝ)) = x - y := by ring
    linarith
  have p0 : 0 < √s / (1 + √(s / 1e5)) := by have := Real.sqrt_pos.2 hs; positivity
  calc a * √s * Real.exp (-e / s) / (1 + √(s / 1e5)) = a * Real.exp (-e / s) * (√s / (1 + √(s / 1e5))) := by ring
    _ ≤ a * Real.exp (-e / t) * (√t / (1 + √(t / 1e5))) := by gcongr
    _ = _ := by ring

/-- In terms of `U`, the energy over the thermal energy, the fit of Voronov falls where `U` is not too small. -/
theorem voronov_anti {PP XX KK U V c : ℝ} (hU : 0 < U) (hUV : U ≤ V) (hX : 0 < XX) (hK : 0 ≤ KK) (hK1 : KK ≤ 1) (hc : 0 ≤ c)
    (hP : 0 ≤ PP) (hP1 : PP ≤ 1) (hcP : PP ≤ 2 * c * √U * (1 + PP * √U))
    (hlin : (KK / U + c) * (XX + U) ≤ 1 + XX + U) (hquad : KK / U * c * (XX + U) ≤ 1) :
    (1 + PP * √V) / (XX + V) * V ^ KK * Real.exp (-V) ≤ (1 + PP * √U) / (XX + U) * U ^ KK * Real.exp (-U) := by
  obtain ⟨d, rfl⟩ : ∃ d, V = U + d := ⟨V - U, by ring⟩
  have hd : 0 ≤ d := by linarith
  have hsU : 0 < √U := Real.sqrt_pos.2 hU
  have hpow : (U + d) ^ KK ≤ (1 + KK / U * d) * U ^ KK := by
    have e : U + d = (1 + d / U) * U := by field_simp
    rw [e, Real.mul_rpow (by positivity) hU.le]
    have := rpow_one_add_le_one_add_mul_self (s := d / U) (by have := div_nonneg hd hU.le; linarith) hK hK1
    have e2 : KK * (d / U) = KK / U * d := by ring
    rw [e2] at this
    have := Real.rpow_nonneg hU.le KK
    gcongr
  have hexp : Real.exp (-(U + d)) * (1 + d) ≤ Real.exp (-U) := by
    have h1 := Real.add_one_le_exp d
    calc Real.exp (-(U + d)) * (1 + d) ≤ Real.exp (-(U + d)) * Real.exp d := by
          have := Real.exp_pos (-(U + d)); gcongr; linarith
      _ = Real.exp (-U) := by rw [← Real.exp_add]; congr 1; ring
  have hsq : 1 + PP * √(U + d) ≤ (1 + PP * √U) * (1 + c * d) := by
    have h1 : √(U + d) ≤ √U + d / (2 * √U) := by
      rw [Real.sqrt_le_left (by positivity)]
      have e : (√U + d / (2 * √U)) ^ 2 = √U ^ 2 + d + (d / (2 * √U)) ^ 2 := by field_simp; ring
      rw [e, Real.sq_sqrt hU.le]
      nlinarith [sq_nonneg (d / (2 * √U))]
    have h2 : PP * (d / (2 * √U)) ≤ (1 + PP * √U) * (c * d) := by
      have e : PP * (d / (2 * √U)) = PP * d / (2 * √U) := by ring
      rw [e, div_le_iff₀ (by positivity)]
      nlinarith
    nlinarith
  have hE : Real.exp (-(U + d)) ≤ Real.exp (-U) / (1 + d) := by
    rw [le_div_iff₀ (by positivity)]; exact hexp
  have hmain : (1 + c * d) / (XX + (U + d)) * (1 + KK / U * d) / (1 + d) ≤ 1 / (XX + U) := by
    rw [div_mul_eq_mul_div, div_div, div_le_div_iff₀ (by positivity) (by positivity), one_mul]
    have := mul_le_mul_of_nonneg_right hlin hd
    have := mul_le_mul_of_nonneg_right hquad (mul_nonneg hd hd)
    nlinarith
  have hW : 0 ≤ U ^ KK := Real.rpow_nonneg hU.le _
  have hKU : 0 ≤ KK / U := by positivity
  have hV : 0 ≤ (U + d) ^ KK := Real.rpow_nonneg (by linarith) _
  calc (1 + PP * √(U + d)) / (XX + (U + d)) * (U + d) ^ KK * Real.exp (-(U + d))
      ≤ ((1 + PP * √U) * (1 + c * d)) / (XX + (U + d)) * ((1 + KK / U * d) * U ^ KK) * (Real.exp (-U) / (1 + d)) := by
        gcongr
    _ = (1 + PP * √U) * U ^ KK * Real.exp (-U) * ((1 + c * d) / (XX + (U + d)) * (1 + KK / U * d) / (1 + d)) := by ring
    _ ≤ (1 + PP * √U) * U ^ KK * Real.exp (-U) * (1 / (XX + U)) := by gcongr
    _ = _ := by ring

theorem voronovFit_mono {dE PP AA XX KK c U0 : ℝ} (hdE : 0 < dE) (hA : 0 < AA) (hX : 0 < XX) (hK : 0 ≤ KK) (hK1 : KK ≤ 1)
    (hc : 0 ≤ c) (hP : 0 ≤ PP) (hP1 : PP ≤ 1) (hU0 : 0 < U0)
    (hdU : U0 * (8.61734e-5 * 1.5e6) ≤ dE) (hcP : PP ≤ 2 * c * √U0 * (1 + PP * √U0))
    (hlin : (KK / U0 + c) * (XX + U0) ≤ 1 + XX + U0) (hc1 : c ≤ 1)
    (hquad : KK / U0 * c * XX + KK * c ≤ 1) {s t : ℝ} (hs : 0 < s) (hst : s ≤ t) (ht : t ≤ 1.5e6) :
    voronovFit dE PP AA XX KK s ≤ voronovFit dE PP AA XX KK t := by
  have ht0 : 0 < t := lt_of_lt_of_le hs hst
  unfold voronovFit
  dsimp only
  have hU : U0 ≤ dE / (8.61734e-5 * t) := by
    rw [le_div_iff₀ (by positivity)]
    calc U0 * (8.61734e-5 * t) ≤ U0 * (8.61734e-5 * 1.5e6) := by gcongr
      _ ≤ dE := hdU
  have hUV : dE / (8.61734e-5 * t) ≤ dE / (8.61734e-5 * s) := by gcongr
  generalize dE / (8.61734e-5 * t) = U at *
  generalize dE / (8.61734e-5 * s) = V at *
  have hUp : 0 < U := by linarith
  have hKU : KK / U ≤ KK / U0 := by gcongr
  have hsq : √U0 ≤ √U := Real.sqrt_le_sqrt hU
  have h0 : 0 < √U0 := Real.sqrt_pos.2 hU0
  have e : KK / U * U = KK := by field_simp
  have := voronov_anti (PP := PP) (XX := XX) (KK := KK) (c := c) hUp hUV hX hK hK1 hc hP hP1
    (hcP.trans (by gcongr)) (by
      have h1 : (KK / U + c) * (XX + U) = KK / U * XX + c * XX + KK / U * U + c * U := by ring
      have h2 : (KK / U0 + c) * (XX + U0) = KK / U0 * XX + c * XX + KK / U0 * U0 + c * U0 := by ring
      have h3 : KK / U0 * U0 = KK := by field_simp
      rw [h1, e]
      rw [h2, h3] at hlin
      have : KK / U * XX ≤ KK / U0 * XX := by gcongr
      nlinarith) (by
      have h1 : KK / U * c * (XX + U) = KK / U * c * XX + KK / U * U * c := by ring
      rw [h1, e]
      have : KK / U * c * XX ≤ KK / U0 * c * XX := by gcongr
      linarith)
  calc AA * (1 + PP * √V) / (XX + V) * V ^ KK * Real.exp (-V)
      = AA * ((1 + PP * √V) / (XX + V) * V ^ KK * Real.exp (-V)) := by ring
    _ ≤ AA * ((1 + PP * √U) / (XX + U) * U ^ KK * Real.exp (-U)) := by gcongr
    _ = _ := by ring

theorem sqrt_04 : (0.6 : ℝ) ≤ √0.4 := Real.le_sqrt_of_sq_le (by norm_num)

/-- C112: hotter electrons ionise more. In the tables of Cen this holds at every temperature, in the others up to
1.5 million degrees. -/
theorem collisions_rise (name : String) {s t : ℝ} (hs : 0 < s) (hst : s ≤ t)
    (h : name = "V96" ∨ name = "B06" → t ≤ 1.5e6) :
    (recombOf name).GammaeH0 s ≤ (recombOf name).GammaeH0 t ∧
    (recombOf name).GammaeHe0 s ≤ (recombOf name).GammaeHe0 t ∧
    (recombOf name).GammaeHep s ≤ (recombOf name).GammaeHep t := by
  have hv : t ≤ 1.5e6 → voronovFit 13.6 0 0.291e-07 0.232 0.39 s ≤ voronovFit 13.6 0 0.291e-07 0.232 0.39 t ∧
      voronovFit 24.6 0 0.175e-07 0.180 0.35 s ≤ voronovFit 24.6 0 0.175e-07 0.180 0.35 t ∧
      voronovFit 54.4 1 0.205e-08 0.265 0.25 s ≤ voronovFit 54.4 1 0.205e-08 0.265 0.25 t := by
    intro ht
    have h4 := sqrt_04
    refine ⟨voronovFit_mono (c := 0) (U0 := 0.105) ?_ ?_ ?_ ?_ ?_ ?_ ?_ ?_ ?_ ?_ ?_ ?_ ?_ ?_ hs hst ht,
      voronovFit_mono (c := 0) (U0 := 0.19) ?_ ?_ ?_ ?_ ?_ ?_ ?_ ?_ ?_ ?_ ?_ ?_ ?_ ?_ hs hst ht,
      voronovFit_mono (c := 0.55) (U0 := 0.4) ?_ ?_ ?_ ?_ ?_ ?_ ?_ ?_ ?_ ?_ ?_ ?_ ?_ ?_ hs hst ht⟩
    all_goals first | (norm_num; done) | nlinarith
  unfold recombOf
  split_ifs with h1 h2
  · exact hv (h (Or.inl h1))
  · exact hv (h (Or.inr h2))
  · exact ⟨cenGamma_mono (by norm_num) (by norm_num) hs hst, cenGamma_mono (by norm_num) (by norm_num) hs hst,
      cenGamma_mono (by norm_num) (by norm_num) hs hst⟩

example : (0 : ℝ) < 1e4 ∧ (1e4 : ℝ) ≤ 1e5 ∧ (1e5 : ℝ) ≤ 1.5e6 := by norm_num

theorem rpow_le_of {x k p : ℝ} (m n : ℕ) (hx : 1 ≤ x) (hk : 0 ≤ k) (hn : n ≠ 0) (hp : p * n ≤ m) (h : x ^ m ≤ k ^ n) :
    x ^ p ≤ k := by
  have h1 : (x ^ p) ^ n ≤ k ^ n := by
    rw [← Real.rpow_natCast, ← Real.rpow_mul (by linarith)]
    calc x ^ (p * n) ≤ x ^ (m : ℝ) := Real.rpow_le_rpow_of_exponent_le hx hp
      _ = x ^ m := Real.rpow_natCast _ _
      _ ≤ k ^ n := h
  exact le_of_pow_le_pow_left₀ hn hk h1

theorem le_rpow_of {x k p : ℝ} (m n : ℕ) (hx : 1 ≤ x) (hn : n ≠ 0) (hp : (m : ℝ) ≤ p * n) (h : k ^ n ≤ x ^ m) :
    k ≤ x ^ p := by
  have h1 : k ^ n ≤ (x ^ p) ^ n := by
    rw [← Real.rpow_natCast (x ^ p), ← Real.rpow_mul (by linarith)]
    calc k ^ n ≤ x ^ m := h
      _ = x ^ (m : ℝ) := (Real.rpow_natCast _ _).symm
      _ ≤ x ^ (p * n) := Real.rpow_le_rpow_of_exponent_le hx hp
  exact le_of_pow_le_pow_left₀ hn (Real.rpow_nonneg (by linarith) _) h1

/-- Lowering the exponent of a number that is not too small. -/
theorem rpow_shift {U U0 p q k : ℝ} (h0 : 0 < U0) (hU : U0 ≤ U) (hpq : p ≤ q) (hk : (1 / U0) ^ (q - p) ≤ k) :
    U ^ p ≤ k * U ^ q := by
  have hUp : 0 < U := by linarith
  have e : U ^ p = U ^ (p - q) * U ^ q := by rw [← Real.rpow_add hUp]; congr 1; ring
  rw [e]
  have h1 : U ^ (p - q) ≤ U0 ^ (p - q) := Real.rpow_le_rpow_of_nonpos h0 hU (by linarith)
  have h2 : U0 ^ (p - q) = (1 / U0) ^ (q - p) := by
    rw [one_div, Real.inv_rpow h0.le, ← Real.rpow_neg h0.le]; congr 1; ring
  have := Real.rpow_nonneg hUp.le q
  rw [h2] at h1
  gcongr
  exact h1.trans hk

theorem cenGamma_lt {a a' e e' temp : ℝ} (ht : 0 < temp) (ha : 0 < a) (haa : a < a') (he : e' ≤ e) :
    cenGamma a e temp < cenGamma a' e' temp := by
  unfold cenGamma
  have s0 := Real.sqrt_pos.2 ht
  have hE : Real.exp (-e / temp) ≤ Real.exp (-e' / temp) := by
    apply Real.exp_le_exp.2
    gcongr
  have hp := Real.exp_pos (-e / temp)
  generalize Real.exp (-e / temp) = E at *
  generalize Real.exp (-e' / temp) = E' at *
  have hp' : 0 < E' := by linarith
  have h1 : a * √temp * E ≤ a * √temp * E' := by gcongr
  have h2 : a * √temp * E' < a' * √temp * E' := by gcongr
  have h3 := h1.trans_lt h2
  gcongr

theorem voronov_order {t : ℝ} (ht0 : 0 < t) (ht : t ≤ 1.5e6) :
    voronovFit 24.6 0 0.175e-07 0.180 0.35 t < voronovFit 13.6 0 0.291e-07 0.232 0.39 t ∧
    voronovFit 54.4 1 0.205e-08 0.265 0.25 t < voronovFit 24.6 0 0.175e-07 0.180 0.35 t := by
  obtain ⟨x, hx⟩ : ∃ x, x = 1 / (8.61734e-5 * t) := ⟨_, rfl⟩
  have hx0 : 0 < x := by rw [hx]; positivity
  have hxl : 0.0077 ≤ x := by
    rw [hx, le_div_iff₀ (by positivity)]
    have : 8.61734e-5 * t ≤ 8.61734e-5 * 1.5e6 := by gcongr
    calc (0.0077 : ℝ) * (8.61734e-5 * t) ≤ 0.0077 * (8.61734e-5 * 1.5e6) := by gcongr
      _ ≤ 1 := by norm_num
  have u : ∀ dE : ℝ, dE / (8.61734e-5 * t) = dE * x := by intro dE; rw [hx]; ring
  unfold voronovFit
  dsimp only
  rw [u, u, u]
  have pw1 : (13.6 * x) ^ (0.35 : ℝ) ≤ 1.1 * (13.6 * x) ^ (0.39 : ℝ) :=
    rpow_shift (U0 := 0.104) (by norm_num) (by linarith) (by norm_num)
      (rpow_le_of 1 25 (by norm_num) (by norm_num) (by norm_num) (by norm_num) (by norm_num))
  have pw2 : (24.6 * x) ^ (0.25 : ℝ) ≤ 1.2 * (24.6 * x) ^ (0.35 : ℝ) :=
    rpow_shift (U0 := 0.189) (by norm_num) (by linarith) (by norm_num)
      (rpow_le_of 1 10 (by norm_num) (by norm_num) (by norm_num) (by norm_num) (by norm_num))
  have r1 : (24.6 * x) ^ (0.35 : ℝ) ≤ 1.35 * (13.6 * x) ^ (0.35 : ℝ) := by
    have e : 24.6 * x = 24.6 / 13.6 * (13.6 * x) := by ring
    rw [e, Real.mul_rpow (by norm_num) (by positivity)]
    have : (24.6 / 13.6 : ℝ) ^ (0.35 : ℝ) ≤ 1.35 :=
      rpow_le_of 1 2 (by norm_num) (by norm_num) (by norm_num) (by norm_num) (by norm_num)
    gcongr
  have r2 : (54.4 * x) ^ (0.25 : ℝ) ≤ 1.5 * (24.6 * x) ^ (0.25 : ℝ) := by
    have e : 54.4 * x = 54.4 / 24.6 * (24.6 * x) := by ring
    rw [e, Real.mul_rpow (by norm_num) (by positivity)]
    have : (54.4 / 24.6 : ℝ) ^ (0.25 : ℝ) ≤ 1.5 :=
      rpow_le_of 1 2 (by norm_num) (by norm_num) (by norm_num) (by norm_num) (by norm_num)
    gcongr
  have q1 : 0 < (13.6 * x) ^ (0.39 : ℝ) := Real.rpow_pos_of_pos (by positivity) _
  have q2 : 0 < (24.6 * x) ^ (0.35 : ℝ) := Real.rpow_pos_of_pos (by positivity) _
  have q3 : 0 < (54.4 * x) ^ (0.25 : ℝ) := Real.rpow_pos_of_pos (by positivity) _
  constructor
  · have hE : Real.exp (-(24.6 * x)) ≤ Real.exp (-(13.6 * x)) := Real.exp_le_exp.2 (by linarith)
    have hp : (24.6 * x) ^ (0.35 : ℝ) ≤ 1.485 * (13.6 * x) ^ (0.39 : ℝ) := by linarith
    have hfrac : 0.175e-07 * 1.485 / (0.180 + 24.6 * x) < 0.291e-07 / (0.232 + 13.6 * x) := by
      rw [div_lt_div_iff₀ (by positivity) (by positivity)]
      norm_num
      linarith
    have hE0 := Real.exp_pos (-(13.6 * x))
    simp only [zero_mul, add_zero, mul_one]
    calc 0.175e-07 / (0.180 + 24.6 * x) * (24.6 * x) ^ (0.35 : ℝ) * Real.exp (-(24.6 * x))
        ≤ 0.175e-07 / (0.180 + 24.6 * x) * (1.485 * (13.6 * x) ^ (0.39 : ℝ)) * Real.exp (-(13.6 * x)) := by gcongr
      _ = 0.175e-07 * 1.485 / (0.180 + 24.6 * x) * (13.6 * x) ^ (0.39 : ℝ) * Real.exp (-(13.6 * x)) := by ring
      _ < 0.291e-07 / (0.232 + 13.6 * x) * (13.6 * x) ^ (0.39 : ℝ) * Real.exp (-(13.6 * x)) := by gcongr
  · have hE : Real.exp (-(54.4 * x)) ≤ Real.exp (-(24.6 * x)) / (1 + 29.8 * x) := by
      rw [le_div_iff₀ (by positivity)]
      have h1 := Real.add_one_le_exp (29.8 * x)
      have h2 := Real.exp_pos (-(54.4 * x))
      calc Real.exp (-(54.4 * x)) * (1 + 29.8 * x) ≤ Real.exp (-(54.4 * x)) * Real.exp (29.8 * x) := by
            gcongr; linarith
        _ = Real.exp (-(24.6 * x)) := by rw [← Real.exp_add]; congr 1; ring
    have hp : (54.4 * x) ^ (0.25 : ℝ) ≤ 1.8 * (24.6 * x) ^ (0.35 : ℝ) := by linarith
    have hs : 1 + √(54.4 * x) ≤ 1.4 * (1 + 29.8 * x) := by
      have h1 := Real.sq_sqrt (show 0 ≤ 54.4 * x by positivity)
      have h2 := Real.sqrt_nonneg (54.4 * x)
      generalize √(54.4 * x) = y at *
      nlinarith [sq_nonneg (y - 0.65)]
    have hfrac : 0.205e-08 * 1.8 * 1.4 / (0.265 + 54.4 * x) < 0.175e-07 / (0.180 + 24.6 * x) := by
      rw [div_lt_div_iff₀ (by positivity) (by positivity)]
      norm_num
      linarith
    have hE0 := Real.exp_pos (-(24.6 * x))
    simp only [zero_mul, add_zero, mul_one, one_mul]
    calc 0.205e-08 * (1 + √(54.4 * x)) / (0.265 + 54.4 * x) * (54.4 * x) ^ (0.25 : ℝ) * Real.exp (-(54.4 * x))
        ≤ 0.205e-08 * (1.4 * (1 + 29.8 * x)) / (0.265 + 54.4 * x) * (1.8 * (24.6 * x) ^ (0.35 : ℝ))
            * (Real.exp (-(24.6 * x)) / (1 + 29.8 * x)) := by gcongr
      _ = 0.205e-08 * 1.8 * 1.4 / (0.265 + 54.4 * x) * (24.6 * x) ^ (0.35 : ℝ) * Real.exp (-(24.6 * x)) := by
          field_simp
      _ < 0.175e-07 / (0.180 + 24.6 * x) * (24.6 * x) ^ (0.35 : ℝ) * Real.exp (-(24.6 * x)) := by gcongr

/-- C112: what is bound more tightly is ionised more slowly: He+ more slowly than He, He more slowly than H. -/
theorem collisions_order (name : String) {t : ℝ} (ht : 0 < t) (h : name = "V96" ∨ name = "B06" → t ≤ 1.5e6) :
    (recombOf name).GammaeHep t < (recombOf name).GammaeHe0 t ∧
    (recombOf name).GammaeHe0 t < (recombOf name).GammaeH0 t := by
  unfold recombOf
  split_ifs with h1 h2
  · exact ⟨(voronov_order ht (h (Or.inl h1))).2, (voronov_order ht (h (Or.inl h1))).1⟩
  · exact ⟨(voronov_order ht (h (Or.inr h2))).2, (voronov_order ht (h (Or.inr h2))).1⟩
  · exact ⟨cenGamma_lt ht (by norm_num) (by norm_num) (by norm_num),
      cenGamma_lt ht (by norm_num) (by norm_num) (by norm_num)⟩

/-! The two ions of helium. -/

theorem vernerFit_lt {temp a b t0 t1 a' b' t0' t1' k M : ℝ} (ht : 0 < temp) (ha : 0 < a) (hk : 0 < k) (hb : 0 ≤ b)
    (hbb : b ≤ b') (hb1 : b' ≤ 1) (h0' : 0 < t0') (h0 : t0' ≤ t0)
    (hM : (1 + √(temp / t1')) ^ (2 : ℕ) ≤ M) (h : k * a * (t0 / t0') * M < a') :
    k * vernerFit temp a b t0 t1 < vernerFit temp a' b' t0' t1' := by
  have h0p : 0 < t0 := lt_of_lt_of_le h0' h0
  unfold vernerFit
  dsimp only
  have s0 : 0 < √(temp / t0) := Real.sqrt_pos.2 (by positivity)
  have s0' : 0 < √(temp / t0') := Real.sqrt_pos.2 (by positivity)
  have s1 : 0 ≤ √(temp / t1) := Real.sqrt_nonneg _
  have s1' : 0 ≤ √(temp / t1') := Real.sqrt_nonneg _
  obtain ⟨ρ, hρ⟩ : ∃ ρ, ρ = √(t0 / t0') := ⟨_, rfl⟩
  have hρ1 : 1 ≤ ρ := by rw [hρ]; exact Real.one_le_sqrt.2 ((one_le_div h0').2 h0)
  have hρ2 : ρ * ρ = t0 / t0' := by rw [hρ]; exact Real.mul_self_sqrt (by positivity)
  have es : √(temp / t0') = ρ * √(temp / t0) := by
    rw [hρ, ← Real.sqrt_mul (by positivity)]; congr 1; field_simp
  have p0 : (1 + √(temp / t0')) ^ (1 - b') ≤ ρ * (1 + √(temp / t0)) ^ (1 - b) := by
    calc (1 + √(temp / t0')) ^ (1 - b') ≤ (ρ * (1 + √(temp / t0))) ^ (1 - b') := by
          apply Real.rpow_le_rpow (by positivity) _ (by linarith)
          rw [es]; nlinarith
      _ = ρ ^ (1 - b') * (1 + √(temp / t0)) ^ (1 - b') := Real.mul_rpow (by linarith) (by positivity)
      _ ≤ ρ ^ (1 : ℝ) * (1 + √(temp / t0)) ^ (1 - b) := by
          have := Real.rpow_le_rpow_of_exponent_le hρ1 (show 1 - b' ≤ 1 by linarith)
          have := Real.rpow_le_rpow_of_exponent_le (show 1 ≤ 1 + √(temp / t0) by linarith) (show 1 - b' ≤ 1 - b by linarith)
          have := Real.rpow_pos_of_pos (show 0 < 1 + √(temp / t0) by linarith) (1 - b')
          have := Real.rpow_pos_of_pos (show 0 < ρ by linarith) (1 - b')
          have := Real.rpow_pos_of_pos (show 0 < ρ by linarith) 1
          gcongr
      _ = _ := by rw [Real.rpow_one]
  have p1 : (1 + √(temp / t1')) ^ (1 + b') ≤ M := by
    refine le_trans ?_ hM
    rw [← Real.rpow_natCast]
    exact Real.rpow_le_rpow_of_exponent_le (by linarith) (by push_cast; linarith)
  have p2 : 1 ≤ (1 + √(temp / t1)) ^ (1 + b) := Real.one_le_rpow (by linarith) (by linarith)
  have q0 : 0 < (1 + √(temp / t0)) ^ (1 - b) := Real.rpow_pos_of_pos (by linarith) _
  have q0' : 0 < (1 + √(temp / t0')) ^ (1 - b') := Real.rpow_pos_of_pos (by linarith) _
  have q1' : 0 < (1 + √(temp / t1')) ^ (1 + b') := Real.rpow_pos_of_pos (by linarith) _
  have hMp : 0 < M := lt_of_lt_of_le q1' p1
  rw [es] at *
  generalize (1 + √(temp / t1)) ^ (1 + b) = C at *
  generalize (1 + ρ * √(temp / t0)) ^ (1 - b') = A' at *
  generalize (1 + √(temp / t0)) ^ (1 - b) = A at *
  generalize (1 + √(temp / t1')) ^ (1 + b') = C' at *
  generalize √(temp / t0) = x at *
  have hC : 0 < C := by linarith
  rw [← mul_div_assoc, div_lt_div_iff₀ (by positivity) (by positivity)]
  have hρp : 0 < ρ := by linarith
  calc k * a * (ρ * x * A' * C') ≤ k * a * (ρ * x * (ρ * A) * M) := by gcongr
    _ = k * a * (ρ * ρ) * M * (x * A * 1) := by ring
    _ = k * a * (t0 / t0') * M * (x * A * 1) := by rw [hρ2]
    _ < a' * (x * A * 1) := by gcongr
    _ ≤ a' * (x * A * C) := by
        have : 0 < a' := by have : 0 < k * a * (t0 / t0') * M := by positivity
                            linarith
        gcongr

theorem sqrt_bound {temp t1 y : ℝ} (ht : temp ≤ 6e5) (h1 : 0 < t1) (hy : 0 ≤ y) (h : 6e5 ≤ y ^ 2 * t1) : √(temp / t1) ≤ y := by
  rw [Real.sqrt_le_left hy, div_le_iff₀ h1]
  linarith

/-- C112: a doubly ionised helium ion recombines faster than a singly ionised one, up to 6e5 K, in the tables of Cen
and in the default ones. -/
theorem helium_order_partial (name : String) (hn : name ≠ "B06") {t : ℝ} (ht : 0 < t) (ht6 : t < 6e5) :
    (recombOf name).alphaHep t < (recombOf name).alphaHepp t := by
  unfold recombOf
  split_ifs with h1
  · change vernerHep t < vernerFit t 1.891e-10 0.7524 9.370 2.774e6
    rw [vernerHep_cases.1 ht6]
    have hb := sqrt_bound (t1 := 2.774e6) (y := 0.466) ht6.le (by norm_num) (by norm_num) (by norm_num)
    have hn := Real.sqrt_nonneg (t / 2.774e6)
    have := vernerFit_lt (temp := t) (a := 3.294e-11) (b := 0.6910) (t0 := 1.554e+01) (t1 := 3.676e+07) (a' := 1.891e-10)
      (b' := 0.7524) (t0' := 9.370) (t1' := 2.774e6) (k := 1) (M := 2.2) ht (by norm_num) (by norm_num) (by norm_num)
      (by norm_num) (by norm_num) (by norm_num) (by norm_num) (by nlinarith) (by norm_num)
    linarith
  · change 1.5e-10 / t ^ (0.6353 : ℝ) < 4 * (8.4e-11 / √t / (t / 1000) ^ (0.2 : ℝ) / (1 + (t / 1e6) ^ (0.7 : ℝ)))
    have hA : (t / 1e6) ^ (0.7 : ℝ) ≤ 1 :=
      Real.rpow_le_one (by positivity) (by rw [div_le_one (by norm_num)]; norm_num at ht6 ⊢; linarith) (by norm_num)
    have hA0 : 0 < (t / 1e6) ^ (0.7 : ℝ) := Real.rpow_pos_of_pos (by positivity) _
    have hB : (3.9 : ℝ) ≤ (1000 : ℝ) ^ (0.2 : ℝ) :=
      le_rpow_of 1 5 (by norm_num) (by norm_num) (by norm_num) (by norm_num)
    have hC : t ^ (0.0647 : ℝ) ≤ 2.6 := by
      calc t ^ (0.0647 : ℝ) ≤ (1e6 : ℝ) ^ (0.0647 : ℝ) :=
            Real.rpow_le_rpow ht.le (by norm_num at ht6 ⊢; linarith) (by norm_num)
        _ ≤ 2.6 := rpow_le_of 1 15 (by norm_num) (by norm_num) (by norm_num) (by norm_num) (by norm_num)
    have hC0 : 0 < t ^ (0.0647 : ℝ) := Real.rpow_pos_of_pos ht _
    have hD0 : 0 < t ^ (0.6353 : ℝ) := Real.rpow_pos_of_pos ht _
    have e1 : √t * (t / 1000) ^ (0.2 : ℝ) = t ^ (0.6353 : ℝ) * t ^ (0.0647 : ℝ) / (1000 : ℝ) ^ (0.2 : ℝ) := by
      rw [Real.sqrt_eq_rpow, Real.div_rpow ht.le (by norm_num), ← mul_div_assoc, ← Real.rpow_add ht, ← Real.rpow_add ht]
      norm_num
    rw [div_div, div_div, ← mul_assoc (√t), e1]
    generalize t ^ (0.6353 : ℝ) = D at *
    generalize t ^ (0.0647 : ℝ) = C at *
    generalize (1000 : ℝ) ^ (0.2 : ℝ) = B at *
    generalize (t / 1e6) ^ (0.7 : ℝ) = A at *
    have hB0 : 0 < B := by linarith
    rw [← mul_div_assoc, div_lt_div_iff₀ hD0 (by positivity)]
    have hlt : 1.5e-10 * (C / B) * (1 + A) < 4 * 8.4e-11 := by
      have hCB : C / B ≤ 2.6 / 3.9 := by gcongr
      calc 1.5e-10 * (C / B) * (1 + A) ≤ 1.5e-10 * (2.6 / 3.9) * (1 + 1) := by gcongr
        _ < 4 * 8.4e-11 := by norm_num
    calc 1.5e-10 * (D * C / B * (1 + A)) = D * (1.5e-10 * (C / B) * (1 + A)) := by ring
      _ < D * (4 * 8.4e-11) := by gcongr
      _ = _ := by ring

/-- The fit of Badnell against one of Verner's form, at up to 6e5 K. -/
theorem badnellFit_lt {temp a b c t0 t1 t2 a' b' t0' t1' k M N : ℝ} (ht : 0 < temp) (ha : 0 < a) (hk : 0 < k) (hb : 0 ≤ b)
    (hc : 0 ≤ c) (hbc : b + c ≤ 1) (hb1 : b' ≤ 1) (h0 : 0 < t0) (h0' : t0 ≤ t0')
    (h2 : 0 ≤ t2) (hM : (1 + √(temp / t1')) ^ (2 : ℕ) ≤ M) (hb0 : 0 ≤ b') (hbN : b' ≤ b + c)
    (hN : (1 + √(temp / t0')) ^ (b + c - b') ≤ N) (h : k * a * N * M < a') :
    k * badnellFit temp a b c t0 t1 t2 < vernerFit temp a' b' t0' t1' := by
  have h0p : 0 < t0' := lt_of_lt_of_le h0 h0'
  unfold badnellFit vernerFit
  dsimp only
  have hE : Real.exp (-t2 / temp) ≤ 1 :=
    Real.exp_le_one_iff.2 (by rw [neg_div]; have := div_nonneg h2 ht.le; linarith)
  have hE0 := Real.exp_pos (-t2 / temp)
  have hB1 : b + c * Real.exp (-t2 / temp) ≤ b + c := by nlinarith
  have hB0 : 0 ≤ b + c * Real.exp (-t2 / temp) := by positivity
  generalize b + c * Real.exp (-t2 / temp) = B at *
  have s0 : 0 < √(temp / t0) := Real.sqrt_pos.2 (by positivity)
  have s0' : 0 < √(temp / t0') := Real.sqrt_pos.2 (by positivity)
  have s1 : 0 ≤ √(temp / t1) := Real.sqrt_nonneg _
  have s1' : 0 ≤ √(temp / t1') := Real.sqrt_nonneg _
  have m0 : √(temp / t0') ≤ √(temp / t0) := Real.sqrt_le_sqrt (by gcongr)
  have p0 : (1 + √(temp / t0')) ^ (1 - b') ≤ (1 + √(temp / t0)) ^ (1 - B) * N := by
    have e : 1 - b' = (1 - (b + c)) + (b + c - b') := by ring
    rw [e, Real.rpow_add (by linarith)]
    have f1 : (1 + √(temp / t0')) ^ (1 - (b + c)) ≤ (1 + √(temp / t0)) ^ (1 - B) :=
      (Real.rpow_le_rpow (by linarith) (by linarith) (by linarith)).trans
        (Real.rpow_le_rpow_of_exponent_le (by linarith) (by linarith))
    have f2 : 0 < (1 + √(temp / t0')) ^ (b + c - b') := Real.rpow_pos_of_pos (by linarith) _
    have f3 : 0 < (1 + √(temp / t0)) ^ (1 - B) := Real.rpow_pos_of_pos (by linarith) _
    gcongr
  have p1 : (1 + √(temp / t1')) ^ (1 + b') ≤ M := by
    refine le_trans ?_ hM
    rw [← Real.rpow_natCast]
    exact Real.rpow_le_rpow_of_exponent_le (by linarith) (by push_cast; linarith)
  have p2 : 1 ≤ (1 + √(temp / t1)) ^ (1 + B) := Real.one_le_rpow (by linarith) (by linarith)
  have q0 : 0 < (1 + √(temp / t0)) ^ (1 - B) := Real.rpow_pos_of_pos (by linarith) _
  have q0' : 0 < (1 + √(temp / t0')) ^ (1 - b') := Real.rpow_pos_of_pos (by linarith) _
  have q1' : 0 < (1 + √(temp / t1')) ^ (1 + b') := Real.rpow_pos_of_pos (by linarith) _
  have hMp : 0 < M := lt_of_lt_of_le q1' p1
  have hNp : 0 < N := lt_of_lt_of_le (Real.rpow_pos_of_pos (by linarith) _) hN
  clear hN hM
  generalize (1 + √(temp / t1)) ^ (1 + B) = C at *
  generalize (1 + √(temp / t0')) ^ (1 - b') = A' at *
  generalize (1 + √(temp / t0)) ^ (1 - B) = A at *
  generalize (1 + √(temp / t1')) ^ (1 + b') = C' at *
  generalize √(temp / t0) = x at *
  generalize √(temp / t0') = x' at *
  have hC : 0 < C := by linarith
  rw [← mul_div_assoc, div_lt_div_iff₀ (by positivity) (by positivity)]
  calc k * a * (x' * A' * C') ≤ k * a * (x * (A * N) * M) := by gcongr
    _ = k * a * N * M * (x * A * 1) := by ring
    _ < a' * (x * A * 1) := by gcongr
    _ ≤ a' * (x * A * C) := by
        have : 0 < a' := by have : 0 < k * a * N * M := by positivity
                            linarith
        gcongr

theorem badnell_N {temp t0 p : ℝ} (ht : temp ≤ 6e5) (h0 : 9 ≤ t0) (hp : 0 ≤ p) (hp30 : p * 30 ≤ 1) :
    (1 + √(temp / t0)) ^ p ≤ 1.21 := by
  have hb : √(temp / t0) ≤ 259 := sqrt_bound ht (by linarith) (by norm_num) (by norm_num; linarith)
  have hn := Real.sqrt_nonneg (temp / t0)
  calc (1 + √(temp / t0)) ^ p ≤ (260 : ℝ) ^ p := Real.rpow_le_rpow (by linarith) (by linarith) hp
    _ ≤ 1.21 := rpow_le_of 1 30 (by norm_num) (by norm_num) (by norm_num) (by push_cast; linarith) (by norm_num)

/-- C112 (finding): in the tables of Badnell the two ions are exchanged, so that up to 6e5 K the singly ionised one
recombines faster. -/
theorem badnell_exchanged {t : ℝ} (ht : 0 < t) (ht6 : t ≤ 6e5) :
    (recombOf "B06").alphaHepp t < (recombOf "B06").alphaHep t := by
  unfold recombOf
  rw [if_neg (by decide), if_pos rfl]
  change badnellFit t 5.235E-11 0.6988 0.0829 7.301 4.475e6 1.682e5 < vernerFit t 1.818E-10 0.7492 10.17 2.786e6
  have hb := sqrt_bound (t1 := 2.786e6) (y := 0.466) ht6 (by norm_num) (by norm_num) (by norm_num)
  have hn := Real.sqrt_nonneg (t / 2.786e6)
  have := badnellFit_lt (temp := t) (a := 5.235E-11) (b := 0.6988) (c := 0.0829) (t0 := 7.301) (t1 := 4.475e6)
    (t2 := 1.682e5) (a' := 1.818E-10) (b' := 0.7492) (t0' := 10.17) (t1' := 2.786e6) (k := 1) (M := 2.2) (N := 1.21) ht
    (by norm_num) (by norm_num) (by norm_num) (by norm_num) (by norm_num) (by norm_num) (by norm_num) (by norm_num)
    (by norm_num) (by nlinarith) (by norm_num) (by norm_num)
    (badnell_N ht6 (by norm_num) (by norm_num) (by norm_num)) (by norm_num)
  linarith

/-- C112 (finding): the tables of Badnell, described as very similar to those of Verner, give at every temperature below
6e5 K a rate for He++ that is less than three quarters, and one for He+ that is more than one and a half times, as
large. -/
theorem badnell_not_similar {t : ℝ} (ht : 0 < t) (ht6 : t < 6e5) :
    (recombOf "B06").alphaHepp t < 3 / 4 * (recombOf "V96").alphaHepp t ∧
    3 / 2 * (recombOf "V96").alphaHep t < (recombOf "B06").alphaHep t := by
  unfold recombOf
  rw [if_neg (by decide), if_pos rfl, if_pos rfl]
  constructor
  · change badnellFit t 5.235E-11 0.6988 0.0829 7.301 4.475e6 1.682e5 < 3 / 4 * vernerFit t 1.891e-10 0.7524 9.370 2.774e6
    have hb := sqrt_bound (t1 := 2.774e6) (y := 0.4651) ht6.le (by norm_num) (by norm_num) (by norm_num)
    have hn := Real.sqrt_nonneg (t / 2.774e6)
    have := badnellFit_lt (temp := t) (a := 5.235E-11) (b := 0.6988) (c := 0.0829) (t0 := 7.301) (t1 := 4.475e6)
      (t2 := 1.682e5) (a' := 1.891e-10) (b' := 0.7524) (t0' := 9.370) (t1' := 2.774e6) (k := 4 / 3) (M := 2.15) (N := 1.21) ht
      (by norm_num) (by norm_num) (by norm_num) (by norm_num) (by norm_num) (by norm_num) (by norm_num) (by norm_num)
      (by norm_num) (by nlinarith) (by norm_num) (by norm_num)
      (badnell_N ht6.le (by norm_num) (by norm_num) (by norm_num)) (by norm_num)
    linarith
  · change 3 / 2 * vernerHep t < vernerFit t 1.818E-10 0.7492 10.17 2.786e6
    rw [vernerHep_cases.1 ht6]
    have hb := sqrt_bound (t1 := 2.786e6) (y := 0.4641) ht6.le (by norm_num) (by norm_num) (by norm_num)
    have hn := Real.sqrt_nonneg (t / 2.786e6)
    exact vernerFit_lt (temp := t) (a := 3.294e-11) (b := 0.6910) (t0 := 1.554e+01) (t1 := 3.676e+07) (a' := 1.818E-10)
      (b' := 0.7492) (t0' := 10.17) (t1' := 2.786e6) (k := 3 / 2) (M := 2.15) ht (by norm_num) (by norm_num) (by norm_num)
      (by norm_num) (by norm_num) (by norm_num) (by norm_num) (by nlinarith) (by norm_num)

example : (0 : ℝ) < 1e4 ∧ (1e4 : ℝ) < 6e5 := by norm_num

/-! The theorems at work between ten and a hundred thousand degrees. -/

example := alphaHepp_antitone "C92" (s := 1e4) (t := 1e5) (by norm_num) (by norm_num)

example := alphaHep_antitone_partial "V96" (s := 1e4) (t := 1e5) (by norm_num) (by norm_num) (by norm_num)

example := radiative_limits (name := "B06") (Or.inr rfl)

example := collisions_order "V96" (t := 1e5) (by norm_num) (by norm_num)

example := helium_order_partial "V96" (by decide) (t := 1e5) (by norm_num) (by norm_num)

example := badnell_exchanged (t := 1e5) (by norm_num) (by norm_num)

end Verif.Props.RateOrder
