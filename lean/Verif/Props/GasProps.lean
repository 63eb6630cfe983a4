import Verif.Model.GasProps
import Verif.Props.Interp
import Verif.Props.Units

/-!
C36: the neutral fraction of self-shielded gas. C62: the density threshold of star formation.
-/

namespace Verif.Props
open Verif Verif.Gas Verif.Units

/-- Hydrogen at density `n` of which a fraction `x` is neutral is in balance: recombinations of protons with as many
electrons, against photoionisations and collisions of electrons with atoms. -/
def HBalance (alpha lam gph n x : ℝ) : Prop :=
  alpha * (n * (1 - x)) * (n * (1 - x)) = gph * (n * x) + lam * (n * x) * (n * (1 - x))

theorem hbalance_iff {alpha lam gph n x : ℝ} (hn : 0 < n) :
    HBalance alpha lam gph n x ↔ (alpha + lam) * x ^ 2 - (2 * alpha + gph / n + lam) * x + alpha = 0 := by
  unfold HBalance
  constructor
  · intro h
    have : n ^ 2 * ((alpha + lam) * x ^ 2 - (2 * alpha + gph / n + lam) * x + alpha) = 0 := by
      field_simp
      linear_combination h
    rcases mul_eq_zero.1 this with h | h
    · exact absurd h (by positivity)
    · exact h
  · intro h
    have : n ^ 2 * ((alpha + lam) * x ^ 2 - (2 * alpha + gph / n + lam) * x + alpha) = 0 := by rw [h, mul_zero]
    field_simp at this
    linear_combination this

theorem root_spec {a l g : ℝ} (ha : 0 < a) (hl : 0 ≤ l) (hg : 0 < g) :
    let x := (2 * a + g + l - √((2 * a + g + l) ^ 2 - 4 * (a + l) * a)) / (2 * (a + l))
    0 < x ∧ x < 1 ∧ (a + l) * x ^ 2 - (2 * a + g + l) * x + a = 0 := by
  intro x
  have hA : 0 < a + l := by linarith
  have hD : (2 * a + g + l) ^ 2 - 4 * (a + l) * a = (g + l) ^ 2 + 4 * a * g := by ring
  have hD0 : 0 ≤ (2 * a + g + l) ^ 2 - 4 * (a + l) * a := by rw [hD]; positivity
  have hs := Real.sq_sqrt hD0
  have hs0 := Real.sqrt_nonneg ((2 * a + g + l) ^ 2 - 4 * (a + l) * a)
  set s := √((2 * a + g + l) ^ 2 - 4 * (a + l) * a) with hsdef
  have hx : (a + l) * x = (2 * a + g + l - s) / 2 := by
    show (a + l) * ((2 * a + g + l - s) / (2 * (a + l))) = _
    field_simp
  have h1 : s < 2 * a + g + l := by
    apply lt_of_pow_lt_pow_left₀ 2 (by linarith)
    rw [hs]
    nlinarith
  have h2 : g - l < s := by
    by_contra hc
    have : s ≤ g - l := not_lt.1 hc
    have : s ^ 2 ≤ (g - l) ^ 2 := pow_le_pow_left₀ hs0 this 2
    rw [hs, hD] at this
    nlinarith [mul_pos ha hg, mul_nonneg hg.le hl]
  refine ⟨?_, ?_, ?_⟩
  · exact div_pos (by linarith) (by linarith)
  · show (2 * a + g + l - s) / (2 * (a + l)) < 1
    rw [div_lt_one (by linarith)]
    linarith
  · have : (a + l) * ((a + l) * x ^ 2 - (2 * a + g + l) * x + a) = 0 := by
      have : (a + l) * ((a + l) * x ^ 2 - (2 * a + g + l) * x + a) =
        ((a + l) * x) ^ 2 - (2 * a + g + l) * ((a + l) * x) + a * (a + l) := by ring
      rw [this, hx]
      linear_combination hs / 4
    rcases mul_eq_zero.1 this with h | h
    · linarith
    · exact h

theorem root_unique {a l g x y : ℝ} (ha : 0 < a) (hl : 0 ≤ l) (hg : 0 < g) (hx1 : x ≤ 1) (hy1 : y ≤ 1)
    (hx : (a + l) * x ^ 2 - (2 * a + g + l) * x + a = 0) (hy : (a + l) * y ^ 2 - (2 * a + g + l) * y + a = 0) : x = y := by
  by_contra hne
  have h1 : (a + l) * (x + y) = 2 * a + g + l := by
    have : (x - y) * ((a + l) * (x + y) - (2 * a + g + l)) = 0 := by linear_combination hx - hy
    rcases mul_eq_zero.1 this with h | h
    · exact absurd (sub_eq_zero.1 h) hne
    · linarith
  have h2 : (a + l) * (x * y) = a := by linear_combination x * h1 - hx
  have h3 : (a + l) * ((1 - x) * (1 - y)) = -g := by linear_combination -h1 + h2
  have : 0 ≤ (a + l) * ((1 - x) * (1 - y)) := by
    have : 0 ≤ 1 - x := by linarith
    have : 0 ≤ 1 - y := by linarith
    have : 0 < a + l := by linarith
    positivity
  linarith

/-- Fewer recombinations and more ionisations leave less neutral gas. -/
theorem root_anti {a a' l l' g g' x x' : ℝ} (ha' : 0 < a') (haa : a' ≤ a) (hl : 0 ≤ l) (hll : l ≤ l') (hg' : 0 < g')
    (hgg : g < g') (hx0 : 0 < x) (hx'1 : x' < 1)
    (hx : (a + l) * x ^ 2 - (2 * a + g + l) * x + a = 0)
    (hx' : (a' + l') * x' ^ 2 - (2 * a' + g' + l') * x' + a' = 0) : x' < x := by
  by_contra hc
  have hc : x ≤ x' := not_lt.1 hc
  have hx'0 : 0 < x' := hx0.trans_le hc
  have e1 : g = (1 - x) * (a * ((1 - x) / x) - l) := by
    field_simp
    linear_combination -hx
  have e2 : g' = (1 - x') * (a' * ((1 - x') / x') - l') := by
    field_simp
    linear_combination -hx'
  have h1 : a' * ((1 - x') / x') - l' ≤ a * ((1 - x) / x) - l := by
    have h3 : (1 - x') / x' ≤ (1 - x) / x := by
      rw [div_le_div_iff₀ hx'0 hx0]
      nlinarith
    have h4 : 0 ≤ (1 - x') / x' := div_nonneg (by linarith) hx'0.le
    have : a' * ((1 - x') / x') ≤ a * ((1 - x) / x) := mul_le_mul haa h3 h4 (by linarith)
    linarith
  have h2 : 0 < a' * ((1 - x') / x') - l' := by
    by_contra hcon
    have : (1 - x') * (a' * ((1 - x') / x') - l') ≤ 0 :=
      mul_nonpos_of_nonneg_of_nonpos (by linarith) (not_lt.1 hcon)
    linarith
  have : g' ≤ g := by
    rw [e1, e2]
    apply mul_le_mul (by linarith) h1 h2.le (by linarith)
  linarith

theorem gasShieldDens_pos {b : Uvb} (h1 : 0 < b.gray_opac) (h2 : 0 < b.gamma_UVB) {f_bar temp : ℝ} (hf : 0 < f_bar)
    (ht : 0 < temp) : 0 < selfShieldDens b f_bar temp := by
  unfold selfShieldDens
  positivity

theorem recombRate_pos {temp : ℝ} (ht : 0 < temp) : 0 < recombRate temp := by
  unfold recombRate
  positivity

theorem lambdaT_pos {temp : ℝ} (ht : 0 < temp) : 0 < lambdaT temp := by
  unfold lambdaT
  positivity

theorem gasPhotoRate_pos {b : Uvb} (h1 : 0 < b.gray_opac) (h2 : 0 < b.gamma_UVB) {f_bar nH temp : ℝ} (hf : 0 < f_bar)
    (hn : 0 ≤ nH) (ht : 0 < temp) : 0 < photoRate b f_bar nH temp := by
  have := gasShieldDens_pos h1 h2 hf ht
  unfold photoRate
  positivity

/-- C36: the neutral fraction is the only fraction at which hydrogen is in balance under the self-shielded background. -/
theorem neutralFraction_root {b : Uvb} (h1 : 0 < b.gray_opac) (h2 : 0 < b.gamma_UVB) {f_bar nH temp : ℝ} (hf : 0 < f_bar)
    (hn : 0 < nH) (ht : 0 < temp) :
    0 < neutralFraction b f_bar nH temp ∧ neutralFraction b f_bar nH temp < 1 ∧
    HBalance (recombRate temp) (lambdaT temp) (photoRate b f_bar nH temp) nH (neutralFraction b f_bar nH temp) ∧
    ∀ y, 0 ≤ y → y ≤ 1 → HBalance (recombRate temp) (lambdaT temp) (photoRate b f_bar nH temp) nH y →
      y = neutralFraction b f_bar nH temp := by
  have ha := recombRate_pos ht
  have hl := lambdaT_pos ht
  have hg : 0 < photoRate b f_bar nH temp / nH := div_pos (gasPhotoRate_pos h1 h2 hf hn.le ht) hn
  obtain ⟨r1, r2, r3⟩ := root_spec ha hl.le hg
  refine ⟨r1, r2, (hbalance_iff hn).2 r3, fun y hy0 hy1 hy => ?_⟩
  exact root_unique ha hl.le hg hy1 r2.le ((hbalance_iff hn).1 hy) r3

/-- C36: with a stronger background (at the same self-shielding of it) less gas is neutral. -/
theorem neutralFraction_anti {b b' : Uvb} (h1 : 0 < b.gray_opac) (h2 : 0 < b.gamma_UVB) (h1' : 0 < b'.gray_opac)
    (h2' : 0 < b'.gamma_UVB) {f_bar nH temp : ℝ} (hf : 0 < f_bar) (hn : 0 < nH) (ht : 0 < temp)
    (hlt : photoRate b f_bar nH temp < photoRate b' f_bar nH temp) :
    neutralFraction b' f_bar nH temp < neutralFraction b f_bar nH temp := by
  have ha := recombRate_pos ht
  have hl := lambdaT_pos ht
  have hg : 0 < photoRate b f_bar nH temp / nH := div_pos (gasPhotoRate_pos h1 h2 hf hn.le ht) hn
  have hg' : 0 < photoRate b' f_bar nH temp / nH := div_pos (gasPhotoRate_pos h1' h2' hf hn.le ht) hn
  obtain ⟨r1, r2, r3⟩ := root_spec ha hl.le hg
  obtain ⟨s1, s2, s3⟩ := root_spec ha hl.le hg'
  exact root_anti ha le_rfl hl.le le_rfl hg' (by gcongr) r1 s2 r3 s3

theorem photoRate_antitone {b : Uvb} (h1 : 0 < b.gray_opac) (h2 : 0 < b.gamma_UVB) {f_bar nH nH' temp : ℝ} (hf : 0 < f_bar)
    (hn : 0 < nH) (hnn : nH ≤ nH') (ht : 0 < temp) : photoRate b f_bar nH' temp ≤ photoRate b f_bar nH temp := by
  have hs := gasShieldDens_pos h1 h2 hf ht
  unfold photoRate
  dsimp only
  have e1 : nH / selfShieldDens b f_bar temp ≤ nH' / selfShieldDens b f_bar temp := by gcongr
  have e0 : 0 ≤ nH / selfShieldDens b f_bar temp := by positivity
  have k1 : (1 + (nH' / selfShieldDens b f_bar temp) ^ (1.64 : ℝ)) ^ (-2.28 : ℝ) ≤
      (1 + (nH / selfShieldDens b f_bar temp) ^ (1.64 : ℝ)) ^ (-2.28 : ℝ) := by
    apply Real.rpow_le_rpow_of_nonpos (by positivity) _ (by norm_num)
    gcongr
  have k2 : (1 + nH' / selfShieldDens b f_bar temp) ^ (-0.84 : ℝ) ≤ (1 + nH / selfShieldDens b f_bar temp) ^ (-0.84 : ℝ) := by
    apply Real.rpow_le_rpow_of_nonpos (by positivity) _ (by norm_num)
    gcongr
  gcongr

/-- C36: denser gas is more neutral. -/
theorem neutralFraction_density {b : Uvb} (h1 : 0 < b.gray_opac) (h2 : 0 < b.gamma_UVB) {f_bar nH nH' temp : ℝ}
    (hf : 0 < f_bar) (hn : 0 < nH) (hnn : nH < nH') (ht : 0 < temp) :
    neutralFraction b f_bar nH temp < neutralFraction b f_bar nH' temp := by
  have hn' : 0 < nH' := hn.trans hnn
  have ha := recombRate_pos ht
  have hl := lambdaT_pos ht
  have hp := gasPhotoRate_pos h1 h2 hf hn.le ht
  have hg : 0 < photoRate b f_bar nH temp / nH := div_pos hp hn
  have hg' : 0 < photoRate b f_bar nH' temp / nH' := div_pos (gasPhotoRate_pos h1 h2 hf hn'.le ht) hn'
  have hlt : photoRate b f_bar nH' temp / nH' < photoRate b f_bar nH temp / nH := by
    calc photoRate b f_bar nH' temp / nH' ≤ photoRate b f_bar nH temp / nH' := by
          have := photoRate_antitone h1 h2 hf hn hnn.le ht
          gcongr
      _ < photoRate b f_bar nH temp / nH := by gcongr
  obtain ⟨r1, r2, r3⟩ := root_spec ha hl.le hg
  obtain ⟨s1, s2, s3⟩ := root_spec ha hl.le hg'
  exact root_anti ha le_rfl hl.le le_rfl hg hlt s1 r2 s3 r3

theorem lambdaT_mono {t t' : ℝ} (ht : 0 < t) (htt : t ≤ t') : lambdaT t ≤ lambdaT t' := by
  have ht' : 0 < t' := ht.trans_le htt
  have key : ∀ s : ℝ, 0 < s → s ^ (0.5 : ℝ) / (1 + √(s / 1e5)) = 1 / ((√s)⁻¹ + (√1e5)⁻¹) := by
    intro s hs
    have h1 : s ^ (0.5 : ℝ) = √s := by rw [Real.sqrt_eq_rpow]; norm_num
    have h2 : 0 < √s := Real.sqrt_pos.2 hs
    have h3 : 0 < √(1e5 : ℝ) := Real.sqrt_pos.2 (by norm_num)
    rw [h1, Real.sqrt_div hs.le]
    field_simp
  have e : ∀ s : ℝ, 0 < s → lambdaT s = 1.17e-10 * (s ^ (0.5 : ℝ) / (1 + √(s / 1e5))) * Real.exp (-(157809 / s)) := by
    intro s hs
    unfold lambdaT
    rw [neg_div]
    ring
  rw [e t ht, e t' ht', key t ht, key t' ht']
  have h1 : 0 < √t := Real.sqrt_pos.2 ht
  have h3 : 0 < √(1e5 : ℝ) := Real.sqrt_pos.2 (by norm_num)
  gcongr

theorem recombRate_antitone {t t' : ℝ} (ht : 0 < t) (htt : t ≤ t') : recombRate t' ≤ recombRate t := by
  have ht' : 0 < t' := ht.trans_le htt
  have key : ∀ s : ℝ, 0 < s → recombRate s = 1.269e-13 / ((315614 / s) ^ (-1.503 / 1.923 : ℝ) +
      (0.522 : ℝ) ^ (-0.47 : ℝ) * (315614 / s) ^ (0.47 - 1.503 / 1.923 : ℝ)) ^ (1.923 : ℝ) := by
    intro s hs
    unfold recombRate
    dsimp only
    have hl : 0 < 315614 / s := by positivity
    set l := 315614 / s with hldef
    have h1 : l ^ (-1.503 / 1.923 : ℝ) + (0.522 : ℝ) ^ (-0.47 : ℝ) * l ^ (0.47 - 1.503 / 1.923 : ℝ) =
        (1 + (l / 0.522) ^ (0.47 : ℝ)) * l ^ (-1.503 / 1.923 : ℝ) := by
      rw [Real.div_rpow hl.le (by norm_num), add_mul, one_mul, Real.rpow_neg (by norm_num) 0.47,
        show (0.47 - 1.503 / 1.923 : ℝ) = 0.47 + -1.503 / 1.923 by norm_num, Real.rpow_add hl]
      ring
    rw [h1, Real.mul_rpow (by positivity) (by positivity), ← Real.rpow_mul hl.le]
    have h2 : (-1.503 / 1.923 * 1.923 : ℝ) = -1.503 := by norm_num
    rw [h2, Real.rpow_neg hl.le]
    field_simp
  rw [key t ht, key t' ht']
  have hl : 315614 / t' ≤ 315614 / t := by gcongr
  have hl' : 0 < 315614 / t' := by positivity
  have a1 : (315614 / t) ^ (-1.503 / 1.923 : ℝ) ≤ (315614 / t') ^ (-1.503 / 1.923 : ℝ) :=
    Real.rpow_le_rpow_of_nonpos hl' hl (by norm_num)
  have a2 : (315614 / t) ^ (0.47 - 1.503 / 1.923 : ℝ) ≤ (315614 / t') ^ (0.47 - 1.503 / 1.923 : ℝ) :=
    Real.rpow_le_rpow_of_nonpos hl' hl (by norm_num)
  gcongr

theorem photoRate_temp {b : Uvb} (h1 : 0 < b.gray_opac) (h2 : 0 < b.gamma_UVB) {f_bar nH t t' : ℝ} (hf : 0 < f_bar)
    (hn : 0 < nH) (ht : 0 < t) (htt : t < t') : photoRate b f_bar nH t < photoRate b f_bar nH t' := by
  have hs := gasShieldDens_pos h1 h2 hf ht
  have hss : selfShieldDens b f_bar t < selfShieldDens b f_bar t' := by
    unfold selfShieldDens
    dsimp only
    gcongr
  unfold photoRate
  dsimp only
  have e1 : nH / selfShieldDens b f_bar t' < nH / selfShieldDens b f_bar t := by gcongr
  have hs' : 0 < selfShieldDens b f_bar t' := hs.trans hss
  have k1 : (1 + (nH / selfShieldDens b f_bar t) ^ (1.64 : ℝ)) ^ (-2.28 : ℝ) <
      (1 + (nH / selfShieldDens b f_bar t') ^ (1.64 : ℝ)) ^ (-2.28 : ℝ) := by
    apply Real.rpow_lt_rpow_of_neg (by positivity) _ (by norm_num)
    gcongr
  have k2 : (1 + nH / selfShieldDens b f_bar t) ^ (-0.84 : ℝ) < (1 + nH / selfShieldDens b f_bar t') ^ (-0.84 : ℝ) := by
    apply Real.rpow_lt_rpow_of_neg (by positivity) _ (by norm_num)
    gcongr
  gcongr

/-- C36: the density of self-shielding, equation 13 of Rahmati et al. (2012): its value for the reference background, temperature
and baryon fraction, and how it scales with each. Eight times the photoionisation rate makes it four times as large; eight
times the cross section a quarter; eight times the baryon fraction half. -/
theorem shieldDens_scaling {b : Uvb} (h1 : 0 < b.gray_opac) (h2 : 0 < b.gamma_UVB) {f_bar t c : ℝ} (hf : 0 < f_bar) (ht : 0 < t)
    (hc : 0 < c) :
    selfShieldDens ⟨2.49e-18, 1e-12⟩ 0.17 1e4 = 6.73e-3 ∧
    selfShieldDens { b with gamma_UVB := 8 * b.gamma_UVB } f_bar t = 4 * selfShieldDens b f_bar t ∧
    selfShieldDens { b with gray_opac := 8 * b.gray_opac } f_bar t = selfShieldDens b f_bar t / 4 ∧
    selfShieldDens b (8 * f_bar) t = selfShieldDens b f_bar t / 2 ∧
    selfShieldDens b f_bar (c ^ 100 * t) = c ^ 17 * selfShieldDens b f_bar t := by
  have h8 : (8 : ℝ) = 2 ^ (3 : ℝ) := by norm_num
  have e1 : (8 : ℝ) ^ (2 / 3 : ℝ) = 4 := by
    rw [h8, ← Real.rpow_mul (by norm_num)]; norm_num
  have e2 : (8 : ℝ) ^ (-2 / 3 : ℝ) = 1 / 4 := by
    rw [h8, ← Real.rpow_mul (by norm_num)]
    rw [show (3 * (-2 / 3) : ℝ) = -(2 : ℕ) by norm_num, Real.rpow_neg (by norm_num), Real.rpow_natCast]; norm_num
  have e3 : (8 : ℝ) ^ (-1 / 3 : ℝ) = 1 / 2 := by
    rw [h8, ← Real.rpow_mul (by norm_num)]
    rw [show (3 * (-1 / 3) : ℝ) = -(1 : ℕ) by norm_num, Real.rpow_neg (by norm_num), Real.rpow_natCast]; norm_num
  have e4 : (c ^ 100) ^ (0.17 : ℝ) = c ^ 17 := by
    rw [← Real.rpow_natCast, ← Real.rpow_mul hc.le, ← Real.rpow_natCast c 17]; norm_num
  unfold selfShieldDens
  dsimp only
  refine ⟨by norm_num, ?_, ?_, ?_, ?_⟩
  · rw [mul_div_assoc, Real.mul_rpow (by norm_num) (by positivity), e1]; ring
  · rw [mul_div_assoc, Real.mul_rpow (by norm_num) (by positivity), e2]; ring
  · rw [mul_div_assoc, Real.mul_rpow (by norm_num) (by positivity), e3]; ring
  · rw [mul_div_assoc, Real.mul_rpow (by positivity) (by positivity), e4]; ring

/-- C36: hotter gas is less neutral. -/
theorem neutralFraction_temp {b : Uvb} (h1 : 0 < b.gray_opac) (h2 : 0 < b.gamma_UVB) {f_bar nH t t' : ℝ} (hf : 0 < f_bar)
    (hn : 0 < nH) (ht : 0 < t) (htt : t < t') : neutralFraction b f_bar nH t' < neutralFraction b f_bar nH t := by
  have ht' : 0 < t' := ht.trans htt
  have hg : 0 < photoRate b f_bar nH t / nH := div_pos (gasPhotoRate_pos h1 h2 hf hn.le ht) hn
  have hg' : 0 < photoRate b f_bar nH t' / nH := div_pos (gasPhotoRate_pos h1 h2 hf hn.le ht') hn
  obtain ⟨r1, r2, r3⟩ := root_spec (recombRate_pos ht) (lambdaT_pos ht).le hg
  obtain ⟨s1, s2, s3⟩ := root_spec (recombRate_pos ht') (lambdaT_pos ht').le hg'
  have hlt := photoRate_temp h1 h2 hf hn ht htt
  exact root_anti (recombRate_pos ht') (recombRate_antitone ht htt.le) (lambdaT_pos ht).le (lambdaT_mono ht htt.le) hg'
    (by gcongr) r1 s2 r3 s3

/-! The background. -/

/-- C36: between redshift 0 and 8 the background is positive and interpolated linearly between the values tabulated at
integer redshifts; above 8 there is none, below 0 the constructor raises ValueError. -/
theorem uvbAt_spec (z : ℝ) :
    (0 ≤ z → z ≤ 8 → ∃ b, uvbAt z = .ok (some b) ∧ 0 < b.gray_opac ∧ 0 < b.gamma_UVB ∧
      ∃ k k' : ℕ, OnSegment (fun i : ℕ => (i : ℝ)) (fun i => grayTable.getD i 0) k z b.gray_opac ∧
        OnSegment (fun i : ℕ => (i : ℝ)) (fun i => gammaTable.getD i 0) k' z b.gamma_UVB) ∧
    (8 < z → uvbAt z = .ok none) ∧ (z < 0 → uvbAt z = .error .valueError) := by
  have hpos : ∀ i : ℕ, i < 9 → 0 < gammaTable.getD i 0 ∧ 0 < grayTable.getD i 0 := by
    intro i hi
    unfold gammaTable grayTable
    interval_cases i <;> norm_num
  have hx : ∀ i : ℕ, ((i : ℕ) : ℝ) < ((i + 1 : ℕ) : ℝ) := by intro i; push_cast; linarith
  refine ⟨fun h0 h8 => ?_, fun h => ?_, fun h => ?_⟩
  · have hin : ((0 : ℕ) : ℝ) ≤ z ∧ z ≤ ((9 - 1 : ℕ) : ℝ) := by norm_num; exact ⟨h0, h8⟩
    obtain ⟨k, y, hk, hy, hs⟩ := (interp1d_spec (by norm_num : 2 ≤ 9) (fun i : ℕ => (i : ℝ))
      (fun i => gammaTable.getD i 0) z).1 hin
    obtain ⟨k', y', hk', hy', hs'⟩ := (interp1d_spec (by norm_num : 2 ≤ 9) (fun i : ℕ => (i : ℝ))
      (fun i => grayTable.getD i 0) z).1 hin
    refine ⟨⟨y', y⟩, ?_, ?_, ?_, k', k, hs', hs⟩
    · unfold uvbAt
      rw [if_neg (not_lt.2 h8), hy, hy']
      rfl
    · exact lt_of_lt_of_le (lt_min (hpos k' (by omega)).2 (hpos (k' + 1) hk').2) (onSegment_between (hx k') hs').1
    · exact lt_of_lt_of_le (lt_min (hpos k (by omega)).1 (hpos (k + 1) hk).1) (onSegment_between (hx k) hs).1
  · unfold uvbAt
    rw [if_pos h]
  · unfold uvbAt
    rw [if_neg (by linarith), (interp1d_spec (by norm_num : 2 ≤ 9) (fun i : ℕ => (i : ℝ))
      (fun i => gammaTable.getD i 0) z).2 (Or.inl (by simpa using h))]
    rfl

/-! The threshold. -/

/-- The threshold in the units of the snapshot, at redshift 0: a number. -/
noncomputable def threshCode : ℝ :=
  277.476 * (153000 / 169180 / (1 - 153000 / 169180) ^ 2 * (0.264089 * 573 - (1 - 0.264089) * 820 / 170000) *
    (4.64419e-10 / 2.27))

/-- C62: the threshold is positive and proportional to the unit of density: the units of length and of velocity and the
Hubble parameter in the time scales cancel. -/
theorem rhoThresh_eq {u : UnitSystem} (hu : ValidUnits u) {h : ℝ} (hh : 0 < h) :
    rhoThresh u h h = 0.76 * (threshCode * u.UnitDensity_in_cgs * h ^ 2 / protonmass) ∧ 0 < rhoThresh u h h := by
  obtain ⟨hm, hl, hv⟩ := hu
  have hd : 0 < u.UnitDensity_in_cgs := by unfold UnitSystem.UnitDensity_in_cgs; positivity
  have hp : 0 < protonmass := by unfold protonmass; norm_num
  have hb : 0 < boltzmann := by unfold boltzmann; norm_num
  have e : rhoThresh u h h = 0.76 * (threshCode * u.UnitDensity_in_cgs * h ^ 2 / protonmass) := by
    unfold rhoThresh threshCode gamma
    dsimp only
    have hk : 0 < boltzmann / protonmass := by positivity
    set k := boltzmann / protonmass
    have hT : 0 < u.UnitLength_in_cm / u.UnitVelocity_in_cm_per_s := by positivity
    set T := u.UnitLength_in_cm / u.UnitVelocity_in_cm_per_s
    set d := u.UnitDensity_in_cgs
    have hx : (1 / (4 / (8 - 5 * (1 - 0.76 : ℝ))) * (1 / (5 / 3 - 1)) * k * 5.73e7 / 573 -
        1 / (4 / (8 - 5 * (1 - 0.76 : ℝ))) * (1 / (5 / 3 - 1)) * k * 1e4) /
        (1 / (4 / (8 - 5 * (1 - 0.76 : ℝ))) * (1 / (5 / 3 - 1)) * k * 5.73e7 / 573 -
        1 / (4 / (1 + 3 * 0.76 : ℝ)) * (1 / (5 / 3 - 1)) * k * 1000) = 153000 / 169180 := by
      rw [div_eq_div_iff]
      · ring
      · have : (1 / (4 / (8 - 5 * (1 - 0.76 : ℝ))) * (1 / (5 / 3 - 1)) * k * 5.73e7 / 573 -
        1 / (4 / (1 + 3 * 0.76 : ℝ)) * (1 / (5 / 3 - 1)) * k * 1000) = 253770 * k := by ring
        rw [this]
        positivity
      · norm_num
    rw [hx]
    field_simp
    ring
  refine ⟨e, ?_⟩
  rw [e]
  have : 0 < threshCode := by unfold threshCode; norm_num
  positivity

/-- C36: what `get_reproc_HI` gives each particle: above the threshold density the unique balance at 10⁴ K (or, above
redshift 8, all neutral), below it and for other models the value of the snapshot. -/
theorem get_reproc_HI_spec {z h f_bar : ℝ} {u : UnitSystem} (hu : ValidUnits u) (hh : 0 < h) (hf : 0 < f_bar) (hz : 0 ≤ z)
    {sf : Bool} {g : Obj} (hg : Obj.init z h f_bar u sf = .ok g) (density nH0 : ℕ → ℝ) (i : ℕ) :
    let n := g.get_code_rhoH density i
    (sf = false ∨ 0.76 * n ≤ g.PhysDensThresh → g.get_reproc_HI density nH0 i = nH0 i) ∧
    (sf = true → g.PhysDensThresh < 0.76 * n → 8 < z → g.get_reproc_HI density nH0 i = 1) ∧
    (sf = true → g.PhysDensThresh < 0.76 * n → z ≤ 8 → ∃ b, uvbAt z = .ok (some b) ∧
      0 < g.get_reproc_HI density nH0 i ∧ g.get_reproc_HI density nH0 i < 1 ∧
      HBalance (recombRate 1e4) (lambdaT 1e4) (photoRate b f_bar n 1e4) n (g.get_reproc_HI density nH0 i)) := by
  intro n
  have hconv : 0 < u.UnitDensity_in_cgs * h ^ 2 / protonmass * (1 + z) ^ 3 := by
    obtain ⟨hm, hl, hv⟩ := hu
    unfold UnitSystem.UnitDensity_in_cgs protonmass
    positivity
  have hthr := (rhoThresh_eq hu hh).2
  unfold Obj.init at hg
  have huvb := uvbAt_spec z
  obtain ⟨ub, hub, hg⟩ : ∃ ub, uvbAt z = .ok ub ∧ (⟨u, f_bar, z, sf, ub, h, rhoThresh u h h⟩ : Obj) = g := by
    cases hc : uvbAt z with
    | error e => rw [hc] at hg; simp [bind, Except.bind] at hg
    | ok ub => rw [hc] at hg; exact ⟨ub, rfl, Except.ok.inj hg⟩
  subst hg
  have hcv : (⟨u, f_bar, z, sf, ub, h, rhoThresh u h h⟩ : Obj).conv =
    u.UnitDensity_in_cgs * h ^ 2 / protonmass * (1 + z) ^ 3 := rfl
  have hcmp : density i > rhoThresh u h h / 0.76 / (u.UnitDensity_in_cgs * h ^ 2 / protonmass * (1 + z) ^ 3) ↔
      rhoThresh u h h < 0.76 * n := by
    show _ ↔ rhoThresh u h h < 0.76 * (density i * (u.UnitDensity_in_cgs * h ^ 2 / protonmass * (1 + z) ^ 3))
    rw [gt_iff_lt, div_lt_iff₀ hconv, div_lt_iff₀ (by norm_num), mul_comm (0.76 : ℝ)]
  unfold Obj.get_reproc_HI
  rw [hcv]
  dsimp only
  refine ⟨?_, ?_, ?_⟩
  · rintro (hs | hs)
    · rw [hs]; rfl
    · have hs' : rhoThresh u h h ≥ 0.76 * n := hs
      cases sf
      · rfl
      · rw [if_pos rfl, if_neg (fun hc => absurd (hcmp.1 hc) (not_lt.2 hs'))]
  · intro hs hlt h8
    subst hs
    have : ub = none := by have := huvb.2.1 h8; rw [this] at hub; exact (Except.ok.inj hub).symm
    subst this
    rw [if_pos rfl, if_pos (hcmp.2 hlt)]
  · intro hs hlt h8
    subst hs
    obtain ⟨b, hb, b1, b2, -⟩ := huvb.1 hz h8
    have : ub = some b := by rw [hb] at hub; exact (Except.ok.inj hub).symm
    subst this
    have hlt' : rhoThresh u h h < 0.76 * n := hlt
    have hn : 0 < n := by nlinarith
    rw [if_pos rfl, if_pos (hcmp.2 hlt)]
    obtain ⟨r1, r2, r3, -⟩ := neutralFraction_root b1 b2 hf hn (by norm_num : (0 : ℝ) < 1e4)
    exact ⟨b, hb, r1, r2, r3⟩

/-- C62 (finding): the physical threshold depends on the units the snapshot is stored in: with lengths in Mpc it is a
thousand million times lower than for the same gas with lengths in kpc. -/
theorem threshold_depends_on_units {u : UnitSystem} (hu : ValidUnits u) {h : ℝ} (hh : 0 < h) :
    rhoThresh { u with UnitLength_in_cm := 1000 * u.UnitLength_in_cm } h h = rhoThresh u h h / 1e9 := by
  have hu' : ValidUnits { u with UnitLength_in_cm := 1000 * u.UnitLength_in_cm } := by
    obtain ⟨hm, hl, hv⟩ := hu
    exact ⟨hm, by show 0 < 1000 * u.UnitLength_in_cm; positivity, hv⟩
  rw [(rhoThresh_eq hu' hh).1, (rhoThresh_eq hu hh).1]
  unfold UnitSystem.UnitDensity_in_cgs
  dsimp only
  have := hu.2.1
  field_simp
  norm_num

/-- Witness: gas of three hydrogen atoms per cubic centimetre in the default units is above the threshold. -/
theorem threshold_default : 0.1 < rhoThresh gadget 0.7 0.7 ∧ rhoThresh gadget 0.7 0.7 < 0.2 := by
  rw [(rhoThresh_eq gadget_valid (by norm_num)).1]
  unfold threshCode gadget UnitSystem.UnitDensity_in_cgs protonmass
  norm_num

/-- Witness: an object exists, and a particle above the threshold. -/
example : ∃ g, Obj.init 3 0.7 0.17 gadget true = .ok g ∧ g.PhysDensThresh < 0.76 * g.get_code_rhoH (fun _ => 1) 0 := by
  obtain ⟨b, hb, -, -⟩ := (uvbAt_spec 3).1 (by norm_num) (by norm_num)
  refine ⟨⟨gadget, 0.17, 3, true, some b, 0.7, rhoThresh gadget 0.7 0.7⟩, ?_, ?_⟩
  · unfold Obj.init; rw [hb]; rfl
  · have := threshold_default.2
    show rhoThresh gadget 0.7 0.7 < 0.76 * (1 * (gadget.UnitDensity_in_cgs * 0.7 ^ 2 / protonmass * (1 + 3) ^ 3))
    refine this.trans ?_
    unfold gadget UnitSystem.UnitDensity_in_cgs protonmass
    norm_num

theorem uvb_rows {z : ℝ} {b : Uvb} (h0 : 0 ≤ z) (h8 : z ≤ 8) (hb : uvbAt z = .ok (some b)) :
    ∃ k k' : ℕ, k < 8 ∧ k' < 8 ∧ OnSegment (fun i : ℕ => (i : ℝ)) (fun i => grayTable.getD i 0) k z b.gray_opac ∧
      OnSegment (fun i : ℕ => (i : ℝ)) (fun i => gammaTable.getD i 0) k' z b.gamma_UVB := by
  have hin : ((0 : ℕ) : ℝ) ≤ z ∧ z ≤ ((9 - 1 : ℕ) : ℝ) := by norm_num; exact ⟨h0, h8⟩
  obtain ⟨k, y, hk, hy, hs⟩ := (interp1d_spec (by norm_num : 2 ≤ 9) (fun i : ℕ => (i : ℝ))
    (fun i => gammaTable.getD i 0) z).1 hin
  obtain ⟨k', y', hk', hy', hs'⟩ := (interp1d_spec (by norm_num : 2 ≤ 9) (fun i : ℕ => (i : ℝ))
    (fun i => grayTable.getD i 0) z).1 hin
  unfold uvbAt at hb
  rw [if_neg (not_lt.2 h8), hy, hy'] at hb
  cases hb
  exact ⟨k', k, by omega, by omega, hs', hs⟩

/-- A table that falls between two rows falls when interpolated between them. -/
theorem segment_anti {ys : ℕ → ℝ} {lo hi : ℕ} (hlh : lo < hi) (hys : ∀ i, lo ≤ i → i < hi → ys (i + 1) ≤ ys i) {k k' : ℕ} {z z' y y' : ℝ}
    (h : OnSegment (fun i : ℕ => (i : ℝ)) ys k z y) (h' : OnSegment (fun i : ℕ => (i : ℝ)) ys k' z' y')
    (hlo : (lo : ℝ) ≤ z) (hz : z ≤ z') (hhi : z' ≤ hi) : y' ≤ y := by
  have reseg : ∀ {k : ℕ} {z y : ℝ}, OnSegment (fun i : ℕ => (i : ℝ)) ys k z y → (lo : ℝ) ≤ z → z ≤ hi →
      ∃ k, lo ≤ k ∧ k < hi ∧ (k : ℝ) ≤ z ∧ z ≤ k + 1 ∧ y = ys k + (ys (k + 1) - ys k) * (z - k) := by
    intro k z y ⟨h1, h2, h3⟩ hl hh
    push_cast at h1 h2 h3
    rw [show ((k : ℝ) + 1 - k) = 1 by ring, div_one] at h3
    by_cases c1 : k < lo
    · have : k + 1 ≤ lo := c1
      have : ((k + 1 : ℕ) : ℝ) ≤ lo := by exact_mod_cast this
      push_cast at this
      have hzl : z = lo := by linarith
      have hkl : lo = k + 1 := by
        have : (lo : ℝ) = (k + 1 : ℕ) := by push_cast; linarith
        exact_mod_cast this
      refine ⟨lo, le_refl _, hlh, by linarith, by linarith, ?_⟩
      rw [h3, hzl, sub_self, mul_zero, hkl]
      push_cast
      ring
    · by_cases c2 : k < hi
      · exact ⟨k, by omega, c2, h1, h2, h3⟩
      · have c2 : hi ≤ k := by omega
        have : (hi : ℝ) ≤ k := by exact_mod_cast c2
        have hzl : z = k := by linarith
        have hkl : k = hi := by
          have : (k : ℝ) = hi := by linarith
          exact_mod_cast this
        obtain ⟨m, rfl⟩ : ∃ m, hi = m + 1 := ⟨hi - 1, by omega⟩
        subst hkl
        refine ⟨m, by omega, by omega, ?_, ?_, ?_⟩
        · rw [hzl]; push_cast; linarith
        · rw [hzl]; push_cast; linarith
        · rw [h3, hzl]; push_cast; ring
  obtain ⟨k, hk1, hk2, a1, a2, rfl⟩ := reseg h hlo (hz.trans hhi)
  obtain ⟨k', hk1', hk2', b1, b2, rfl⟩ := reseg h' (hlo.trans hz) hhi
  have chain : ∀ i j, i ≤ j → lo ≤ i → j ≤ hi → ys j ≤ ys i := by
    intro i j hij
    induction j, hij using Nat.le_induction with
    | base => intro _ _; exact le_refl _
    | succ j hij ih => intro h1 h2; exact (hys j (by omega) (by omega)).trans (ih h1 (by omega))
  have d := hys k hk1 hk2
  have d' := hys k' hk1' hk2'
  rcases lt_trichotomy k k' with h | h | h
  · have c := chain (k + 1) k' (by omega) (by omega) (by omega)
    nlinarith
  · subst h
    nlinarith
  · have h1 : ((k' + 1 : ℕ) : ℝ) ≤ k := by exact_mod_cast h
    push_cast at h1
    have e : k = k' + 1 := by
      have : (k : ℝ) = (k' + 1 : ℕ) := by push_cast; linarith
      exact_mod_cast this
    subst e
    push_cast at *
    have e1 : z = k' + 1 := by linarith
    have e2 : z' = k' + 1 := by linarith
    rw [e1, e2]
    ring_nf
    exact le_refl _

/-- C36: the background shines brightest at redshift 2, rising before and falling after, and grows harder with
redshift, so that its mean cross-section falls. -/
theorem uvb_shape {z z' : ℝ} {b b' : Uvb} (h0 : 0 ≤ z) (hzz : z ≤ z') (h8 : z' ≤ 8) (hb : uvbAt z = .ok (some b))
    (hb' : uvbAt z' = .ok (some b')) :
    b'.gray_opac ≤ b.gray_opac ∧ (z' ≤ 2 → b.gamma_UVB ≤ b'.gamma_UVB) ∧ (2 ≤ z → b'.gamma_UVB ≤ b.gamma_UVB) := by
  obtain ⟨k, j, hk, hj, hks, hjs⟩ := uvb_rows h0 (hzz.trans h8) hb
  obtain ⟨k', j', hk', hj', hks', hjs'⟩ := uvb_rows (h0.trans hzz) h8 hb'
  refine ⟨?_, fun h2 => ?_, fun h2 => ?_⟩
  · refine segment_anti (lo := 0) (hi := 8) (by norm_num) ?_ hks hks' (by push_cast; exact h0) hzz (by push_cast; exact h8)
    intro i _ hi
    unfold grayTable
    interval_cases i <;> norm_num
  · have neg : ∀ {k : ℕ} {z y : ℝ}, OnSegment (fun i : ℕ => (i : ℝ)) (fun i => gammaTable.getD i 0) k z y →
        OnSegment (fun i : ℕ => (i : ℝ)) (fun i => -gammaTable.getD i 0) k z (-y) := by
      intro k z y ⟨h1, h2, h3⟩
      exact ⟨h1, h2, by rw [h3]; ring⟩
    have := segment_anti (lo := 0) (hi := 2) (by norm_num) ?_ (neg hjs) (neg hjs') (by push_cast; exact h0) hzz
      (by push_cast; exact h2)
    · linarith
    · intro i _ hi
      unfold gammaTable
      interval_cases i <;> norm_num
  · refine segment_anti (lo := 2) (hi := 8) (by norm_num) ?_ hjs hjs' (by push_cast; exact h2) hzz (by push_cast; exact h8)
    intro i h1 hi
    unfold gammaTable
    interval_cases i <;> norm_num

/-! Witnesses for the theorems of C36: gas at redshift 3. -/

example := neutralFraction_root (b := ⟨2.59e-18, 8e-13⟩) (by norm_num) (by norm_num) (f_bar := 0.17) (nH := 1e-3) (temp := 1e4) (by norm_num) (by norm_num) (by norm_num)

example := neutralFraction_density (b := ⟨2.59e-18, 8e-13⟩) (by norm_num) (by norm_num) (f_bar := 0.17) (nH := 1e-3) (nH' := 1e-2) (temp := 1e4)
  (by norm_num) (by norm_num) (by norm_num) (by norm_num)

example := shieldDens_scaling (b := ⟨2.59e-18, 8e-13⟩) (by norm_num) (by norm_num) (f_bar := 0.17) (t := 1e4) (c := 2) (by norm_num) (by norm_num) (by norm_num)

example := neutralFraction_temp (b := ⟨2.59e-18, 8e-13⟩) (by norm_num) (by norm_num) (f_bar := 0.17) (nH := 1e-3) (t := 1e4) (t' := 2e4)
  (by norm_num) (by norm_num) (by norm_num) (by norm_num)

example := rhoThresh_eq gadget_valid (h := 0.7) (by norm_num)

example := threshold_depends_on_units gadget_valid (h := 0.7) (by norm_num)

/-- The constructor succeeds at redshift 3, and its fractions are as stated. -/
example : ∃ g, Obj.init 3 0.7 0.17 gadget true = .ok g ∧ ∀ (density nH0 : ℕ → ℝ) (i : ℕ),
    g.PhysDensThresh < 0.76 * g.get_code_rhoH density i → 0 < g.get_reproc_HI density nH0 i ∧ g.get_reproc_HI density nH0 i < 1 := by
  obtain ⟨b, hb, -, -⟩ := (uvbAt_spec 3).1 (by norm_num) (by norm_num)
  have hg : Obj.init 3 0.7 0.17 gadget true = .ok ⟨gadget, 0.17, 3, true, some b, 0.7, rhoThresh gadget 0.7 0.7⟩ := by
    unfold Obj.init
    rw [hb]
    rfl
  refine ⟨_, hg, fun density nH0 i h => ?_⟩
  obtain ⟨-, -, h1, h2, -⟩ := (get_reproc_HI_spec gadget_valid (by norm_num) (by norm_num) (by norm_num) hg density nH0 i).2.2 rfl h (by norm_num)
  exact ⟨h1, h2⟩

/-- Both redshifts of `uvb_shape` are in the table. -/
example : ∃ b b', uvbAt 3 = .ok (some b) ∧ uvbAt 5 = .ok (some b') ∧ b'.gray_opac ≤ b.gray_opac ∧ b'.gamma_UVB ≤ b.gamma_UVB := by
  obtain ⟨b, hb, -, -⟩ := (uvbAt_spec 3).1 (by norm_num) (by norm_num)
  obtain ⟨b', hb', -, -⟩ := (uvbAt_spec 5).1 (by norm_num) (by norm_num)
  obtain ⟨h1, -, h2⟩ := uvb_shape (by norm_num) (by norm_num) (by norm_num) hb hb'
  exact ⟨b, b', hb, hb', h1, h2 (by norm_num)⟩

end Verif.Props
