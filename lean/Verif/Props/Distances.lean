import Verif.Props.Emission
import Mathlib.MeasureTheory.Integral.IntervalIntegral.Basic

/-!
C69: the quadrature of `calculator` against the integral it stands for.
-/

namespace Verif.Props.Emission
open Verif Verif.Emission

/-- The trapezium rule for a decreasing function, on points whose steps are at most `δ`. -/
theorem trapz_antitone (g : ℝ → ℝ) (δ : ℝ) : ∀ (xs : List ℝ) (x : ℝ), (x :: xs).IsChain (fun a b => a ≤ b ∧ b - a ≤ δ) →
    AntitoneOn g (Set.Icc x ((x :: xs).getLast (by simp))) →
    x ≤ (x :: xs).getLast (by simp) ∧ (0 ≤ δ →
    |Absorbers.trapz ((x :: xs).map g) (x :: xs) - ∫ t in x..((x :: xs).getLast (by simp)), g t| ≤
      δ / 2 * (g x - g ((x :: xs).getLast (by simp)))) := by
  intro xs
  induction xs with
  | nil => intro x _ _; simp [Absorbers.trapz]
  | cons y ys ih =>
    intro x hc hg
    rw [List.isChain_cons_cons] at hc
    obtain ⟨⟨hxy, hstep⟩, hc'⟩ := hc
    have hlast : (x :: y :: ys).getLast (by simp) = (y :: ys).getLast (by simp) := by simp
    rw [hlast] at hg ⊢
    set l := (y :: ys).getLast (by simp) with hl
    have hg' : AntitoneOn g (Set.Icc y l) := hg.mono (Set.Icc_subset_Icc_left hxy)
    obtain ⟨hyl, hb⟩ := ih y hc' hg'
    refine ⟨hxy.trans hyl, ?_⟩
    intro hδ
    have hb := hb hδ
    have hgxy : AntitoneOn g (Set.uIcc x y) := by
      rw [Set.uIcc_of_le hxy]
      exact hg.mono (Set.Icc_subset_Icc_right hyl)
    have hgyl : AntitoneOn g (Set.uIcc y l) := by
      rw [Set.uIcc_of_le hyl]
      exact hg'
    have i1 := hgxy.intervalIntegrable (μ := MeasureTheory.volume)
    have i2 := hgyl.intervalIntegrable (μ := MeasureTheory.volume)
    have hsplit : ∫ t in x..l, g t = (∫ t in x..y, g t) + ∫ t in y..l, g t :=
      (intervalIntegral.integral_add_adjacent_intervals i1 i2).symm
    have hup : ∫ t in x..y, g t ≤ (y - x) * g x := by
      have := intervalIntegral.integral_mono_on hxy i1 (intervalIntegrable_const (c := g x))
        (fun t ht => hg ⟨le_refl _, hxy.trans hyl⟩ ⟨ht.1, ht.2.trans hyl⟩ ht.1)
      simpa using this
    have hlo : (y - x) * g y ≤ ∫ t in x..y, g t := by
      have := intervalIntegral.integral_mono_on hxy (intervalIntegrable_const (c := g y)) i1
        (fun t ht => hg ⟨ht.1, ht.2.trans hyl⟩ ⟨hxy, hyl⟩ ht.2)
      simpa using this
    have hxyg : g y ≤ g x := hg ⟨le_refl _, hxy.trans hyl⟩ ⟨hxy, hyl⟩ hxy
    have htr : Absorbers.trapz ((x :: y :: ys).map g) (x :: y :: ys) =
        (y - x) * (g x + g y) / 2 + Absorbers.trapz ((y :: ys).map g) (y :: ys) := rfl
    rw [htr, hsplit]
    rw [abs_le] at hb ⊢
    have hd : (y - x) * (g x - g y) ≤ δ * (g x - g y) := mul_le_mul_of_nonneg_right hstep (by linarith)
    constructor <;> nlinarith

theorem step_bound {p q : ℝ} (h0 : 0 < p) (h1 : p ≤ 1) (hq : q ≤ 1) : p * q ≤ p ∧ p - p * q ≤ 1 - q := by
  constructor <;> nlinarith

/-- The expansion rate in units of today's, at scale factor `a`, of a flat universe with photons and neutrinos. -/
noncomputable def expansion (H0 omegaM a : ℝ) : ℝ :=
  Real.sqrt (omegaM / a ^ 3 + 4.165e-5 / (H0 / 100) ^ 2 / a ^ 4 + (1 - omegaM - 4.165e-5 / (H0 / 100) ^ 2))

/-- C69. The comoving distance is `c/H0` times the integral of `1/(a² E(a))` from the scale factor of the redshift to 1, to
within a relative step of the grid: the error vanishes with `1 - (1+z)^(-1/999)`. -/
theorem comoving_integral {H0 omegaM : ℝ} (hu : Universe H0 omegaM) {z : ℝ} (hz : 0 ≤ z) :
    |dcmr H0 omegaM z - ∫ a in (1 / (1 + z))..1, 1 / (a ^ 2 * expansion H0 omegaM a)| ≤
      (1 - (1 + z) ^ (-(1 : ℝ) / 999)) / 2 * ((1 + z) ^ 2 - 1) := by
  obtain ⟨hH, hM, hL⟩ := hu
  set WR := 4.165e-5 / ((H0 / 100) * (H0 / 100)) with hWR
  have hWR0 : 0 ≤ WR := by positivity
  set az := 1 / (1 + z) with haz
  have haz0 : 0 < az := by positivity
  have haz1 : az ≤ 1 := by rw [haz, div_le_one (by linarith)]; linarith
  set g := fun x => 1 / a2H omegaM WR (1 - omegaM - WR) x with hg
  have hE : ∀ x, 0 < x → a2H omegaM WR (1 - omegaM - WR) x = Real.sqrt (omegaM * x + WR + (1 - omegaM - WR) * x ^ 4) := by
    intro x hx0
    unfold a2H
    have : omegaM * x + WR + (1 - omegaM - WR) * x ^ 4 =
        (x * x) ^ 2 * (omegaM / x ^ 3 + WR / x ^ 4 + (1 - omegaM - WR)) := by
      field_simp
    rw [this, Real.sqrt_mul (by positivity), Real.sqrt_sq (by positivity)]
  have hpos : ∀ x, az ≤ x → x ≤ 1 → x ^ 2 ≤ Real.sqrt (omegaM * x + WR + (1 - omegaM - WR) * x ^ 4) := by
    intro x h1 h2
    have hx0 : 0 < x := lt_of_lt_of_le haz0 h1
    have hx4x : x ^ 4 ≤ x := by
      calc x ^ 4 = x * x ^ 3 := by ring
        _ ≤ x * 1 := by
          apply mul_le_mul_of_nonneg_left (pow_le_one₀ hx0.le h2) hx0.le
        _ = x := mul_one x
    have hx4 : x ^ 4 ≤ 1 := pow_le_one₀ hx0.le h2
    have hlo : x ^ 4 ≤ omegaM * x + WR + (1 - omegaM - WR) * x ^ 4 := by nlinarith
    apply Real.le_sqrt_of_sq_le
    calc (x ^ 2) ^ 2 = x ^ 4 := by ring
      _ ≤ _ := hlo
  have hanti : AntitoneOn g (Set.Icc az 1) := by
    intro x hx y hy hxy
    have hx0 : 0 < x := lt_of_lt_of_le haz0 hx.1
    have hy0 : 0 < y := lt_of_lt_of_le haz0 hy.1
    simp only [hg]
    rw [hE x hx0, hE y hy0]
    apply one_div_le_one_div_of_le
    · exact lt_of_lt_of_le (by positivity) (hpos x hx.1 hx.2)
    · apply Real.sqrt_le_sqrt
      have : x ^ 4 ≤ y ^ 4 := pow_le_pow_left₀ hx0.le hxy 4
      nlinarith
  have hlen : (logspace az 1000).length = 1000 := by simp [logspace]
  have hget : ∀ (i : ℕ) (hi : i < 1000), (logspace az 1000)[i]'(by rw [hlen]; exact hi) = az ^ (1 - (i : ℝ) / (1000 - 1)) := by
    intro i hi
    have := logspace_get az haz0 1000 i hi
    rw [List.getElem?_eq_getElem (by rw [hlen]; exact hi)] at this
    simpa using this
  have hδ : (1 + z) ^ (-(1 : ℝ) / 999) = az ^ ((1 : ℝ) / 999) := by
    have e : -(1 : ℝ) / 999 = -(1 / 999) := neg_div _ _
    rw [haz, one_div (1 + z), Real.inv_rpow (by linarith), ← Real.rpow_neg (by linarith), e]
  have hδ1 : az ^ ((1 : ℝ) / 999) ≤ 1 := Real.rpow_le_one haz0.le haz1 (by norm_num)
  have hchain : (logspace az 1000).IsChain (fun a b => a ≤ b ∧ b - a ≤ 1 - az ^ ((1 : ℝ) / 999)) := by
    rw [List.isChain_iff_getElem]
    intro i hi
    rw [hlen] at hi
    rw [hget i (by omega), hget (i + 1) hi]
    have hi' : (i : ℝ) + 1 ≤ 999 := by exact_mod_cast (by omega : i + 1 ≤ 999)
    have e0 : az ^ (1 - (i : ℝ) / (1000 - 1)) = az ^ (1 - ((i + 1 : ℕ) : ℝ) / (1000 - 1)) * az ^ ((1 : ℝ) / 999) := by
      have e : 1 - (i : ℝ) / (1000 - 1) = 1 - ((i + 1 : ℕ) : ℝ) / (1000 - 1) + 1 / 999 := by
        rw [Nat.cast_add, Nat.cast_one]
        norm_num
        ring
      rw [← Real.rpow_add haz0, e]
    have e1 : az ^ (1 - ((i + 1 : ℕ) : ℝ) / (1000 - 1)) ≤ 1 := by
      apply Real.rpow_le_one haz0.le haz1
      push_cast
      have : ((i : ℝ) + 1) / (1000 - 1) ≤ 1 := by rw [div_le_one (by norm_num)]; linarith
      linarith
    have e2 : 0 < az ^ (1 - ((i + 1 : ℕ) : ℝ) / (1000 - 1)) := Real.rpow_pos_of_pos haz0 _
    rw [e0]
    exact step_bound e2 e1 hδ1
  obtain ⟨x, xs, hxs⟩ : ∃ x xs, logspace az 1000 = x :: xs := by
    cases h : logspace az 1000 with
    | nil => rw [h] at hlen; simp at hlen
    | cons x xs => exact ⟨x, xs, rfl⟩
  have hx : x = az := by
    have := hget 0 (by norm_num)
    simp only [hxs] at this
    simpa using this
  have hlast : (x :: xs).getLast (by simp) = 1 := by
    rw [List.getLast_eq_getElem]
    have hl : (x :: xs).length - 1 = 999 := by rw [← hxs, hlen]
    have := hget 999 (by norm_num)
    simp only [hxs] at this
    simp only [hl]
    rw [this]
    norm_num
  have hb := (trapz_antitone g (1 - az ^ ((1 : ℝ) / 999)) xs x (by rw [← hxs]; exact hchain)
    (by rw [hlast, hx]; exact hanti)).2 (by linarith)
  rw [hlast] at hb
  have hdc : dcmr H0 omegaM z = Absorbers.trapz ((x :: xs).map g) (x :: xs) := by
    rw [← hxs]
    unfold dcmr calculator
    dsimp only
    rw [← hWR, ← haz]
    field_simp
    rfl
  have hg1 : g 1 = 1 := by
    simp [hg, a2H]
  have hgaz : g az ≤ (1 + z) ^ 2 := by
    simp only [hg]
    rw [hE az haz0, div_le_iff₀ (lt_of_lt_of_le (by positivity) (hpos az (le_refl _) haz1))]
    have h1 : (1 + z) ^ 2 * az ^ 2 = 1 := by rw [haz]; field_simp
    have := mul_le_mul_of_nonneg_left (hpos az (le_refl _) haz1) (by positivity : 0 ≤ (1 + z) ^ 2)
    linarith
  have hint : ∫ a in az..1, 1 / (a ^ 2 * expansion H0 omegaM a) = ∫ t in x..1, g t := by
    rw [hx]
    apply intervalIntegral.integral_congr
    intro a _
    simp only [hg, a2H, expansion, hWR]
    rw [sq a, sq (H0 / 100)]
  rw [hdc, hint, hδ]
  refine hb.trans ?_
  rw [hg1, hx]
  apply mul_le_mul_of_nonneg_left (by linarith) (by linarith)

/-- Redshift 3 in a flat universe with a matter density of 0.3. -/
example := comoving_integral (H0 := 70) (omegaM := 0.3) ⟨by norm_num, by norm_num, by norm_num⟩ (z := 3) (by norm_num)

end Verif.Props.Emission
