import Verif.Props.CTools
import Verif.Props.FluxPower

/-!
C45: the flux power spectrum of the stand-alone C tools.
-/

namespace Verif.Props.CTools
open Verif Verif.CTools Verif.FluxStats Verif.Spec

theorem norm_sq_mode (x : List ℝ) (k : ℕ) : ((rfft x k).re ^ 2 + (rfft x k).im ^ 2) / (x.length : ℝ) ^ 2 = modePower x k := by
  rw [← powerspectrum_eq]
  unfold FluxStats.powerspectrum
  rw [Complex.sq_norm, Complex.normSq_apply]
  ring

/-- C45. Away from the first element the power is that of the discrete Fourier mode. -/
theorem c_mode (x : List ℝ) {k : ℕ} (hk : k ≠ 0) : CTools.powerspectrum x.length (rfft x) k = modePower x k := by
  unfold CTools.powerspectrum
  dsimp only
  rw [if_neg hk, if_neg (by tauto), norm_sq_mode]

theorem rfft_zero (x : List ℝ) : rfft x 0 = (x.sum : ℂ) := by
  unfold rfft
  have : ∀ j ∈ Finset.range x.length, (x.getD j 0 : ℂ) * Complex.exp (-(2 * Real.pi * j * (0 : ℕ) / x.length) * Complex.I) =
      ((x.getD j 0 : ℝ) : ℂ) := by
    intro j _
    simp
  rw [Finset.sum_congr rfl this, ← Complex.ofReal_sum]
  congr 1
  rw [← Np.sum_map_range]
  congr 1
  apply List.ext_getElem?
  intro i
  by_cases hi : i < x.length
  · rw [List.getElem?_map, List.getElem?_range hi, List.getElem?_eq_getElem hi]
    simp [List.getD, hi]
  · rw [List.getElem?_eq_none (by simpa using hi), List.getElem?_eq_none (by simpa using hi)]

/-- C45. For an odd number of pixels the first element is the square of the mean. -/
theorem c_zero_odd (x : List ℝ) (hodd : x.length % 2 = 1) :
    CTools.powerspectrum x.length (rfft x) 0 = (x.sum / x.length) ^ 2 := by
  unfold CTools.powerspectrum
  dsimp only
  rw [if_pos rfl, if_neg (by omega), rfft_zero, Complex.ofReal_re, div_pow]

/-- C45 is false for an even number of pixels, which is what the extractor writes: the first element is the power of the
highest frequency, the sum with alternating signs, and has nothing to do with the mean. -/
theorem c_zero_even (x : List ℝ) (heven : x.length % 2 = 0) (hx : x ≠ []) :
    CTools.powerspectrum x.length (rfft x) 0 = (∑ j ∈ Finset.range x.length, (-1) ^ j * x.getD j 0) ^ 2 / (x.length : ℝ) ^ 2 := by
  unfold CTools.powerspectrum
  dsimp only
  rw [if_pos ⟨heven, rfl⟩]
  congr 2
  have hn : (x.length : ℂ) ≠ 0 := by
    have := List.length_pos_iff.2 hx
    exact_mod_cast (by omega : x.length ≠ 0)
  have hterm : ∀ j ∈ Finset.range x.length, (x.getD j 0 : ℂ) *
      Complex.exp (-(2 * Real.pi * j * (x.length / 2 : ℕ) / x.length) * Complex.I) = (((-1) ^ j * x.getD j 0 : ℝ) : ℂ) := by
    intro j _
    have hhalf : ((x.length / 2 : ℕ) : ℂ) = x.length / 2 := by
      have : 2 * (x.length / 2) = x.length := by omega
      have h2 : (2 : ℂ) * ((x.length / 2 : ℕ) : ℂ) = x.length := by exact_mod_cast this
      rw [← h2]
      ring
    have harg : (-(2 * Real.pi * j * (x.length / 2 : ℕ) / x.length) * Complex.I : ℂ) = j * (-(Real.pi * Complex.I)) := by
      rw [hhalf]
      field_simp
    rw [harg, Complex.exp_nat_mul, Complex.exp_neg, Complex.exp_pi_mul_I]
    push_cast
    have : (-1 : ℂ)⁻¹ = -1 := by norm_num
    rw [this]
    ring
  unfold rfft
  rw [Finset.sum_congr rfl hterm, ← Complex.ofReal_sum, Complex.ofReal_re]

/-- A constant: the first element is 0, the square of the mean is 1. -/
theorem c_zero_constant : CTools.powerspectrum 4 (rfft [1, 1, 1, 1]) 0 = 0 ∧ ([1, 1, 1, 1] : List ℝ).sum / 4 = 1 := by
  constructor
  · have := c_zero_even [1, 1, 1, 1] (by simp) (by simp)
    simp only [List.length_cons, List.length_nil] at this
    rw [this]
    norm_num [Finset.sum_range_succ]
  · norm_num

/-- C45. For an odd number of pixels all power is accounted for: the first element and twice the others add up to the mean
square. -/
theorem c_variance (x : List ℝ) (hodd : x.length % 2 = 1) :
    CTools.powerspectrum x.length (rfft x) 0 +
        2 * ∑ k ∈ Finset.range ((x.length + 1) / 2 - 1), CTools.powerspectrum x.length (rfft x) (k + 1) =
      (∑ j ∈ Finset.range x.length, x.getD j 0 ^ 2) / x.length := by
  have hx : x ≠ [] := by rintro rfl; simp at hodd
  rw [← parseval x hx]
  have h0 : CTools.powerspectrum x.length (rfft x) 0 = modePower x 0 := by
    rw [← norm_sq_mode]
    unfold CTools.powerspectrum
    dsimp only
    rw [if_pos rfl, if_neg (by omega), rfft_zero]
    simp
  obtain ⟨m, hm⟩ : ∃ m, x.length = 2 * m + 1 := ⟨x.length / 2, by omega⟩
  have hhalf : (x.length + 1) / 2 - 1 = m := by omega
  have hsum : ∑ k ∈ Finset.range x.length, modePower x k =
      modePower x 0 + (∑ k ∈ Finset.range m, modePower x (k + 1)) + ∑ k ∈ Finset.range m, modePower x (m + 1 + k) := by
    have : x.length = (m + 1) + m := by omega
    rw [this, Finset.sum_range_add, Finset.sum_range_succ']
    ring
  have hmir : ∑ k ∈ Finset.range m, modePower x (m + 1 + k) = ∑ k ∈ Finset.range m, modePower x (k + 1) := by
    rw [← Finset.sum_range_reflect]
    apply Finset.sum_congr rfl
    intro k hk
    rw [Finset.mem_range] at hk
    rw [← modePower_mirror x (k := k + 1) (by omega) hx]
    congr 1
    omega
  rw [h0, hhalf, hsum, hmir, Finset.sum_congr rfl (fun k _ => c_mode x (k := k + 1) (by omega))]
  ring

example : ([1, 2, 3] : List ℝ).length % 2 = 1 := by simp

/-! ### The average over sightlines -/

/-- The transmitted flux relative to the mean, of one sightline of optical depths scaled by `scale`. -/
noncomputable def contrast (scale tau_eff : ℝ) (row : List ℝ) : List ℝ := row.map (fun t => Real.exp (-(t * scale) + tau_eff) - 1)

/-- The power of element `k` of one sightline, averaged with its neighbours: the first element alone, the second with itself
in the place of the first, the last with nothing beyond it. -/
noncomputable def band (P : ℕ → ℝ) (n k : ℕ) : ℝ :=
  if k = 0 then P 0 else (P (max (k - 1) 1) + P k + (if k + 1 < n then P (k + 1) else 0)) / 3

theorem smoothedPower_spec (nbins : ℕ) (hn : 5 ≤ nbins) (flux : List ℝ) :
    smoothedPower nbins flux = .ok ((List.range ((nbins + 1) / 2)).map
      (fun k => band (CTools.powerspectrum nbins (rfft flux)) ((nbins + 1) / 2) k)) := by
  set n := (nbins + 1) / 2 with hnn
  have hn3 : 3 ≤ n := by omega
  set P := CTools.powerspectrum nbins (rfft flux) with hP
  have hdl : ((List.range n).map P).drop 1 = (List.range (n - 1)).map (fun k => P (k + 1)) := by
    apply List.ext_getElem?
    intro i
    rw [List.getElem?_drop, List.getElem?_map, List.getElem?_map]
    by_cases hi : i < n - 1
    · rw [List.getElem?_range hi, List.getElem?_range (by omega)]
      simp [add_comm]
    · rw [List.getElem?_eq_none (by simp; omega), List.getElem?_eq_none (by simp; omega)]
      rfl
  have hlen : (((List.range n).map P).drop 1).length = n - 1 := by simp
  obtain ⟨r, h1, h2, h3⟩ := smooth_spec (((List.range n).map P).drop 1) (List.replicate (n - 1) 0) (by simp) 3 (by norm_num)
    (by rw [hlen]; omega)
  rw [hlen] at h1 h2 h3
  have hcast : ((n - 1 : ℕ) : ℤ) = (n : ℤ) - 1 := by omega
  rw [hcast] at h1
  unfold smoothedPower
  dsimp only
  rw [← hnn, ← hP]
  have h1' : smooth (((List.range n).map P).drop 1) (List.replicate (n - 1) 0) ((n : ℤ) - 1) 3 = .ok r := h1
  simp only [bind, Except.bind]
  rw [h1']
  simp only [pure, Except.pure]
  congr 1
  apply List.ext_getElem?
  intro i
  have htake : ((List.range n).map P).take 1 = [P 0] := by
    obtain ⟨m, hm⟩ : ∃ m, n = m + 1 := ⟨n - 1, by omega⟩
    rw [hm, List.range_succ_eq_map]
    rfl
  rw [htake]
  have hpad : ∀ j : ℤ, padded (((List.range n).map P).drop 1) j =
      if j < 0 then P 1 else if j.toNat < n - 1 then P (j.toNat + 1) else 0 := by
    intro j
    unfold padded
    rw [hdl]
    split
    · simp [List.getD, List.getElem?_range (by omega : 0 < n - 1)]
    · split
      · rename_i h
        simp [List.getD, List.getElem?_range h]
      · exact getD_out (by simp; omega)
  cases i with
  | zero =>
    rw [List.getElem?_map, List.getElem?_range (by omega)]
    simp [band]
  | succ i =>
    rw [List.singleton_append, List.getElem?_cons_succ]
    by_cases hi : i < n - 1
    · rw [h3 i hi, List.getElem?_map, List.getElem?_range (by omega)]
      simp only [Option.map_some]
      congr 1
      have h31 : (3 - 1) / 2 = 1 := by norm_num
      rw [h31]
      have e0 : padded (((List.range n).map P).drop 1) ((i : ℤ) - (1 : ℕ) + (0 : ℕ)) = P (max (i + 1 - 1) 1) := by
        rw [hpad]
        by_cases h0 : i = 0
        · subst h0
          simp
        · rw [if_neg (by omega), if_pos (by omega)]
          congr 1
          omega
      have e1 : padded (((List.range n).map P).drop 1) ((i : ℤ) - (1 : ℕ) + (1 : ℕ)) = P (i + 1) := by
        rw [hpad, if_neg (by omega), if_pos (by omega)]
        congr 1
        omega
      have e2 : padded (((List.range n).map P).drop 1) ((i : ℤ) - (1 : ℕ) + (2 : ℕ)) =
          if i + 1 + 1 < n then P (i + 1 + 1) else 0 := by
        rw [hpad, if_neg (by omega)]
        by_cases hl : i + 1 + 1 < n
        · rw [if_pos (by omega), if_pos hl]
          congr 1
          omega
        · rw [if_neg (by omega), if_neg hl]
      have h21 : 2 * 1 + 1 = 3 := by norm_num
      rw [h21, Finset.sum_range_succ, Finset.sum_range_succ, Finset.sum_range_succ, Finset.sum_range_zero, e0, e1, e2]
      unfold band
      rw [if_neg (Nat.succ_ne_zero i), zero_add]
      norm_num
    · rw [List.getElem?_eq_none (by omega), List.getElem?_eq_none (by simp; omega)]

/-- C45. The power returned: the mean over sightlines of the power of each, averaged over three neighbouring wave numbers.
The optical depths are left multiplied by the scale. -/
theorem calc_power_spec (nbins : ℕ) (hn : 5 ≤ nbins) (rows : List (List ℝ)) (scale tau_eff : ℝ) :
    ∃ p, calc_power_spectra nbins rows scale tau_eff = .ok (p, rows.map (fun row => row.map (fun t => t * scale))) ∧
      p.length = (nbins + 1) / 2 ∧ ∀ k < (nbins + 1) / 2, p[k]? = some ((rows.map (fun row =>
        band (CTools.powerspectrum nbins (rfft (contrast scale tau_eff row))) ((nbins + 1) / 2) k)).sum / rows.length) := by
  set n := (nbins + 1) / 2 with hnn
  have hfold : ∀ (rs : List (List ℝ)) (acc : List ℝ), acc.length = n →
      ∃ q, rs.foldlM (fun acc row => (do
          let p ← smoothedPower nbins (fluxRow tau_eff row)
          pure (List.zipWith (· + ·) acc p) : CRes (List ℝ))) acc = .ok q ∧ q.length = n ∧
        ∀ k < n, q[k]? = some (acc.getD k 0 + (rs.map (fun row =>
          band (CTools.powerspectrum nbins (rfft (fluxRow tau_eff row))) n k)).sum) := by
    intro rs
    induction rs with
    | nil =>
      intro acc ha
      refine ⟨acc, rfl, ha, ?_⟩
      intro k hk
      simp [List.getD, List.getElem?_eq_getElem (ha ▸ hk)]
    | cons row rs ih =>
      intro acc ha
      obtain ⟨q, h1, h2, h3⟩ := ih (List.zipWith (· + ·) acc ((List.range n).map
        (fun k => band (CTools.powerspectrum nbins (rfft (fluxRow tau_eff row))) n k))) (by simp [ha])
      refine ⟨q, ?_, h2, ?_⟩
      · rw [List.foldlM_cons, smoothedPower_spec nbins hn]
        exact h1
      · intro k hk
        rw [h3 k hk, List.map_cons, List.sum_cons]
        congr 1
        have : (List.zipWith (· + ·) acc ((List.range n).map
            (fun k => band (CTools.powerspectrum nbins (rfft (fluxRow tau_eff row))) n k))).getD k 0 =
            acc.getD k 0 + band (CTools.powerspectrum nbins (rfft (fluxRow tau_eff row))) n k := by
          simp [List.getD, List.getElem?_zipWith, List.getElem?_eq_getElem (ha ▸ hk), List.getElem?_range hk]
        rw [this]
        ring
  obtain ⟨q, h1, h2, h3⟩ := hfold (rows.map (fun row => row.map (fun t => t * scale))) (List.replicate n 0) (by simp)
  refine ⟨q.map (fun x => x / rows.length), ?_, by simp [h2], ?_⟩
  · unfold calc_power_spectra
    dsimp only
    rw [← hnn]
    simp only [bind, Except.bind] at h1 ⊢
    rw [h1]
    simp [pure, Except.pure]
  · intro k hk
    rw [List.getElem?_map, h3 k hk]
    have hflux : ∀ row : List ℝ, fluxRow tau_eff (row.map (fun t => t * scale)) = contrast scale tau_eff row := by
      intro row
      unfold fluxRow contrast
      rw [List.map_map]
      apply List.map_congr_left
      intro t _
      simp only [Function.comp]
      rw [← Real.exp_sub]
      congr 2
      ring
    rw [List.map_map]
    have hcomp : ((fun row => band (CTools.powerspectrum nbins (rfft (fluxRow tau_eff row))) n k) ∘
        fun row : List ℝ => row.map (fun t => t * scale)) =
        (fun row => band (CTools.powerspectrum nbins (rfft (contrast scale tau_eff row))) n k) := by
      funext row
      simp only [Function.comp, hflux]
    rw [hcomp]
    simp [List.getD, hk]

/-- For fewer than five pixels the smoothing leaves its arrays. -/
theorem few_pixels (nbins : ℕ) (hn : nbins < 5) (flux : List ℝ) : ∃ e, smoothedPower nbins flux = .error e := by
  set n := (nbins + 1) / 2 with hnn
  have hlen : (((List.range n).map (CTools.powerspectrum nbins (rfft flux))).drop 1).length = n - 1 := by simp
  unfold smoothedPower
  dsimp only
  rw [← hnn]
  by_cases h0 : n = 0
  · refine ⟨.outOfBounds, ?_⟩
    rw [h0]
    have : smooth [] [] (((0 : ℕ) : ℤ) - 1) 3 = .error .outOfBounds := by
      unfold smooth
      have h1 : ((3 : ℤ) - 1).tdiv 2 = 1 := by decide
      rw [h1]
      have h2 : intRange 0 1 = [0] := by decide
      have h4 : intRange (-1) 0 = [-1] := by decide
      simp [h2, h4, addReads, readAt, bind, Except.bind]
    simp [bind, Except.bind] at this ⊢
    rw [this]
  · have := (smooth_safe_iff (((List.range n).map (CTools.powerspectrum nbins (rfft flux))).drop 1)
      (List.replicate (n - 1) 0) (by simp) 3 (by norm_num)).not.2 (by rw [hlen]; omega)
    rw [hlen] at this
    have hcast : ((n - 1 : ℕ) : ℤ) = (n : ℤ) - 1 := by omega
    rw [hcast] at this
    cases hs : smooth (((List.range n).map (CTools.powerspectrum nbins (rfft flux))).drop 1) (List.replicate (n - 1) 0)
        ((n : ℤ) - 1) 3 with
    | error e =>
      exact ⟨e, by simp only [bind, Except.bind, hs]⟩
    | ok r => exact absurd ⟨r, hs⟩ this

/-- Calling it a second time on the same arrays scales the optical depths once more. -/
theorem calc_power_twice (nbins : ℕ) (hn : 5 ≤ nbins) (rows : List (List ℝ)) (scale tau_eff : ℝ) {p : List ℝ}
    {rows' : List (List ℝ)} (h : calc_power_spectra nbins rows scale tau_eff = .ok (p, rows')) :
    (calc_power_spectra nbins rows' scale tau_eff).map Prod.fst =
      (calc_power_spectra nbins rows (scale * scale) tau_eff).map Prod.fst := by
  obtain ⟨q, h1, _⟩ := calc_power_spec nbins hn rows scale tau_eff
  rw [h] at h1
  cases h1
  obtain ⟨a, a1, a2, a3⟩ := calc_power_spec nbins hn (rows.map (fun row => row.map (fun t => t * scale))) scale tau_eff
  obtain ⟨b, b1, b2, b3⟩ := calc_power_spec nbins hn rows (scale * scale) tau_eff
  rw [a1, b1]
  simp only [Except.map]
  congr 1
  apply List.ext_getElem?
  intro k
  by_cases hk : k < (nbins + 1) / 2
  · rw [a3 k hk, b3 k hk, List.map_map, List.length_map]
    congr 3
    apply List.map_congr_left
    intro row _
    simp only [Function.comp]
    congr 2
    unfold contrast
    rw [List.map_map]
    congr 1
    apply List.map_congr_left
    intro t _
    simp only [Function.comp]
    congr 2
    ring
  · rw [List.getElem?_eq_none (by omega), List.getElem?_eq_none (by omega)]

/-- The hypotheses hold for the 1024 pixels the extractor writes. -/
example : 5 ≤ 1024 := by norm_num

/-! Witnesses for the hypotheses of the theorems above. -/

example := c_mode [1, 2, 3, 2] (k := 1) (by norm_num)

example := c_zero_odd [1, 2, 3] (by simp)

example := c_zero_even [1, 2, 3, 2] (by simp) (by simp)

example := calc_power_spec 5 le_rfl [[1, 2, 3, 2, 0], [0, 0, 1, 2, 0]] 0.9 0.3

example := few_pixels 4 (by norm_num) [1, 2, 3, 2]

end Verif.Props.CTools
