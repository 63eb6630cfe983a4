import Verif.Model.Broadening
import Verif.Props.SpecTools
import Mathlib.Analysis.SpecialFunctions.Pow.Real
import Mathlib.Analysis.Complex.ExponentialBounds

/-!
C88: smoothing to the resolution of a spectrograph (spec_utils.py), and C49 with it.
-/

namespace Verif.Props
open Verif Verif.Np Verif.Broadening

/-! ### The filter -/

theorem weight_pos (sigma : ℝ) (x : ℤ) : 0 < weight sigma x := Real.exp_pos _

theorem mem_reach {sigma : ℝ} {x : ℤ} : x ∈ reach sigma ↔ |x| ≤ radius sigma := by
  unfold reach
  rw [List.mem_map, abs_le]
  constructor
  · rintro ⟨k, hk, rfl⟩
    rw [List.mem_range] at hk
    omega
  · rintro ⟨h1, h2⟩
    exact ⟨(x + radius sigma).toNat, by rw [List.mem_range]; omega, by omega⟩

theorem total_pos (sigma : ℝ) : 0 < ((reach sigma).map (weight sigma)).sum := by
  have h0 : (0 : ℤ) ∈ reach sigma := by rw [mem_reach]; simp
  have hnn : ∀ v ∈ (reach sigma).map (weight sigma), 0 ≤ v := by
    intro v hv
    obtain ⟨x, -, rfl⟩ := List.mem_map.1 hv
    exact (weight_pos _ _).le
  exact lt_of_lt_of_le (weight_pos sigma 0) (List.single_le_sum hnn _ (List.mem_map.2 ⟨0, h0, rfl⟩))

/-- The normalised weights. -/
noncomputable def kernelShare (sigma : ℝ) (x : ℤ) : ℝ := weight sigma x / ((reach sigma).map (weight sigma)).sum

theorem share_pos (sigma : ℝ) (x : ℤ) : 0 < kernelShare sigma x := div_pos (weight_pos _ _) (total_pos _)

theorem share_sum (sigma : ℝ) : ((reach sigma).map (kernelShare sigma)).sum = 1 := by
  have h : ∀ (l : List ℤ) (c : ℝ), (l.map (fun x => weight sigma x / c)).sum = (l.map (weight sigma)).sum / c := by
    intro l c
    induction l with
    | nil => simp
    | cons x l ih => simp only [List.map_cons, List.sum_cons, ih]; ring
  unfold kernelShare
  rw [h, div_self (total_pos sigma).ne']

/-- The width of the filter in pixels. -/
noncomputable def sigmaOf (dvbin fwhm : ℝ) : ℝ := fwhm / dvbin / (2 * √(2 * Real.log 2))

theorem log_two_root : 0 < √(2 * Real.log 2) := Real.sqrt_pos.2 (by have := Real.log_pos (by norm_num : (1 : ℝ) < 2); linarith)

theorem sigmaOf_pos {dvbin fwhm : ℝ} (hd : 0 < dvbin) (hf : 0 < fwhm) : 0 < sigmaOf dvbin fwhm := by
  have := log_two_root
  unfold sigmaOf
  positivity

theorem res_corr_eq {dvbin fwhm : ℝ} (hd : 0 < dvbin) (hf : 0 < fwhm) (flux : List ℝ) :
    res_corr flux dvbin fwhm = some ((List.range flux.length).map (fun (i : ℕ) =>
      ((reach (sigmaOf dvbin fwhm)).map (fun x => kernelShare (sigmaOf dvbin fwhm) x * flux.getD (((i : ℤ) + x) % (flux.length : ℤ)).toNat 0)).sum)) := by
  have h := sigmaOf_pos hd hf
  unfold res_corr gaussian_filter1d
  simp only
  rw [show fwhm / dvbin / (2 * √(2 * Real.log 2)) = sigmaOf dvbin fwhm from rfl, if_neg h.ne']
  rfl

/-- A weighted mean is between bounds of the values. -/
theorem weighted_between {l : List ℤ} {w f : ℤ → ℝ} {lo hi : ℝ} (hw : ∀ x ∈ l, 0 ≤ w x) (h : ∀ x ∈ l, lo ≤ f x ∧ f x ≤ hi) :
    (l.map w).sum * lo ≤ (l.map (fun x => w x * f x)).sum ∧ (l.map (fun x => w x * f x)).sum ≤ (l.map w).sum * hi := by
  induction l with
  | nil => simp
  | cons x l ih =>
    obtain ⟨i1, i2⟩ := ih (fun x hx => hw x (by simp [hx])) (fun x hx => h x (by simp [hx]))
    obtain ⟨h1, h2⟩ := h x (by simp)
    have h3 := hw x (by simp)
    simp only [List.map_cons, List.sum_cons, add_mul]
    exact ⟨add_le_add (mul_le_mul_of_nonneg_left h1 h3) i1, add_le_add (mul_le_mul_of_nonneg_left h2 h3) i2⟩

/-- C88: every spectrum can be smoothed to any resolution; the result has the same pixels, and no value is outside of the range of the spectrum. In
particular a constant spectrum stays as it is. -/
theorem res_corr_between {dvbin fwhm : ℝ} (hd : 0 < dvbin) (hf : 0 < fwhm) {flux : List ℝ} {lo hi : ℝ} (h : ∀ x ∈ flux, lo ≤ x ∧ x ≤ hi) :
    ∃ out, res_corr flux dvbin fwhm = some out ∧ out.length = flux.length ∧ ∀ y ∈ out, lo ≤ y ∧ y ≤ hi := by
  refine ⟨_, res_corr_eq hd hf flux, by simp, ?_⟩
  intro y hy
  obtain ⟨i, hi', rfl⟩ := List.mem_map.1 hy
  rw [List.mem_range] at hi'
  set σ := sigmaOf dvbin fwhm
  have hb := weighted_between (l := reach σ) (w := kernelShare σ) (f := fun x => flux.getD (((i : ℤ) + x) % (flux.length : ℤ)).toNat 0) (lo := lo) (hi := hi)
    (fun x _ => (share_pos _ _).le) (by
      intro x _
      have hl : (((i : ℤ) + x) % (flux.length : ℤ)).toNat < flux.length := by
        have h1 := Int.emod_nonneg ((i : ℤ) + x) (show (flux.length : ℤ) ≠ 0 by omega)
        have h2 := Int.emod_lt_of_pos ((i : ℤ) + x) (show (0 : ℤ) < flux.length by omega)
        omega
      rw [List.getD_eq_getElem?_getD, List.getElem?_eq_getElem hl, Option.getD_some]
      exact h _ (List.getElem_mem _))
  rw [share_sum, one_mul, one_mul] at hb
  exact hb

/-- Rotating the pixels does not change a sum over all of them. -/
theorem sum_rotate {n : ℕ} (hn : 0 < n) (f : ℕ → ℝ) (x : ℤ) :
    ∑ i ∈ Finset.range n, f (((i : ℤ) + x) % (n : ℤ)).toNat = ∑ i ∈ Finset.range n, f i := by
  have hpos : (0 : ℤ) < n := by exact_mod_cast hn
  apply Finset.sum_nbij' (fun (i : ℕ) => (((i : ℤ) + x) % (n : ℤ)).toNat) (fun (i : ℕ) => (((i : ℤ) - x) % (n : ℤ)).toNat)
  · intro i _
    have h1 := Int.emod_nonneg ((i : ℤ) + x) hpos.ne'
    have h2 := Int.emod_lt_of_pos ((i : ℤ) + x) hpos
    simp only [Finset.mem_range]; omega
  · intro i _
    have h1 := Int.emod_nonneg ((i : ℤ) - x) hpos.ne'
    have h2 := Int.emod_lt_of_pos ((i : ℤ) - x) hpos
    simp only [Finset.mem_range]; omega
  · intro i hi
    rw [Finset.mem_range] at hi
    have h1 := Int.emod_nonneg ((i : ℤ) + x) hpos.ne'
    rw [Int.toNat_of_nonneg h1, Int.emod_sub_emod, add_sub_cancel_right, Int.emod_eq_of_lt (by omega) (by omega)]
    omega
  · intro i hi
    rw [Finset.mem_range] at hi
    have h1 := Int.emod_nonneg ((i : ℤ) - x) hpos.ne'
    rw [Int.toNat_of_nonneg h1, Int.emod_add_emod, sub_add_cancel, Int.emod_eq_of_lt (by omega) (by omega)]
    omega
  · intro i _
    rfl

/-- C88: the mean over the periodic spectrum does not change. -/
theorem res_corr_mean {dvbin fwhm : ℝ} (hd : 0 < dvbin) (hf : 0 < fwhm) (flux : List ℝ) :
    ∃ out, res_corr flux dvbin fwhm = some out ∧ out.sum = flux.sum := by
  refine ⟨_, res_corr_eq hd hf flux, ?_⟩
  set σ := sigmaOf dvbin fwhm
  rcases Nat.eq_zero_or_pos flux.length with h0 | hn
  · rw [List.length_eq_zero_iff.1 h0]; simp
  have hsum : flux.sum = ∑ i ∈ Finset.range flux.length, flux.getD i 0 := by
    rw [← sum_map_range]
    congr 1
    apply List.ext_getElem
    · simp
    · intro i h1 h2
      simp [h1]
  have hl : ∀ l : List ℤ, ∑ i ∈ Finset.range flux.length, (l.map (fun x => kernelShare σ x * flux.getD (((i : ℤ) + x) % (flux.length : ℤ)).toNat 0)).sum =
      (l.map (kernelShare σ)).sum * flux.sum := by
    intro l
    induction l with
    | nil => simp
    | cons x l ih =>
      simp only [List.map_cons, List.sum_cons, Finset.sum_add_distrib, add_mul]
      rw [ih, ← Finset.mul_sum, sum_rotate hn (fun i => flux.getD i 0) x, ← hsum]
  rw [sum_map_range, hl, share_sum, one_mul]

example := res_corr_mean (dvbin := 2) (fwhm := 8) (by norm_num) (by norm_num) [0.2, 1, 0.5, 0.3]

/-- C88: where the periodic spectrum starts does not matter: smoothing a rolled spectrum gives the rolled smoothed spectrum. -/
theorem res_corr_roll {dvbin fwhm : ℝ} (hd : 0 < dvbin) (hf : 0 < fwhm) (flux : List ℝ) (k : ℤ) :
    ∃ out, res_corr flux dvbin fwhm = some out ∧ res_corr (roll flux k) dvbin fwhm = some (roll out k) := by
  refine ⟨_, res_corr_eq hd hf flux, ?_⟩
  rw [res_corr_eq hd hf]
  set σ := sigmaOf dvbin fwhm
  congr 1
  rcases Nat.eq_zero_or_pos flux.length with h0 | hn
  · rw [List.length_eq_zero_iff.1 h0]
    unfold roll
    simp
  have hpos : (0 : ℤ) < flux.length := by exact_mod_cast hn
  have hrl : (roll flux k).length = flux.length := roll_length _ _
  apply List.ext_getElem?
  intro i
  rcases Nat.lt_or_ge i flux.length with hi | hi
  · have hg := roll_get ((List.range flux.length).map (fun (i : ℕ) =>
      ((reach σ).map (fun x => kernelShare σ x * flux.getD (((i : ℤ) + x) % (flux.length : ℤ)).toNat 0)).sum)) k (i := i) (by simpa using hi)
    rw [hg]
    have h1 := Int.emod_nonneg ((i : ℤ) - k) hpos.ne'
    have h2 := Int.emod_lt_of_pos ((i : ℤ) - k) hpos
    have hlt : (((i : ℤ) - k) % (flux.length : ℤ)).toNat < flux.length := by omega
    rw [List.getElem?_map, List.getElem?_map, hrl, List.getElem?_range hi]
    simp only [List.length_map, List.length_range]
    rw [List.getElem?_range hlt]
    simp only [Option.map_some]
    congr 2
    apply List.map_congr_left
    intro x _
    congr 1
    have h3 := Int.emod_nonneg ((i : ℤ) + x) hpos.ne'
    have h4 := Int.emod_lt_of_pos ((i : ℤ) + x) hpos
    rw [List.getD_eq_getElem?_getD, List.getD_eq_getElem?_getD, roll_get flux k (by omega)]
    congr 3
    rw [Int.toNat_of_nonneg h3, Int.toNat_of_nonneg h1, Int.emod_sub_emod, Int.emod_add_emod]
    congr 1
    ring
  · rw [List.getElem?_eq_none (by simpa [hrl] using hi), List.getElem?_eq_none (by rw [roll_length]; simpa using hi)]

example := res_corr_roll (dvbin := 2) (fwhm := 8) (by norm_num) (by norm_num) [0.2, 1, 0.5, 0.3] 1

/-- C88, the resolution: an absorption line of one pixel in a spectrum that is long enough becomes a Gaussian whose full width at half maximum is the one asked
for. `k` pixels (of `dvbin`) from the line, the depth is `2^(-(k dvbin / (fwhm/2))²)` of that in the line's pixel, so a half at half of `fwhm`. -/
theorem res_corr_fwhm {dvbin fwhm : ℝ} (hd : 0 < dvbin) (hf : 0 < fwhm) {n p : ℕ} (hp : p < n) (hlong : 2 * radius (sigmaOf dvbin fwhm) < n) {k : ℤ}
    (hk : |k| ≤ radius (sigmaOf dvbin fwhm)) :
    ∃ out peak, res_corr ((List.range n).map (fun (i : ℕ) => if i = p then (1 : ℝ) else 0)) dvbin fwhm = some out ∧ 0 < peak ∧ out[p]? = some peak ∧
      out[(((p : ℤ) + k) % n).toNat]? = some (peak * 2 ^ (-((k : ℝ) * dvbin / (fwhm / 2)) ^ 2)) := by
  set σ := sigmaOf dvbin fwhm with hσ
  have hσ0 : 0 < σ := sigmaOf_pos hd hf
  have hn : (0 : ℤ) < n := by omega
  set flux := (List.range n).map (fun (i : ℕ) => if i = p then (1 : ℝ) else 0) with hflux
  have hfl : flux.length = n := by simp [hflux]
  have hget : ∀ j : ℕ, flux.getD j 0 = if j = p then (1 : ℝ) else 0 := by
    intro j
    rw [List.getD_eq_getElem?_getD, hflux, List.getElem?_map]
    rcases Nat.lt_or_ge j n with hj | hj
    · rw [List.getElem?_range hj]; rfl
    · rw [List.getElem?_eq_none (by simpa using hj), if_neg (by omega)]; rfl
  have hval : ∀ k : ℤ, |k| ≤ radius σ →
      ((reach σ).map (fun x => kernelShare σ x * flux.getD (((((((p : ℤ) + k) % n).toNat : ℕ) : ℤ) + x) % (flux.length : ℤ)).toNat 0)).sum = kernelShare σ k := by
    intro k hk
    have hmod : ∀ x : ℤ, |x| ≤ radius σ → ((((((((p : ℤ) + k) % n).toNat : ℕ) : ℤ) + x) % (n : ℤ)).toNat = p ↔ x = -k) := by
      intro x hx
      rw [Int.toNat_of_nonneg (Int.emod_nonneg _ hn.ne'), Int.emod_add_emod]
      rw [abs_le] at hx hk
      constructor
      · intro h
        have h1 := Int.emod_nonneg ((p : ℤ) + k + x) hn.ne'
        have h2 : ((p : ℤ) + k + x) % n = p := by omega
        have h3 := Int.emod_add_mul_ediv ((p : ℤ) + k + x) n
        rw [h2] at h3
        have h4 : k + x = n * (((p : ℤ) + k + x) / n) := by linarith
        have h5 : |k + x| < n := by rw [abs_lt]; constructor <;> omega
        have h6 : ((p : ℤ) + k + x) / n = 0 := by
          by_contra hne
          have : (n : ℤ) ≤ |k + x| := by
            rw [h4, abs_mul, abs_of_pos hn]
            exact le_mul_of_one_le_right hn.le (Int.one_le_abs hne)
          omega
        rw [h6] at h4
        omega
      · rintro rfl
        rw [show (p : ℤ) + k + -k = p by ring, Int.emod_eq_of_lt (by omega) (by omega)]
        omega
    have hform : (reach σ).map (fun x => kernelShare σ x * flux.getD (((((((p : ℤ) + k) % n).toNat : ℕ) : ℤ) + x) % (flux.length : ℤ)).toNat 0) =
        (reach σ).map (fun x => if x = -k then kernelShare σ x else 0) := by
      apply List.map_congr_left
      intro x hx
      rw [hget, hfl]
      have := hmod x (mem_reach.1 hx)
      by_cases hxk : x = -k
      · rw [if_pos (this.2 hxk), if_pos hxk, mul_one]
      · rw [if_neg (fun h => hxk (this.1 h)), if_neg hxk, mul_zero]
    rw [hform]
    have hnd : (reach σ).Nodup := by
      unfold reach
      refine List.Nodup.map ?_ (List.nodup_range)
      intro a b hab
      simp only at hab
      omega
    have hsum : ∀ l : List ℤ, l.Nodup → (l.map (fun x => if x = -k then kernelShare σ x else 0)).sum = if -k ∈ l then kernelShare σ (-k) else 0 := by
      intro l hl
      induction l with
      | nil => simp
      | cons x l ih =>
        rw [List.nodup_cons] at hl
        simp only [List.map_cons, List.sum_cons, ih hl.2, List.mem_cons]
        by_cases hx : x = -k
        · subst hx
          simp [hl.1]
        · have : -k ≠ x := fun h => hx h.symm
          simp [hx, this]
    rw [hsum _ hnd, if_pos (mem_reach.2 (by rw [abs_neg]; exact hk))]
    unfold kernelShare weight
    push_cast
    rw [neg_sq]
  have h0 : |(0 : ℤ)| ≤ radius σ := by simp
  refine ⟨_, kernelShare σ 0, res_corr_eq hd hf flux, share_pos _ _, ?_, ?_⟩
  · rw [hfl, List.getElem?_map, List.getElem?_range hp]
    have := hval 0 h0
    rw [add_zero, Int.emod_eq_of_lt (by omega) (by omega), Int.toNat_natCast, hfl] at this
    rw [Option.map_some, ← this]
  · have h1 := Int.emod_nonneg ((p : ℤ) + k) hn.ne'
    have h2 := Int.emod_lt_of_pos ((p : ℤ) + k) hn
    rw [hfl, List.getElem?_map, List.getElem?_range (by omega)]
    have := hval k hk
    rw [hfl] at this
    rw [Option.map_some, this]
    congr 1
    have h2' : (2 : ℝ) ^ (-((k : ℝ) * dvbin / (fwhm / 2)) ^ 2) = Real.exp (Real.log 2 * -((k : ℝ) * dvbin / (fwhm / 2)) ^ 2) := by
      rw [Real.rpow_def_of_pos (by norm_num)]
    have hl2 : √(2 * Real.log 2) ^ 2 = 2 * Real.log 2 := Real.sq_sqrt (by have := Real.log_pos (by norm_num : (1 : ℝ) < 2); linarith)
    have hlp := Real.log_pos (by norm_num : (1 : ℝ) < 2)
    have key : weight σ k = weight σ 0 * 2 ^ (-((k : ℝ) * dvbin / (fwhm / 2)) ^ 2) := by
      unfold weight
      rw [h2', ← Real.exp_add]
      congr 1
      rw [hσ]
      unfold sigmaOf
      rw [div_pow, div_pow, mul_pow, hl2]
      push_cast
      field_simp
      ring
    unfold kernelShare
    rw [key]
    ring

/-- C88 is false for a resolution of zero, which is the default of `Spectra` and should mean none: the result is not a number. -/
theorem res_corr_zero (flux : List ℝ) (dvbin : ℝ) : res_corr flux dvbin 0 = none := by
  unfold res_corr gaussian_filter1d
  simp

/-- C49 with the broadening: for a spectrograph of finite resolution and spectra with pixels, the line whose optical depth is returned is one with a measurable
peak, after broadening, whenever there is one. -/
theorem observer_tau_broadened_partial {dvbin spec_res : ℝ} (hd : 0 < dvbin) (hf : 0 < spec_res) {taus : List (List ℝ)} (hne : taus ≠ [])
    (hpix : ∀ t ∈ taus, t ≠ []) :
    ∃ (broad : List ℝ → List ℝ) (peak : List ℝ → ℝ), (∀ t ∈ taus, res_corr t dvbin spec_res = some (broad t) ∧ peak t ∈ broad t ∧ ∀ y ∈ broad t, y ≤ peak t) ∧
      ∃ t ∈ taus, observer_tau dvbin spec_res taus = .ok t ∧
        ((∃ x ∈ taus, Measurable (peak x)) → Measurable (peak t) ∧ ∀ x ∈ taus, Measurable (peak x) → peak x ≤ peak t) ∧
        ((∀ x ∈ taus, ¬Measurable (peak x)) → (∃ x ∈ taus, peak x > 0.1) →
          peak t > 0.1 ∧ ∀ x ∈ taus, peak x > 0.1 → peak t ≤ peak x) ∧
        ((∀ x ∈ taus, peak x ≤ 0.1) → ∀ x ∈ taus, peak x ≤ peak t) := by
  have hsome : ∀ t, ∃ o, res_corr t dvbin spec_res = some o ∧ o.length = t.length := by
    intro t
    exact ⟨_, res_corr_eq hd hf t, by simp⟩
  set broad : List ℝ → List ℝ := fun t => (res_corr t dvbin spec_res).getD [] with hbroad
  have hmax : ∀ t ∈ taus, ∃ m, maxOf (broad t) = .ok m ∧ m ∈ broad t ∧ ∀ y ∈ broad t, y ≤ m := by
    intro t ht
    obtain ⟨o, ho, hol⟩ := hsome t
    have hb : broad t = o := by simp [hbroad, ho]
    have hne : o ≠ [] := by
      intro h
      rw [h] at hol
      exact hpix t ht (List.length_eq_zero_iff.1 hol.symm)
    rw [hb]
    exact maxOf_spec hne
  classical
  let peak : List ℝ → ℝ := fun t => if h : ∃ m, maxOf (broad t) = .ok m ∧ m ∈ broad t ∧ ∀ y ∈ broad t, y ≤ m then h.choose else 0
  have hpeak : ∀ t ∈ taus, maxOf (broad t) = .ok (peak t) ∧ peak t ∈ broad t ∧ ∀ y ∈ broad t, y ≤ peak t := by
    intro t ht
    have h := hmax t ht
    simp only [peak, dif_pos h]
    exact h.choose_spec
  refine ⟨broad, peak, ?_, ?_⟩
  · intro t ht
    obtain ⟨o, ho, -⟩ := hsome t
    refine ⟨?_, (hpeak t ht).2.1, (hpeak t ht).2.2⟩
    rw [ho]
    simp [hbroad, ho]
  · obtain ⟨t, ht, h1, h2⟩ := observer_tau_spec (smooth := broad) hne (fun t ht => (hpeak t ht).1)
    refine ⟨t, ht, ?_, h2⟩
    unfold observer_tau
    rw [if_pos (by
      rw [List.all_eq_true]
      intro t _
      obtain ⟨o, ho, -⟩ := hsome t
      simp [ho])]
    exact h1

/-- C49 is false with the default resolution of zero: whatever the lines and spectra, there is an exception. -/
theorem observer_tau_no_resolution (dvbin : ℝ) {taus : List (List ℝ)} (hne : taus ≠ []) : observer_tau dvbin 0 taus = .error .valueError := by
  unfold observer_tau
  rw [if_neg]
  rw [List.all_eq_true]
  intro h
  obtain ⟨t, ht⟩ := List.exists_mem_of_ne_nil taus hne
  have := h t ht
  rw [res_corr_zero] at this
  exact absurd this (by simp)

/-! ### The hypotheses can be met -/

example : ∃ out, res_corr [0.2, 1, 0.5, 0.3] 2 8 = some out ∧ out.length = 4 ∧ ∀ y ∈ out, 0.2 ≤ y ∧ y ≤ 1 :=
  res_corr_between (by norm_num) (by norm_num) (by intro x hx; fin_cases hx <;> norm_num)

/-- For pixels of 2 km/s and 4 km/s resolution a spectrum of 9 pixels is long enough; one pixel from a line is half of the peak. -/
example : ∃ out peak, res_corr ((List.range 9).map (fun (i : ℕ) => if i = 2 then (1 : ℝ) else 0)) 2 4 = some out ∧ 0 < peak ∧ out[2]? = some peak ∧
    out[(((2 : ℕ) + (1 : ℤ)) % (9 : ℕ)).toNat]? = some (peak * 2 ^ (-(((1 : ℤ) : ℝ) * 2 / (4 / 2)) ^ 2)) := by
  have hlog : (0.5 : ℝ) < Real.log 2 ∧ Real.log 2 < 0.72 := ⟨by have := Real.log_two_gt_d9; linarith, by have := Real.log_two_lt_d9; linarith⟩
  have hs1 : 1 < √(2 * Real.log 2) := by rw [Real.lt_sqrt (by norm_num)]; linarith [hlog.1]
  have hs2 : √(2 * Real.log 2) < 1.2 := by rw [Real.sqrt_lt' (by norm_num)]; linarith [hlog.2]
  have hσ : sigmaOf 2 4 = 1 / √(2 * Real.log 2) := by unfold sigmaOf; field_simp; norm_num
  have h1 : sigmaOf 2 4 < 1 := by rw [hσ, div_lt_one (by linarith)]; exact hs1
  have h2 : 0.5 < sigmaOf 2 4 := by rw [hσ, lt_div_iff₀ (by linarith)]; linarith
  have hr1 : radius (sigmaOf 2 4) ≤ 4 := by
    unfold radius
    have : ⌊4 * sigmaOf 2 4 + 0.5⌋₊ < 5 := by
      rw [Nat.floor_lt (by linarith)]
      norm_num; linarith
    omega
  have hr2 : 1 ≤ radius (sigmaOf 2 4) := by
    unfold radius
    rw [Nat.le_floor_iff (by linarith)]
    norm_num; linarith
  exact res_corr_fwhm (by norm_num) (by norm_num) (by norm_num) (by omega) (by rw [abs_one]; exact_mod_cast hr2)

example : ∃ t ∈ ([[1, 2], [0.5, 0.2]] : List (List ℝ)), observer_tau 2 8 [[1, 2], [0.5, 0.2]] = .ok t := by
  obtain ⟨_, _, -, t, ht, h, -⟩ := observer_tau_broadened_partial (dvbin := 2) (spec_res := 8) (taus := [[1, 2], [0.5, 0.2]]) (by norm_num) (by norm_num) (by simp)
    (by simp)
  exact ⟨t, ht, h⟩

end Verif.Props
