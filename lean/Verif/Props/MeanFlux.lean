import Verif.Lemmas.MeanFlux
import Verif.Spec.Flux

/-!
C20: rescaling optical depths to a mean flux. `Spec.meanFluxOf us s` is the mean of `exp(-s t)`.
-/

namespace Verif.Props
open Verif Verif.MeanFlux Verif.Spec

/-- `mean_flux(tau, desired, tol, thresh)` returns `ν`. -/
def ReturnsScale (taus : List ℝ) (desired tol thresh ν : ℝ) : Prop :=
  ∃ fuel, mean_flux taus desired tol thresh fuel = some (some ν)

/-- The stand-alone `mean_flux(tau, nbins, obs_flux, tol)` returns `ν`. -/
def CReturnsScale (taus : List ℝ) (obs tol ν : ℝ) : Prop := ∃ fuel, c_mean_flux taus obs tol fuel = some (some ν)

theorem returns_unique {taus : List ℝ} {d tol th ν ν' : ℝ} (h : ReturnsScale taus d tol th ν)
    (h' : ReturnsScale taus d tol th ν') : ν = ν' := by
  obtain ⟨f, h⟩ := h
  obtain ⟨f', h'⟩ := h'
  unfold mean_flux at h h'
  by_cases h0 : taus.length = 0
  · rw [if_pos h0] at h h'
    simpa using h.symm.trans h'
  · rw [if_neg h0] at h h'
    have a := loop_mono h f'
    have b := loop_mono h' f
    rw [Nat.add_comm] at b
    simpa using a.symm.trans b

theorem fluxSum_eq (us : List ℝ) (hne : us ≠ []) (s : ℝ) : fluxSum us s = meanFluxOf us s * us.length := by
  have hl : (us.length : ℝ) ≠ 0 := by simpa using hne
  unfold meanFluxOf fluxSum
  rw [div_mul_cancel₀ _ hl]
  congr 1
  apply List.map_congr_left
  intro t _
  rw [neg_mul]

theorem clear_eq (us : List ℝ) (hne : us ≠ []) :
    ((us.filter (fun t => t = 0)).length : ℝ) = clearFraction us * us.length := by
  have hl : (us.length : ℝ) ≠ 0 := by simpa using hne
  unfold clearFraction
  rw [div_mul_cancel₀ _ hl, List.countP_eq_length_filter]

/-- Both loops: from any positive starting factor and with any lower limit `lo` in place of factors that are
not positive, where `lo` does not overshoot and either is positive or is never needed. -/
theorem newton_converges {us : List ℝ} (h : ∀ t ∈ us, 0 ≤ t) (hp : ∃ t ∈ us, 0 < t) {c tol start : ℝ}
    (hstart : 0 < start) (htol : 0 < tol) (htol1 : tol ≤ 1 / 2) (hclear : ((us.filter (fun t => t = 0)).length : ℝ) < c)
    {step : ℝ → Option ℝ} {ν₁ : ℝ}
    (hfirst : step start = some ν₁) (hν₁ : c ≤ fluxSum us ν₁) (hν₁p : 0 < ν₁)
    (hfirst' : |ν₁ - start| ≤ tol * ν₁ → ν₁ = start + (fluxSum us start - c) / tauFluxSum us start)
    (hstep : ∀ s, 0 < s → c ≤ fluxSum us s → step s = some (s + (fluxSum us s - c) / tauFluxSum us s)) :
    ∃ fuel ν, loop step tol fuel start = some (some ν) ∧ 0 < ν ∧ c ≤ fluxSum us ν ∧
      fluxSum us ν ≤ c + tol * us.length := by
  obtain ⟨S, hS⟩ := exists_below h hclear
  by_cases hc : |ν₁ - start| > tol * ν₁
  · obtain ⟨fuel, s', ν, a1, a2, a3, a4⟩ := loop_ends (step := step) (B := S) (P := fun s => ν₁ ≤ s ∧ c ≤ fluxSum us s)
      htol hν₁p (by
        rintro s ⟨h1, h2⟩
        have hd := tauFluxSum_pos h hp s
        have hge : 0 ≤ (fluxSum us s - c) / tauFluxSum us s := div_nonneg (by linarith) hd.le
        exact ⟨_, hstep s (by linarith) h2, ⟨by linarith, newton_below h hp rfl⟩, by linarith⟩) (by
        rintro s ⟨h1, h2⟩
        refine ⟨h1, ?_⟩
        by_contra hlt
        have := fluxSum_anti h (not_le.1 hlt).le
        linarith) ν₁ ⟨le_rfl, hν₁⟩
    have hs'p : 0 < s' := by linarith [a2.1]
    rw [hstep s' hs'p a2.2] at a3
    have hν := (Option.some.inj a3).symm
    have hd := tauFluxSum_pos h hp s'
    have hνp : 0 < ν := by
      rw [hν]
      have : 0 ≤ (fluxSum us s' - c) / tauFluxSum us s' := div_nonneg (by linarith [a2.2]) hd.le
      linarith
    refine ⟨fuel + 1, ν, ?_, hνp, newton_below h hp hν, newton_close h hp hν hνp htol htol1 a4⟩
    unfold loop
    rw [hfirst]
    dsimp only
    rw [if_pos hc]
    exact a1
  · have hc' := not_lt.1 hc
    refine ⟨1, ν₁, ?_, hν₁p, hν₁, newton_close h hp (hfirst' hc') hν₁p htol htol1 hc'⟩
    unfold loop
    rw [hfirst]
    dsimp only
    rw [if_neg hc]

/-- The pixels that count: those not above the threshold. -/
noncomputable abbrev Counted (taus : List ℝ) (thresh : ℝ) : List ℝ := taus.filter (fun t => t ≤ thresh)

/-- C20: for optical depths that are not negative, not all zero, and a target that is reachable (above the
fraction of clear pixels, and not above the mean flux at the smallest factor 1e-10), the rescaling returns a
positive factor; the mean flux it gives is not below the target and above it by at most the tolerance. -/
theorem mean_flux_converges {taus : List ℝ} {desired tol thresh : ℝ} (h : ∀ t ∈ taus, 0 ≤ t)
    (hp : ∃ t ∈ taus, 0 < t ∧ t ≤ thresh) (htol : 0 < tol) (htol1 : tol ≤ 1 / 2)
    (hlow : clearFraction (Counted taus thresh) < desired) (hhigh : desired ≤ meanFluxOf (Counted taus thresh) 1e-10) :
    ∃ ν, ReturnsScale taus desired tol thresh ν ∧ 0 < ν ∧ desired ≤ meanFluxOf (Counted taus thresh) ν ∧
      meanFluxOf (Counted taus thresh) ν ≤ desired + tol := by
  obtain ⟨t0, ht0, ht0p, ht0th⟩ := hp
  set us := Counted taus thresh with hus
  have husdef : used taus thresh = us := rfl
  have hmem : t0 ∈ us := List.mem_filter.2 ⟨ht0, by simpa using ht0th⟩
  have hne : us ≠ [] := List.ne_nil_of_mem hmem
  have hlen : (0 : ℝ) < us.length := by exact_mod_cast List.length_pos_iff.2 hne
  have h' : ∀ t ∈ us, 0 ≤ t := fun t ht => h t (List.mem_of_mem_filter ht)
  have hp' : ∃ t ∈ us, 0 < t := ⟨t0, hmem, ht0p⟩
  have hc1 : ((us.filter (fun t => t = 0)).length : ℝ) < desired * us.length := by
    rw [clear_eq us hne]; exact mul_lt_mul_of_pos_right hlow hlen
  have hc2 : desired * us.length ≤ fluxSum us 1e-10 := by
    rw [fluxSum_eq us hne]; exact mul_le_mul_of_nonneg_right hhigh hlen.le
  have hstep : ∀ s, newScale taus desired thresh s =
      if s + (fluxSum us s - desired * us.length) / tauFluxSum us s ≤ 0 then some 1e-10
      else some (s + (fluxSum us s - desired * us.length) / tauFluxSum us s) := by
    intro s
    unfold newScale
    dsimp only
    rw [husdef, if_neg (tauFluxSum_pos h' hp' s).ne']
  obtain ⟨ν₁, hν₁, hν₁c, hν₁p, hν₁r⟩ : ∃ ν₁, newScale taus desired thresh 1 = some ν₁ ∧
      desired * us.length ≤ fluxSum us ν₁ ∧ 0 < ν₁ ∧
      (|ν₁ - 1| ≤ tol * ν₁ → ν₁ = 1 + (fluxSum us 1 - desired * us.length) / tauFluxSum us 1) := by
    rw [hstep]
    by_cases hle : 1 + (fluxSum us 1 - desired * us.length) / tauFluxSum us 1 ≤ 0
    · rw [if_pos hle]
      refine ⟨_, rfl, hc2, by norm_num, ?_⟩
      intro hx
      exfalso
      rw [abs_of_nonpos (by norm_num)] at hx
      nlinarith
    · rw [if_neg hle]
      exact ⟨_, rfl, newton_below h' hp' rfl, not_le.1 hle, fun _ => rfl⟩
  obtain ⟨fuel, ν, a1, a2, a3, a4⟩ := newton_converges h' hp' one_pos htol htol1 hc1 hν₁ hν₁c hν₁p hν₁r (by
    intro s hs hcs
    rw [hstep, if_neg]
    have : 0 ≤ (fluxSum us s - desired * us.length) / tauFluxSum us s :=
      div_nonneg (by linarith) (tauFluxSum_pos h' hp' s).le
    linarith)
  refine ⟨ν, ⟨fuel, ?_⟩, a2, ?_, ?_⟩
  · unfold mean_flux get_mean_flux_scale
    rw [if_neg (by simpa using List.ne_nil_of_mem ht0)]
    exact a1
  · rw [fluxSum_eq us hne] at a3
    exact le_of_mul_le_mul_right a3 hlen
  · rw [fluxSum_eq us hne, ← add_mul] at a4
    exact le_of_mul_le_mul_right a4 hlen

/-- C20: the returned factor never exceeds a factor that matches the target exactly. -/
theorem mean_flux_underestimates {taus : List ℝ} {desired tol thresh ν r : ℝ} (h : ∀ t ∈ taus, 0 ≤ t)
    (hp : ∃ t ∈ taus, 0 < t ∧ t ≤ thresh) (htol : 0 < tol) (htol1 : tol ≤ 1 / 2)
    (hlow : clearFraction (Counted taus thresh) < desired) (hhigh : desired ≤ meanFluxOf (Counted taus thresh) 1e-10)
    (hν : ReturnsScale taus desired tol thresh ν) (hr : meanFluxOf (Counted taus thresh) r = desired) : ν ≤ r := by
  obtain ⟨ν', h1, h2, h3, -⟩ := mean_flux_converges h hp htol htol1 hlow hhigh
  obtain rfl := returns_unique hν h1
  by_contra hlt
  have hlt := not_le.1 hlt
  obtain ⟨t0, ht0, ht0p, ht0th⟩ := hp
  have hmem : t0 ∈ Counted taus thresh := List.mem_filter.2 ⟨ht0, by simpa using ht0th⟩
  have hstrict : fluxSum (Counted taus thresh) ν < fluxSum (Counted taus thresh) r := by
    unfold fluxSum
    apply List.sum_lt_sum
    · intro t ht
      exact Real.exp_le_exp.2 (by nlinarith [h t (List.mem_of_mem_filter ht)])
    · exact ⟨t0, hmem, Real.exp_lt_exp.2 (by nlinarith)⟩
  have hne : Counted taus thresh ≠ [] := List.ne_nil_of_mem hmem
  have hlen : (0 : ℝ) < (Counted taus thresh).length := by exact_mod_cast List.length_pos_iff.2 hne
  rw [fluxSum_eq _ hne, fluxSum_eq _ hne, hr] at hstrict
  have := lt_of_mul_lt_mul_right hstrict hlen.le
  linarith

/-- The factors the loop goes through, from the start; `none` once one is not finite. -/
noncomputable def scales (taus : List ℝ) (desired thresh : ℝ) : ℕ → Option ℝ
  | 0 => some 1
  | n + 1 => (scales taus desired thresh n).bind (newScale taus desired thresh)

/-- C20: from the first new factor on, the factors increase and none exceeds one that matches the target. -/
theorem mean_flux_increases {taus : List ℝ} {desired thresh : ℝ} (h : ∀ t ∈ taus, 0 ≤ t)
    (hp : ∃ t ∈ taus, 0 < t ∧ t ≤ thresh) (hhigh : desired ≤ meanFluxOf (Counted taus thresh) 1e-10) (n : ℕ) :
    ∃ s s', scales taus desired thresh (n + 1) = some s ∧ scales taus desired thresh (n + 2) = some s' ∧ 0 < s ∧ s ≤ s' ∧
      ∀ r, meanFluxOf (Counted taus thresh) r < desired → s' < r := by
  obtain ⟨t0, ht0, ht0p, ht0th⟩ := hp
  set us := Counted taus thresh with hus
  have husdef : used taus thresh = us := rfl
  have hmem : t0 ∈ us := List.mem_filter.2 ⟨ht0, by simpa using ht0th⟩
  have hne : us ≠ [] := List.ne_nil_of_mem hmem
  have hlen : (0 : ℝ) < us.length := by exact_mod_cast List.length_pos_iff.2 hne
  have h' : ∀ t ∈ us, 0 ≤ t := fun t ht => h t (List.mem_of_mem_filter ht)
  have hp' : ∃ t ∈ us, 0 < t := ⟨t0, hmem, ht0p⟩
  have hc2 : desired * us.length ≤ fluxSum us 1e-10 := by
    rw [fluxSum_eq us hne]; exact mul_le_mul_of_nonneg_right hhigh hlen.le
  have hstep : ∀ s, newScale taus desired thresh s =
      if s + (fluxSum us s - desired * us.length) / tauFluxSum us s ≤ 0 then some 1e-10
      else some (s + (fluxSum us s - desired * us.length) / tauFluxSum us s) := by
    intro s
    unfold newScale
    dsimp only
    rw [husdef, if_neg (tauFluxSum_pos h' hp' s).ne']
  have hone : ∀ s, ∃ ν, newScale taus desired thresh s = some ν ∧ 0 < ν ∧ desired * us.length ≤ fluxSum us ν := by
    intro s
    rw [hstep]
    by_cases hle : s + (fluxSum us s - desired * us.length) / tauFluxSum us s ≤ 0
    · rw [if_pos hle]
      exact ⟨_, rfl, by norm_num, hc2⟩
    · rw [if_neg hle]
      exact ⟨_, rfl, not_le.1 hle, newton_below h' hp' rfl⟩
  have hsc : ∀ n, ∃ s, scales taus desired thresh (n + 1) = some s ∧ 0 < s ∧ desired * us.length ≤ fluxSum us s := by
    intro n
    induction n with
    | zero => exact hone 1
    | succ n ih =>
      obtain ⟨s, hs, -, -⟩ := ih
      obtain ⟨ν, hν⟩ := hone s
      refine ⟨ν, ?_, hν.2⟩
      change (scales taus desired thresh (n + 1)).bind _ = _
      rw [hs]; exact hν.1
  obtain ⟨s, hs, hsp, hsc1⟩ := hsc n
  obtain ⟨s', hs', hsp', hsc'⟩ := hsc (n + 1)
  refine ⟨s, s', hs, hs', hsp, ?_, ?_⟩
  · have : scales taus desired thresh (n + 2) = newScale taus desired thresh s := by
      change (scales taus desired thresh (n + 1)).bind _ = _
      rw [hs]; rfl
    rw [hs', hstep] at this
    have hge : 0 ≤ (fluxSum us s - desired * us.length) / tauFluxSum us s :=
      div_nonneg (by linarith) (tauFluxSum_pos h' hp' s).le
    rw [if_neg (by linarith)] at this
    rw [Option.some.inj this]
    linarith
  · intro r hr
    by_contra hle
    have h1 := fluxSum_anti h' (not_lt.1 hle)
    have h2 : fluxSum us r < desired * us.length := by
      rw [fluxSum_eq us hne]; exact mul_lt_mul_of_pos_right hr hlen
    linarith

/-- Witness: two pixels with optical depths 0 and 2 and a target of 0.7. -/
example : ∃ ν, ReturnsScale [0, 2] 0.7 1e-5 1e30 ν ∧ 0 < ν ∧ 0.7 ≤ meanFluxOf (Counted [0, 2] 1e30) ν ∧
    meanFluxOf (Counted [0, 2] 1e30) ν ≤ 0.7 + 1e-5 := by
  have hc : Counted [0, 2] (1e30 : ℝ) = [0, 2] := by norm_num [Counted]
  refine mean_flux_converges (by simp) ⟨2, by simp, by norm_num, by norm_num⟩ (by norm_num) (by norm_num) ?_ ?_
  · rw [hc]; norm_num [clearFraction, List.countP_cons]
  · rw [hc]
    have h1 := Real.add_one_le_exp (-(1e-10 * 2))
    norm_num [meanFluxOf] at h1 ⊢
    linarith

/-- C20, the stand-alone program: with a reachable target below 1 it returns a positive factor that matches
it to the tolerance. -/
theorem c_mean_flux_converges {taus : List ℝ} {obs tol : ℝ} (h : ∀ t ∈ taus, 0 ≤ t) (hp : ∃ t ∈ taus, 0 < t)
    (htol : 0 < tol) (htol1 : tol ≤ 1 / 2) (hlow : clearFraction taus < obs) (hhigh : obs < 1) :
    ∃ ν, CReturnsScale taus obs tol ν ∧ 0 < ν ∧ obs ≤ meanFluxOf taus ν ∧ meanFluxOf taus ν ≤ obs + tol := by
  obtain ⟨t0, hmem, ht0p⟩ := hp
  have hp' : ∃ t ∈ taus, 0 < t := ⟨t0, hmem, ht0p⟩
  have hne : taus ≠ [] := List.ne_nil_of_mem hmem
  have hlen : (0 : ℝ) < taus.length := by exact_mod_cast List.length_pos_iff.2 hne
  have hc1 : ((taus.filter (fun t => t = 0)).length : ℝ) < obs * taus.length := by
    rw [clear_eq taus hne]; exact mul_lt_mul_of_pos_right hlow hlen
  have hstep : ∀ s, cNewScale taus obs s =
      if s + (fluxSum taus s - obs * taus.length) / tauFluxSum taus s < 0 then some 0
      else some (s + (fluxSum taus s - obs * taus.length) / tauFluxSum taus s) := by
    intro s
    unfold cNewScale
    dsimp only
    rw [if_neg (tauFluxSum_pos h hp' s).ne']
  have h0 : fluxSum taus 0 = taus.length := by simp [fluxSum]
  have hnum0 : obs * taus.length < fluxSum taus 0 := by rw [h0]; nlinarith
  have hgood : ∀ s, 0 ≤ s → obs * taus.length ≤ fluxSum taus s →
      cNewScale taus obs s = some (s + (fluxSum taus s - obs * taus.length) / tauFluxSum taus s) := by
    intro s hs hcs
    rw [hstep, if_neg]
    have : 0 ≤ (fluxSum taus s - obs * taus.length) / tauFluxSum taus s :=
      div_nonneg (by linarith) (tauFluxSum_pos h hp' s).le
    linarith
  have hfin : ∃ fuel ν, loop (cNewScale taus obs) tol fuel 100 = some (some ν) ∧ 0 < ν ∧
      obs * taus.length ≤ fluxSum taus ν ∧ fluxSum taus ν ≤ obs * taus.length + tol * taus.length := by
    -- from 0 the next factor is positive
    have hzero : ∃ fuel ν, loop (cNewScale taus obs) tol fuel 0 = some (some ν) ∧ 0 < ν ∧
        obs * taus.length ≤ fluxSum taus ν ∧ fluxSum taus ν ≤ obs * taus.length + tol * taus.length := by
      have hz := hgood 0 le_rfl hnum0.le
      have hνp : 0 < 0 + (fluxSum taus 0 - obs * taus.length) / tauFluxSum taus 0 := by
        rw [zero_add]; exact div_pos (by linarith) (tauFluxSum_pos h hp' 0)
      set ν₁ := 0 + (fluxSum taus 0 - obs * taus.length) / tauFluxSum taus 0 with hν₁
      have hν₁c : obs * taus.length ≤ fluxSum taus ν₁ := newton_below h hp' hν₁
      have hge : 0 ≤ (fluxSum taus ν₁ - obs * taus.length) / tauFluxSum taus ν₁ :=
        div_nonneg (by linarith) (tauFluxSum_pos h hp' ν₁).le
      obtain ⟨fuel, ν, a1, a2⟩ := newton_converges (start := ν₁) h hp' hνp htol htol1 hc1 (hgood ν₁ hνp.le hν₁c)
        (newton_below h hp' rfl) (by linarith) (fun _ => rfl) (fun s hs hcs => hgood s hs.le hcs)
      refine ⟨fuel + 1, ν, ?_, a2⟩
      unfold loop
      rw [hz]
      dsimp only
      rw [if_pos]
      · exact a1
      · rw [sub_zero, abs_of_pos hνp]; nlinarith
    by_cases hlt : (100 : ℝ) + (fluxSum taus 100 - obs * taus.length) / tauFluxSum taus 100 < 0
    · obtain ⟨fuel, ν, a1, a2⟩ := hzero
      refine ⟨fuel + 1, ν, ?_, a2⟩
      unfold loop
      rw [hstep, if_pos hlt]
      dsimp only
      rw [if_pos (by norm_num)]
      exact a1
    · rcases (not_lt.1 hlt).lt_or_eq with hpos | heq
      · exact newton_converges h hp' (by norm_num) htol htol1 hc1 (by rw [hstep, if_neg hlt])
          (newton_below h hp' rfl) hpos (fun _ => rfl) (fun s hs hcs => hgood s hs.le hcs)
      · obtain ⟨fuel, ν, a1, a2⟩ := hzero
        refine ⟨fuel + 1, ν, ?_, a2⟩
        unfold loop
        rw [hstep, if_neg hlt, ← heq]
        dsimp only
        rw [if_pos (by norm_num)]
        exact a1
  obtain ⟨fuel, ν, a1, a2, a3, a4⟩ := hfin
  refine ⟨ν, ⟨fuel, a1⟩, a2, ?_, ?_⟩
  · rw [fluxSum_eq taus hne] at a3
    exact le_of_mul_le_mul_right a3 hlen
  · rw [fluxSum_eq taus hne, ← add_mul] at a4
    exact le_of_mul_le_mul_right a4 hlen

/-- C20: a target of 1 or more cannot be met: the result is the lower limit 1e-10. -/
theorem mean_flux_above_one {taus : List ℝ} {desired tol thresh : ℝ} (h : ∀ t ∈ taus, 0 ≤ t)
    (hp : ∃ t ∈ taus, 0 < t ∧ t ≤ thresh) (htol : 0 < tol) (htol1 : tol ≤ 1 / 2) (hd : 1 ≤ desired) :
    ReturnsScale taus desired tol thresh 1e-10 := by
  obtain ⟨t0, ht0, ht0p, ht0th⟩ := hp
  have husdef : used taus thresh = Counted taus thresh := rfl
  set us := Counted taus thresh with hus
  have hmem : t0 ∈ us := List.mem_filter.2 ⟨ht0, by simpa using ht0th⟩
  have hne : us ≠ [] := List.ne_nil_of_mem hmem
  have hlen : (0 : ℝ) < us.length := by exact_mod_cast List.length_pos_iff.2 hne
  have h' : ∀ t ∈ us, 0 ≤ t := fun t ht => h t (List.mem_of_mem_filter ht)
  have hp' : ∃ t ∈ us, 0 < t := ⟨t0, hmem, ht0p⟩
  have h0 : fluxSum us 0 = us.length := by simp [fluxSum]
  have hstep : ∀ s, newScale taus desired thresh s = some 1e-10 := by
    intro s
    unfold newScale
    dsimp only
    have hdp := tauFluxSum_pos h' hp' s
    rw [husdef, if_neg hdp.ne', if_pos]
    have ht := tangent_le us s 0
    have : (fluxSum us s - desired * us.length) / tauFluxSum us s ≤ -s := by
      rw [div_le_iff₀ hdp]
      rw [h0] at ht
      nlinarith
    linarith
  refine ⟨2, ?_⟩
  unfold mean_flux get_mean_flux_scale
  rw [if_neg (by simpa using List.ne_nil_of_mem ht0)]
  unfold loop
  rw [hstep]
  dsimp only
  rw [if_pos]
  · unfold loop
    rw [hstep]
    dsimp only
    rw [if_neg]
    rw [sub_self, abs_zero, not_lt]
    positivity
  · rw [abs_of_nonpos (by norm_num)]
    nlinarith

/-- Disagreement: a target below the fraction of clear pixels cannot be met by any factor. The iteration does
not notice: in exact arithmetic it never ends. -/
theorem mean_flux_never_ends {taus : List ℝ} {desired tol thresh : ℝ} (h : ∀ t ∈ taus, 0 ≤ t)
    (hp : ∃ t ∈ taus, 0 < t ∧ t ≤ thresh) (htol : 0 < tol) (htol1 : tol < 1)
    (hlow : tol / (1 - tol) < clearFraction (Counted taus thresh) - desired) (fuel : ℕ) :
    mean_flux taus desired tol thresh fuel = none := by
  obtain ⟨t0, ht0, ht0p, ht0th⟩ := hp
  have husdef : used taus thresh = Counted taus thresh := rfl
  set us := Counted taus thresh with hus
  have hmem : t0 ∈ us := List.mem_filter.2 ⟨ht0, by simpa using ht0th⟩
  have hne : us ≠ [] := List.ne_nil_of_mem hmem
  have hlen : (0 : ℝ) < us.length := by exact_mod_cast List.length_pos_iff.2 hne
  have h' : ∀ t ∈ us, 0 ≤ t := fun t ht => h t (List.mem_of_mem_filter ht)
  have hp' : ∃ t ∈ us, 0 < t := ⟨t0, hmem, ht0p⟩
  have hclear : ∀ s, ((us.filter (fun t => t = 0)).length : ℝ) ≤ fluxSum us s := by
    intro s
    clear hlow hp' hmem hne hlen husdef hus
    clear_value us
    induction us with
    | nil => simp [fluxSum]
    | cons u us ih =>
      have e2 : fluxSum (u :: us) s = Real.exp (-s * u) + fluxSum us s := by simp [fluxSum]
      have ih' := ih (fun t ht => h' t (by simp [ht]))
      rw [e2]
      by_cases hu : u = 0
      · subst hu
        rw [List.filter_cons_of_pos (by simp)]
        push_cast [List.length_cons]
        simp only [mul_zero, Real.exp_zero]
        linarith
      · rw [List.filter_cons_of_neg (by simpa using hu)]
        have := Real.exp_pos (-s * u)
        linarith
  have hgrow : ∀ s, 0 < s → ∃ ν, newScale taus desired thresh s = some ν ∧ 0 < ν ∧ |ν - s| > tol * ν := by
    intro s hs
    have hdp := tauFluxSum_pos h' hp' s
    have hdle := tauFluxSum_le (us := us) hs
    have hc := hclear s
    rw [clear_eq us hne] at hc
    have hgap : tol / (1 - tol) * us.length < fluxSum us s - desired * us.length := by nlinarith
    have he : Real.exp (-1) < 1 := by
      have := Real.exp_neg_one_lt_d9
      linarith
    have h1t : 0 < 1 - tol := by linarith
    have hq : tol / (1 - tol) * s < (fluxSum us s - desired * us.length) / tauFluxSum us s := by
      rw [lt_div_iff₀ hdp]
      have h1 : tol / (1 - tol) * s * tauFluxSum us s ≤ tol / (1 - tol) * s * (us.length * (Real.exp (-1) / s)) :=
        mul_le_mul_of_nonneg_left hdle (by positivity)
      have h2 : tol / (1 - tol) * s * (us.length * (Real.exp (-1) / s)) = tol / (1 - tol) * us.length * Real.exp (-1) := by
        field_simp
      have h3 : tol / (1 - tol) * us.length * Real.exp (-1) ≤ tol / (1 - tol) * us.length :=
        mul_le_of_le_one_right (by positivity) he.le
      linarith
    set d := (fluxSum us s - desired * us.length) / tauFluxSum us s with hd
    have hdpos : 0 < d := lt_of_le_of_lt (by positivity) hq
    refine ⟨s + d, ?_, by linarith, ?_⟩
    · unfold newScale
      dsimp only
      rw [husdef, if_neg hdp.ne', if_neg (by linarith)]
    · rw [add_sub_cancel_left, abs_of_pos hdpos]
      have : tol * s < d * (1 - tol) := by
        rw [div_mul_eq_mul_div, div_lt_iff₀ h1t] at hq
        exact hq
      nlinarith
  unfold mean_flux get_mean_flux_scale
  rw [if_neg (by simpa using List.ne_nil_of_mem ht0)]
  have : ∀ fuel s, 0 < s → loop (newScale taus desired thresh) tol fuel s = none := by
    intro fuel
    induction fuel with
    | zero => intro s _; rfl
    | succ fuel ih =>
      intro s hs
      obtain ⟨ν, h1, h2, h3⟩ := hgrow s hs
      unfold loop
      rw [h1]
      dsimp only
      rw [if_pos h3]
      exact ih ν h2
  exact this fuel 1 one_pos

/-- Witness: half of the pixels clear, a target of 0.1. -/
example (fuel : ℕ) : mean_flux [0, 2] 0.1 1e-5 1e30 fuel = none := by
  have hc : Counted [0, 2] (1e30 : ℝ) = [0, 2] := by norm_num [Counted]
  refine mean_flux_never_ends (by simp) ⟨2, by simp, by norm_num, by norm_num⟩ (by norm_num) (by norm_num) ?_ fuel
  rw [hc]; norm_num [clearFraction, List.countP_cons]

/-- Disagreement: without any absorption and a target below 1 the result is not a finite number. -/
theorem mean_flux_no_absorption {taus : List ℝ} {desired tol thresh : ℝ} (hne : taus ≠ []) (h : ∀ t ∈ taus, t = 0)
    (hth : 0 ≤ thresh) (hd : desired ≤ 1) : mean_flux taus desired tol thresh 1 = some none := by
  have hus : used taus thresh = taus := by
    unfold used
    rw [List.filter_eq_self]
    intro t ht
    simpa [h t ht] using hth
  have h1 : fluxSum taus 1 = taus.length := by
    unfold fluxSum
    rw [List.map_congr_left (g := fun _ => (1 : ℝ)) (by intro t ht; rw [h t ht]; simp)]
    simp
  have h2 : tauFluxSum taus 1 = 0 := by
    unfold tauFluxSum
    rw [List.map_congr_left (g := fun _ => (0 : ℝ)) (by intro t ht; rw [h t ht]; simp)]
    simp
  have h3 : newScale taus desired thresh 1 = none := by
    unfold newScale
    dsimp only
    rw [hus, h1, h2, if_pos rfl, if_neg]
    rw [not_lt]
    have : (0 : ℝ) ≤ taus.length := Nat.cast_nonneg _
    nlinarith
  unfold mean_flux get_mean_flux_scale loop
  rw [if_neg (by simpa using hne), h3]

/-- Witness for the previous. -/
example : mean_flux [0, 0, 0] 0.8 1e-5 1e30 1 = some none :=
  mean_flux_no_absorption (by simp) (by simp) (by norm_num) (by norm_num)

/-- C20: no optical depths at all: the factor is zero, without a loop. -/
theorem mean_flux_empty (desired tol thresh : ℝ) (fuel : ℕ) : mean_flux [] desired tol thresh fuel = some (some 0) := rfl

/-- C20: the order of the pixels, and so the way the threads divide them, does not matter. -/
theorem mean_flux_perm {taus taus' : List ℝ} (hp : taus.Perm taus') (desired tol thresh : ℝ) (fuel : ℕ) :
    mean_flux taus desired tol thresh fuel = mean_flux taus' desired tol thresh fuel := by
  have hs : newScale taus desired thresh = newScale taus' desired thresh := by
    funext s
    have hu : (used taus thresh).Perm (used taus' thresh) := hp.filter _
    unfold newScale fluxSum tauFluxSum
    dsimp only
    rw [(hu.map _).sum_eq, (hu.map _).sum_eq, hu.length_eq]
  unfold mean_flux get_mean_flux_scale
  rw [hs, hp.length_eq]

/-! Witnesses for the other theorems: one clear and one absorbed pixel. -/

example := c_mean_flux_converges (taus := [0, 2]) (obs := 0.7) (tol := 1e-5) (by simp) ⟨2, by simp, by norm_num⟩ (by norm_num) (by norm_num)
  (by norm_num [clearFraction]) (by norm_num)

example := mean_flux_above_one (taus := [0, 2]) (desired := 1) (tol := 1e-5) (thresh := 1e30) (by simp) ⟨2, by simp, by norm_num, by norm_num⟩
  (by norm_num) (by norm_num) le_rfl

end Verif.Props
