import Verif.Model.FluxStats
import Verif.Spec.Flux
import Mathlib.Algebra.BigOperators.Field
import Mathlib.Data.List.GetD

/-!
C22: the one-dimensional flux power spectrum.
-/

namespace Verif.Props
open Verif Verif.Np Verif.FluxStats Verif.Spec

theorem take_slice {α : Type} (a : List α) {lo hi : ℕ} (h : lo ≤ hi) : a.take hi = a.take lo ++ slice a lo hi := by
  unfold slice
  conv_lhs => rw [← List.take_append_drop lo (a.take hi)]
  rw [List.take_take, min_eq_left h]

/-- The ten batches add up to the whole. -/
theorem batches_sum (rows : List (List ℝ)) (f : List ℝ → ℝ) :
    ((List.range 10).map (fun i => ((batch rows i).map f).sum)).sum = (rows.map f).sum := by
  have H : ∀ m, m ≤ 10 → ((List.range m).map (fun i => ((batch rows i).map f).sum)).sum =
      ((rows.take (m * rows.length / 10)).map f).sum := by
    intro m
    induction m with
    | zero => intro _; simp
    | succ m ih =>
      intro hm
      have hle : (m + 1) * rows.length / 10 ≤ rows.length := by
        have h1 : (m + 1) * rows.length ≤ 10 * rows.length := Nat.mul_le_mul_right _ hm
        omega
      have hmono : m * rows.length / 10 ≤ (m + 1) * rows.length / 10 := by
        apply Nat.div_le_div_right
        exact Nat.mul_le_mul_right _ (by omega)
      rw [List.range_succ, List.map_append, List.sum_append, ih (by omega), take_slice rows hmono, List.map_append,
        List.sum_append]
      have hb : batch rows m = slice rows (m * rows.length / 10) ((m + 1) * rows.length / 10) := by
        unfold batch
        rw [min_eq_left hle]
      rw [← hb]
      simp
  have := H 10 le_rfl
  rw [this]
  congr 2
  rw [List.take_of_length_le]
  omega

/-- The modelled transform is the specification's. -/
theorem powerspectrum_eq (x : List ℝ) (k : ℕ) : powerspectrum x k = modePower x k := by
  unfold powerspectrum modePower
  congr 1
  rw [Complex.sq_norm, Complex.normSq_apply]
  have hterm : ∀ j : ℕ, ((x.getD j 0 : ℝ) : ℂ) * Complex.exp (-(2 * Real.pi * j * k / x.length) * Complex.I) =
      ⟨x.getD j 0 * Real.cos (2 * Real.pi * j * k / x.length), -(x.getD j 0 * Real.sin (2 * Real.pi * j * k / x.length))⟩ := by
    intro j
    have : (-(2 * Real.pi * j * k / x.length) * Complex.I : ℂ) = ((-(2 * Real.pi * j * k / x.length) : ℝ) : ℂ) * Complex.I := by
      push_cast; ring
    rw [this]
    apply Complex.ext
    · rw [Complex.re_ofReal_mul, Complex.exp_ofReal_mul_I_re, Real.cos_neg]
    · rw [Complex.im_ofReal_mul, Complex.exp_ofReal_mul_I_im, Real.sin_neg]
      ring
  have hre : (rfft x k).re = ∑ j ∈ Finset.range x.length, x.getD j 0 * Real.cos (2 * Real.pi * j * k / x.length) := by
    unfold rfft
    rw [Complex.re_sum]
    apply Finset.sum_congr rfl
    intro j _
    rw [hterm]
  have him : (rfft x k).im = -∑ j ∈ Finset.range x.length, x.getD j 0 * Real.sin (2 * Real.pi * j * k / x.length) := by
    unfold rfft
    rw [Complex.im_sum, ← Finset.sum_neg_distrib]
    apply Finset.sum_congr rfl
    intro j _
    rw [hterm]
  rw [hre, him]
  ring

theorem dflux_eq (s mf : ℝ) (row : List ℝ) : dflux s mf row = fluctuation s mf row := by
  unfold dflux fluctuation
  apply List.map_congr_left
  intro t _
  rw [neg_mul]

/-- The mean flux the fluctuations are relative to: the target, or that of the spectra themselves. -/
noncomputable def referenceFlux (rows : List (List ℝ)) (desired : Option ℝ) : ℝ :=
  match desired with
  | some d => d
  | none => meanFluxOf rows.flatten 1

theorem usedMeanFlux_eq (rows : List (List ℝ)) (desired : Option ℝ) :
    usedMeanFlux rows desired = referenceFlux rows desired := by
  unfold usedMeanFlux referenceFlux
  cases desired with
  | some d => rfl
  | none =>
    unfold meanFluxOf mean
    rw [List.length_map]
    simp only [one_mul, Option.getD_none]

/-- C22: the flux power at each wave number is `vmax` times the mean over the sightlines, each counted once, of
the power of that sightline's flux fluctuations, whatever the number of sightlines and pixels. -/
theorem flux_power_mean (rows : List (List ℝ)) (vmax scale : ℝ) (desired : Option ℝ) (k : ℕ) :
    flux_power rows vmax scale desired k =
      vmax * ((rows.map (fun row => modePower (fluctuation scale (referenceFlux rows desired) row) k)).sum / rows.length) := by
  unfold flux_power
  have hf : ∀ (l : List ℕ) (g : ℕ → ℝ) (a : ℝ), l.foldl (fun acc i => acc + vmax * g i) a = a + vmax * (l.map g).sum := by
    intro l g
    induction l with
    | nil => intro a; simp
    | cons i l ih => intro a; rw [List.foldl_cons, ih, List.map_cons, List.sum_cons]; ring
  rw [hf (List.range 10) (fun i => ((batch rows i).map
    (fun row => powerspectrum (dflux scale (usedMeanFlux rows desired) row) k)).sum)]
  rw [batches_sum rows (fun row => powerspectrum (dflux scale (usedMeanFlux rows desired) row) k)]
  rw [zero_add, mul_div_assoc]
  congr 3
  apply List.map_congr_left
  intro row _
  rw [powerspectrum_eq, dflux_eq, usedMeanFlux_eq]

theorem modePower_nonneg (x : List ℝ) (k : ℕ) : 0 ≤ modePower x k := by unfold modePower; positivity

/-- C22: the flux power is not negative. -/
theorem flux_power_nonneg (rows : List (List ℝ)) {vmax : ℝ} (hv : 0 ≤ vmax) (scale : ℝ) (desired : Option ℝ) (k : ℕ) :
    0 ≤ flux_power rows vmax scale desired k := by
  rw [flux_power_mean]
  apply mul_nonneg hv
  apply div_nonneg _ (Nat.cast_nonneg _)
  apply List.sum_nonneg
  intro x hx
  obtain ⟨r, -, rfl⟩ := List.mem_map.1 hx
  exact modePower_nonneg _ _

/-- C22: the order of the sightlines does not matter. -/
theorem flux_power_perm {rows rows' : List (List ℝ)} (h : rows.Perm rows') (vmax scale : ℝ) (desired : Option ℝ) (k : ℕ) :
    flux_power rows vmax scale desired k = flux_power rows' vmax scale desired k := by
  have href : referenceFlux rows desired = referenceFlux rows' desired := by
    unfold referenceFlux
    cases desired with
    | some d => rfl
    | none =>
      unfold meanFluxOf
      have hp : rows.flatten.Perm rows'.flatten := h.flatten
      dsimp only
      rw [(hp.map _).sum_eq, hp.length_eq]
  rw [flux_power_mean, flux_power_mean, href, (h.map _).sum_eq, h.length_eq]

/-- `exp` of the phase. -/
noncomputable def phase (n : ℕ) (m : ℂ) : ℂ := Complex.exp (-(2 * Real.pi * m / n) * Complex.I)

theorem phase_add (n : ℕ) (a b : ℂ) : phase n (a + b) = phase n a * phase n b := by
  unfold phase
  rw [← Complex.exp_add]
  congr 1
  ring

theorem phase_period {n : ℕ} (hn : n ≠ 0) (m : ℕ) : phase n ((n : ℂ) * m) = 1 := by
  unfold phase
  rw [Complex.exp_eq_one_iff]
  refine ⟨-m, ?_⟩
  have : (n : ℂ) ≠ 0 := by exact_mod_cast hn
  push_cast
  field_simp

theorem phase_norm (n : ℕ) (a : ℝ) : ‖phase n a‖ = 1 := by
  unfold phase
  have : (-(2 * Real.pi * a / n) * Complex.I : ℂ) = ((-(2 * Real.pi * a / n) : ℝ) : ℂ) * Complex.I := by push_cast; ring
  rw [this, Complex.norm_exp_ofReal_mul_I]

theorem rfft_eq (x : List ℝ) (k : ℕ) :
    rfft x k = ∑ j ∈ Finset.range x.length, (x.getD j 0 : ℂ) * phase x.length ((j : ℂ) * k) := by
  unfold rfft phase
  apply Finset.sum_congr rfl
  intro j _
  congr 3
  ring

/-- One step of a cyclic shift multiplies the transform by a phase. -/
theorem rfft_rotate_one (x : List ℝ) (k : ℕ) : ‖rfft (x.rotate 1) k‖ = ‖rfft x k‖ := by
  cases x with
  | nil => rfl
  | cons a l =>
    have hrot : (a :: l).rotate 1 = l ++ [a] := by simp
    have hlen : (l ++ [a]).length = (a :: l).length := by simp
    set n := (a :: l).length with hn
    have hn0 : n ≠ 0 := by simp [hn]
    have e1 : rfft ((a :: l).rotate 1) k = phase n (-(k : ℂ)) * rfft (a :: l) k := by
      rw [hrot, rfft_eq, rfft_eq, hlen, ← hn, Finset.mul_sum, show n = l.length + 1 from rfl, Finset.sum_range_succ,
        Finset.sum_range_succ', ← show n = l.length + 1 from rfl]
      congr 1
      · apply Finset.sum_congr rfl
        intro j hj
        have hj' := Finset.mem_range.1 hj
        have h1 : (l ++ [a]).getD j 0 = l.getD j 0 := by
          rw [List.getD_append _ _ _ _ hj']
        rw [h1, List.getD_cons_succ]
        have h2 : phase n ((j : ℂ) * k) = phase n (-(k : ℂ)) * phase n (((j + 1 : ℕ) : ℂ) * k) := by
          rw [← phase_add]; congr 1; push_cast; ring
        rw [h2]; ring
      · have h1 : (l ++ [a]).getD l.length 0 = a := by
          rw [List.getD_append_right _ _ _ _ le_rfl]; simp
        rw [h1, List.getD_cons_zero]
        have h2 : phase n ((l.length : ℂ) * k) = phase n (-(k : ℂ)) * phase n (((0 : ℕ) : ℂ) * k) := by
          rw [← phase_add]
          have h3 : ((l.length : ℂ) * k) = (-(k : ℂ) + ((0 : ℕ) : ℂ) * k) + (n : ℂ) * k := by
            have : (n : ℂ) = l.length + 1 := by simp [hn]
            rw [this]; push_cast; ring
          rw [h3, phase_add, phase_period hn0, mul_one]
        rw [h2]; ring
    rw [e1, norm_mul]
    have : phase n (-(k : ℂ)) = phase n ((-(k : ℝ) : ℝ) : ℂ) := by push_cast; rfl
    rw [this, phase_norm, one_mul]

theorem powerspectrum_rotate (x : List ℝ) (s k : ℕ) : powerspectrum (x.rotate s) k = powerspectrum x k := by
  induction s with
  | zero => simp
  | succ s ih =>
    have : x.rotate (s + 1) = (x.rotate s).rotate 1 := by rw [List.rotate_rotate]
    rw [this]
    unfold powerspectrum at ih ⊢
    rw [rfft_rotate_one, List.length_rotate]
    exact ih

/-- C22: cyclically shifting the spectra, each by its own number of pixels, does not change the flux power. So
the choice of the origin of the box along the sightlines does not matter. -/
theorem flux_power_shift (rows rows' : List (List ℝ)) (h : List.Forall₂ (fun r r' => ∃ s, r' = r.rotate s) rows rows')
    (vmax scale : ℝ) (desired : Option ℝ) (k : ℕ) :
    flux_power rows' vmax scale desired k = flux_power rows vmax scale desired k := by
  have hlen : rows'.length = rows.length := h.length_eq.symm
  have href : referenceFlux rows' desired = referenceFlux rows desired := by
    unfold referenceFlux
    cases desired with
    | some d => rfl
    | none =>
      have hp : rows'.flatten.Perm rows.flatten := by
        clear hlen
        induction h with
        | nil => exact List.Perm.refl _
        | cons hr _ ih =>
          obtain ⟨s, rfl⟩ := hr
          rw [List.flatten_cons, List.flatten_cons]
          exact (List.rotate_perm _ s).append ih
      unfold meanFluxOf
      dsimp only
      rw [(hp.map _).sum_eq, hp.length_eq]
  rw [flux_power_mean, flux_power_mean, href, hlen]
  congr 3
  generalize referenceFlux rows desired = mf
  clear href hlen
  induction h with
  | nil => rfl
  | cons hr _ ih =>
    obtain ⟨s, rfl⟩ := hr
    rw [List.map_cons, List.map_cons, ih]
    congr 1
    rw [← powerspectrum_eq, ← powerspectrum_eq]
    unfold fluctuation
    rw [List.map_rotate, powerspectrum_rotate]

/-- Sums over a full set of phases. -/
theorem phase_orthogonal {n : ℕ} {j l : ℕ} (hj : j < n) (hl : l < n) :
    ∑ k ∈ Finset.range n, phase n ((j : ℂ) * k) * (starRingEnd ℂ) (phase n ((l : ℂ) * k)) = if j = l then (n : ℂ) else 0 := by
  have hconj : ∀ k : ℕ, (starRingEnd ℂ) (phase n ((l : ℂ) * k)) = phase n (-((l : ℂ) * k)) := by
    intro k
    unfold phase
    rw [← Complex.exp_conj]
    congr 1
    simp only [map_mul, map_neg, map_div₀, Complex.conj_I, Complex.conj_ofReal, map_natCast, map_ofNat]
    ring
  have hpow : ∀ k : ℕ, phase n ((j : ℂ) * k) * (starRingEnd ℂ) (phase n ((l : ℂ) * k)) =
      (phase n ((j : ℂ) - l)) ^ k := by
    intro k
    rw [hconj, ← phase_add]
    unfold phase
    rw [← Complex.exp_nat_mul]
    congr 1
    ring
  rw [Finset.sum_congr rfl (fun k _ => hpow k)]
  have hn0 : (n : ℂ) ≠ 0 := by exact_mod_cast (by omega : n ≠ 0)
  by_cases hjl : j = l
  · subst hjl
    have : phase n ((j : ℂ) - j) = 1 := by unfold phase; simp
    rw [this, if_pos rfl]
    simp
  · rw [if_neg hjl]
    have hne : phase n ((j : ℂ) - l) ≠ 1 := by
      unfold phase
      rw [Ne, Complex.exp_eq_one_iff]
      rintro ⟨m, hm⟩
      have hpi : (2 * Real.pi * Complex.I : ℂ) ≠ 0 := Complex.two_pi_I_ne_zero
      have h1 : (-((j : ℂ) - l) / n - m) * (2 * Real.pi * Complex.I) = 0 := by
        linear_combination hm
      rcases mul_eq_zero.1 h1 with h1 | h1
      · have h2 : ((l : ℤ) - j : ℂ) = (m * n : ℤ) := by
          have : (-((j : ℂ) - l)) / n = m := by linear_combination h1
          rw [div_eq_iff hn0] at this
          push_cast
          linear_combination this
        have h3 : (l : ℤ) - j = m * n := by exact_mod_cast h2
        have hm0 : m = 0 := by
          by_contra hne
          rcases lt_or_gt_of_ne hne with h | h
          · nlinarith
          · nlinarith
        rw [hm0] at h3
        omega
      · exact hpi h1
    have hone : phase n ((j : ℂ) - l) ^ n = 1 := by
      unfold phase
      rw [← Complex.exp_nat_mul, Complex.exp_eq_one_iff]
      refine ⟨(l : ℤ) - j, ?_⟩
      push_cast
      field_simp
      ring
    have := mul_geom_sum (phase n ((j : ℂ) - l)) n
    rw [hone, sub_self] at this
    rcases mul_eq_zero.1 this with h | h
    · exact absurd (sub_eq_zero.1 h) hne
    · exact h

/-- Parseval: the power over all wave numbers adds up to the mean square. -/
theorem parseval (x : List ℝ) (hx : x ≠ []) :
    ∑ k ∈ Finset.range x.length, modePower x k = (∑ j ∈ Finset.range x.length, x.getD j 0 ^ 2) / x.length := by
  set n := x.length with hn
  have hn0 : (n : ℝ) ≠ 0 := by
    have := List.length_pos_iff.2 hx
    exact_mod_cast (by omega : n ≠ 0)
  have hsq : ∀ k, ((‖rfft x k‖ ^ 2 : ℝ) : ℂ) = ∑ j ∈ Finset.range n, ∑ l ∈ Finset.range n,
      ((x.getD j 0 : ℂ) * (x.getD l 0 : ℂ)) * (phase n ((j : ℂ) * k) * (starRingEnd ℂ) (phase n ((l : ℂ) * k))) := by
    intro k
    have : ((‖rfft x k‖ ^ 2 : ℝ) : ℂ) = rfft x k * (starRingEnd ℂ) (rfft x k) := by
      rw [Complex.mul_conj, Complex.normSq_eq_norm_sq]
    rw [this, rfft_eq, ← hn, map_sum, Finset.sum_mul_sum]
    apply Finset.sum_congr rfl
    intro j _
    apply Finset.sum_congr rfl
    intro l _
    rw [map_mul, Complex.conj_ofReal]
    ring
  have hsum : ((∑ k ∈ Finset.range n, ‖rfft x k‖ ^ 2 : ℝ) : ℂ) = ((n * ∑ j ∈ Finset.range n, x.getD j 0 ^ 2 : ℝ) : ℂ) := by
    push_cast
    have h1 : ∀ k ∈ Finset.range n, ((‖rfft x k‖ : ℂ)) ^ 2 = ∑ j ∈ Finset.range n, ∑ l ∈ Finset.range n,
      ((x.getD j 0 : ℂ) * (x.getD l 0 : ℂ)) * (phase n ((j : ℂ) * k) * (starRingEnd ℂ) (phase n ((l : ℂ) * k))) := by
      intro k _
      rw [← hsq k]; push_cast; rfl
    rw [Finset.sum_congr rfl h1, Finset.sum_comm, Finset.mul_sum]
    apply Finset.sum_congr rfl
    intro j hj
    rw [Finset.sum_comm]
    have h2 : ∀ l ∈ Finset.range n, ∑ k ∈ Finset.range n, ((x.getD j 0 : ℂ) * (x.getD l 0 : ℂ)) *
        (phase n ((j : ℂ) * k) * (starRingEnd ℂ) (phase n ((l : ℂ) * k))) =
        if j = l then ((x.getD j 0 : ℂ) * (x.getD l 0 : ℂ)) * n else 0 := by
      intro l hl
      rw [← Finset.mul_sum, phase_orthogonal (Finset.mem_range.1 hj) (Finset.mem_range.1 hl)]
      split <;> simp
    rw [Finset.sum_congr rfl h2, Finset.sum_ite_eq, if_pos hj]
    ring
  have hsum' : (∑ k ∈ Finset.range n, ‖rfft x k‖ ^ 2 : ℝ) = n * ∑ j ∈ Finset.range n, x.getD j 0 ^ 2 := by
    exact_mod_cast hsum
  have : ∀ k ∈ Finset.range n, modePower x k = ‖rfft x k‖ ^ 2 / (n : ℝ) ^ 2 := by
    intro k _
    rw [← powerspectrum_eq]; rfl
  rw [Finset.sum_congr rfl this, ← Finset.sum_div, hsum']
  field_simp

/-- Wave numbers `k` and `n - k` have the same power, so the returned half has all of it. -/
theorem modePower_mirror (x : List ℝ) {k : ℕ} (hk : k ≤ x.length) (hx : x ≠ []) :
    modePower x (x.length - k) = modePower x k := by
  have hn0 : (x.length : ℝ) ≠ 0 := by
    have := List.length_pos_iff.2 hx
    exact_mod_cast (by omega : x.length ≠ 0)
  have harg : ∀ j : ℕ, 2 * Real.pi * j * ((x.length - k : ℕ) : ℝ) / x.length =
      (j : ℕ) * (2 * Real.pi) - 2 * Real.pi * j * k / x.length := by
    intro j
    rw [Nat.cast_sub hk]
    field_simp
  unfold modePower
  congr 2
  · congr 1
    apply Finset.sum_congr rfl
    intro j _
    rw [harg, Real.cos_nat_mul_two_pi_sub]
  · rw [← neg_sq (∑ j ∈ Finset.range x.length, x.getD j 0 * Real.sin (2 * Real.pi * j * k / x.length)),
      ← Finset.sum_neg_distrib]
    congr 1
    apply Finset.sum_congr rfl
    intro j _
    rw [harg, Real.sin_nat_mul_two_pi_sub]
    ring

/-- C22: the power over all wave numbers is the variance: summed over the full range it gives `vmax` times the
mean over sightlines of the mean square fluctuation. -/
theorem flux_power_variance {n : ℕ} (hn : 0 < n) (rows : List (List ℝ)) (hrows : ∀ r ∈ rows, r.length = n)
    (vmax scale : ℝ) (desired : Option ℝ) :
    ∑ k ∈ Finset.range n, flux_power rows vmax scale desired k =
      vmax * ((rows.map (fun row =>
        ((fluctuation scale (referenceFlux rows desired) row).map (fun d : ℝ => d ^ 2)).sum / (n : ℝ))).sum / rows.length) := by
  rw [Finset.sum_congr rfl (fun k _ => flux_power_mean rows vmax scale desired k), ← Finset.mul_sum, ← Finset.sum_div]
  congr 2
  generalize referenceFlux rows desired = mf
  induction rows with
  | nil => simp
  | cons r rows ih =>
    simp only [List.map_cons, List.sum_cons]
    rw [Finset.sum_add_distrib, ih (fun r' h => hrows r' (by simp [h]))]
    congr 1
    have hlen : (fluctuation scale mf r).length = n := by simp [fluctuation, hrows r (by simp)]
    have := parseval (fluctuation scale mf r) (by rw [← List.length_pos_iff, hlen]; exact hn)
    rw [hlen] at this
    rw [this]
    congr 1
    clear this
    generalize fluctuation scale mf r = y at hlen
    rw [← hlen]
    clear hlen
    induction y with
    | nil => simp
    | cons a y ih =>
      rw [List.length_cons, Finset.sum_range_succ', List.map_cons, List.sum_cons]
      simp only [List.getD_cons_succ, List.getD_cons_zero]
      rw [ih]
      ring

/-- C22: dividing out the window keeps the power finite and not negative: the window is positive at every wave
number returned. -/
theorem window_pos {npix k : ℕ} (hk : k ≤ npix / 2) (hn : 0 < npix) {vmax R : ℝ} (hv : 0 < vmax) :
    0 < window (kbin vmax npix k) R (vmax / npix) := by
  have hnr : (0 : ℝ) < npix := by exact_mod_cast hn
  unfold window
  apply mul_pos (Real.exp_pos _)
  have harg : kbin vmax npix k * (vmax / npix) / 2 / Real.pi = (k : ℝ) / npix := by
    unfold kbin
    have := Real.pi_pos
    field_simp
  rw [harg]
  unfold sinc
  split
  · norm_num
  · next h =>
    have hk0 : 0 < k := by
      rcases Nat.eq_zero_or_pos k with rfl | hk0
      · simp at h
      · exact hk0
    have h1 : (0 : ℝ) < k / npix := div_pos (by exact_mod_cast hk0) hnr
    have h2 : (k : ℝ) / npix ≤ 1 / 2 := by
      rw [div_le_iff₀ hnr]
      have : k * 2 ≤ npix := by omega
      have : (k : ℝ) * 2 ≤ npix := by exact_mod_cast this
      linarith
    have hpi := Real.pi_pos
    refine div_pos (Real.sin_pos_of_pos_of_lt_pi (by positivity) ?_) (by positivity)
    nlinarith

/-- C22: wave number `k` is `2 π k / vmax`. -/
theorem kbin_eq {npix : ℕ} (hn : 0 < npix) (vmax : ℝ) (k : ℕ) : kbin vmax npix k = 2 * Real.pi * k / vmax := by
  have hnr : (npix : ℝ) ≠ 0 := by exact_mod_cast hn.ne'
  unfold kbin
  field_simp

/-- C22: the smoothing of a spectrograph of resolution `R` (full width at half maximum of a Gaussian of standard
deviation `σ`) and pixel width `dv`, as a factor on each mode. -/
def Smoothing (σ dv k W : ℝ) : Prop :=
  W = Real.exp (-(k * σ) ^ 2 / 2) * (if k * dv = 0 then 1 else Real.sin (k * dv / 2) / (k * dv / 2))

/-- C22: with the window, the power returned is the one before smoothing: smoothing it again gives the flux power
of the spectra. Without the window, or with resolution not positive, it is the flux power of the spectra. -/
theorem flux_power_window (rows : List (List ℝ)) {npix k : ℕ} (hk : k ≤ npix / 2) (hn : 0 < npix) {vmax R σ W : ℝ}
    (hv : 0 < vmax) (scale : ℝ) (desired : Option ℝ) (hσ : R = 2 * Real.sqrt (2 * Real.log 2) * σ)
    (hW : Smoothing σ (vmax / npix) (2 * Real.pi * k / vmax) W) :
    (0 < R → flux_power_windowed rows npix vmax R scale desired true k * W ^ 2 = flux_power rows vmax scale desired k ∧
      0 ≤ flux_power_windowed rows npix vmax R scale desired true k) ∧
    flux_power_windowed rows npix vmax R scale desired false k = flux_power rows vmax scale desired k ∧
    (R ≤ 0 → flux_power_windowed rows npix vmax R scale desired true k = flux_power rows vmax scale desired k) := by
  refine ⟨?_, ?_, ?_⟩
  · intro hR
    have hpos := window_pos (R := R) hk hn hv
    have hs : (0 : ℝ) < Real.sqrt (2 * Real.log 2) := Real.sqrt_pos.2 (by have := Real.log_pos (by norm_num : (1 : ℝ) < 2); positivity)
    have hsig : R / (2 * Real.sqrt (2 * Real.log 2)) = σ := by rw [hσ]; field_simp
    have hWe : W = window (kbin vmax npix k) R (vmax / npix) := by
      rw [hW, kbin_eq hn]
      unfold window sinc
      rw [hsig]
      have hpi := Real.pi_pos
      congr 1
      · congr 1; ring
      · by_cases h0 : 2 * Real.pi * k / vmax * (vmax / npix) = 0
        · rw [if_pos h0, if_pos (by rw [h0]; simp)]
        · rw [if_neg h0, if_neg (by
            intro h
            apply h0
            rcases div_eq_zero_iff.1 h with h | h
            · rcases div_eq_zero_iff.1 h with h | h
              · exact h
              · norm_num at h
            · exact absurd h hpi.ne')]
          have : Real.pi * (2 * Real.pi * k / vmax * (vmax / npix) / 2 / Real.pi) = 2 * Real.pi * k / vmax * (vmax / npix) / 2 := by
            field_simp
          rw [this]
    unfold flux_power_windowed
    rw [if_pos ⟨rfl, hR⟩, hWe]
    refine ⟨div_mul_cancel₀ _ (by positivity), div_nonneg (flux_power_nonneg rows hv.le scale desired k) (by positivity)⟩
  · unfold flux_power_windowed
    rw [if_neg (by simp)]
  · intro hR
    unfold flux_power_windowed
    rw [if_neg (by rintro ⟨-, h⟩; linarith)]

/-- Witness: the window at the first wave number of four pixels is not one. -/
example : ∃ W, Smoothing 1 (10 / (4 : ℕ)) (2 * Real.pi * (1 : ℕ) / 10) W ∧ (1 : ℕ) ≤ 4 / 2 := ⟨_, rfl, by norm_num⟩

/-- Witness: three sightlines of two pixels. -/
example : flux_power [[0, 1], [2, 0], [1, 1]] 10 1 (some 0.5) 1 =
    10 * ((modePower (fluctuation 1 0.5 [0, 1]) 1 + (modePower (fluctuation 1 0.5 [2, 0]) 1 +
      (modePower (fluctuation 1 0.5 [1, 1]) 1 + 0))) / 3) := by
  rw [flux_power_mean]
  norm_num [referenceFlux]

/-! Witnesses for the other theorems: two sightlines of four pixels. -/

example := flux_power_perm (List.Perm.swap [0, 1, 2, 1] [2, 0, 1, 1] []) 10 1 (some 0.5) 1

example := flux_power_shift [[0, 1, 2, 1], [2, 0, 1, 1]] [[2, 1, 0, 1], [0, 1, 1, 2]] (.cons ⟨2, rfl⟩ (.cons ⟨1, rfl⟩ .nil)) 10 1 none 1

example := modePower_mirror [0, 1, 2, 1] (k := 1) (by simp) (by simp)

example := flux_power_variance (n := 4) (by norm_num) [[0, 1, 2, 1], [2, 0, 1, 1]] (by simp) 10 1 (some 0.5)

example := window_pos (npix := 4) (k := 2) (by norm_num) (by norm_num) (vmax := 10) (R := 1) (by norm_num)

example := kbin_eq (npix := 4) (by norm_num) 10 1

end Verif.Props
