import Verif.Model.Voigt
import Verif.Lemmas.Numpy
import Verif.Props.VoigtSystems

/-!
C40: the bookkeeping of the Voigt fitter.
-/

namespace Verif.Props
open Verif Verif.Np Verif.Voigt

/-- The goodness of the fit which the fit with `j` components is compared with: that of two components fewer, and for the
third component twice that of two. `f j` is the goodness of fit with `j` components (less is better). -/
noncomputable def comparedWith (f : ℕ → ℝ) (j : ℕ) : ℝ := if j = 3 then f 2 * 2 else f (j - 2)

/-- The number `k` of components kept, of `n` peaks: every component after the second improves the fit to at most `signif`
times that it is compared with, every one but the last converged, and there is a reason to stop. -/
def IsCut (f : ℕ → ℝ) (conv : ℕ → Bool) (signif : ℝ) (n k : ℕ) : Prop :=
  k ≤ n ∧ min 2 n ≤ k ∧ (∀ j, 3 ≤ j → j ≤ k → f j ≤ signif * comparedWith f j) ∧ (∀ j, 3 ≤ j → j < k → conv j = true) ∧
    (k < n → signif * comparedWith f (k + 1) < f (k + 1) ∨ (3 ≤ k ∧ conv k = false))

theorem noBetter_iff {signif new prior : ℝ} (hp : 0 ≤ prior) : noBetter signif new prior = true ↔ signif * prior < new := by
  unfold noBetter
  by_cases h : prior = 0
  · rw [if_pos h, h]; simp
  · rw [if_neg h, decide_eq_true_eq, lt_div_iff₀ (lt_of_le_of_ne hp (Ne.symm h))]

theorem refitLoop_spec {F : Fitter} {signif : ℝ} {p : Peaks} {r : ℕ → MinRes} (hr : ∀ k, F.minimize (p.first k) = .ok (r k))
    (hf : ∀ k, 0 ≤ (r k).fval) : ∀ m a, 3 ≤ a → ∃ k, refitLoop F signif p ((List.range m).map (· + a)) (a - 1)
      (comparedWith (fun j => (r j).fval) a) (r (a - 1)) = .ok (k, r k) ∧ a - 1 ≤ k ∧ k ≤ a - 1 + m ∧
      (∀ j, a ≤ j → j ≤ k → (r j).fval ≤ signif * comparedWith (fun j => (r j).fval) j) ∧ (∀ j, a ≤ j → j < k → (r j).success = true) ∧
      (k < a - 1 + m → signif * comparedWith (fun j => (r j).fval) (k + 1) < (r (k + 1)).fval ∨ (a ≤ k ∧ (r k).success = false)) := by
  intro m
  induction m with
  | zero =>
    intro a ha
    exact ⟨a - 1, rfl, le_refl _, le_refl _, fun j h1 h2 => by omega, fun j h1 h2 => by omega, fun h => by omega⟩
  | succ m ih =>
    intro a ha
    have hl : (List.range (m + 1)).map (· + a) = a :: (List.range m).map (· + (a + 1)) := by
      rw [List.range_succ_eq_map, List.map_cons, List.map_map]
      congr 1
      · omega
      · apply List.map_congr_left
        intro i _
        simp only [Function.comp]
        omega
    have hcmp : 0 ≤ comparedWith (fun j => (r j).fval) a := by
      unfold comparedWith
      split_ifs
      · linarith [hf 2]
      · exact hf _
    rw [hl, refitLoop, hr a]
    change ∃ k, (if noBetter signif (r a).fval (comparedWith (fun j => (r j).fval) a) then pure (a - 1, r (a - 1))
      else if !(r a).success then pure (a, r a) else refitLoop F signif p ((List.range m).map (· + (a + 1))) a (r (a - 1)).fval (r a)) = _ ∧ _
    by_cases h1 : noBetter signif (r a).fval (comparedWith (fun j => (r j).fval) a) = true
    · rw [if_pos h1]
      refine ⟨a - 1, rfl, le_refl _, by omega, fun j h1 h2 => by omega, fun j h1 h2 => by omega, fun _ => Or.inl ?_⟩
      rw [show a - 1 + 1 = a by omega]
      exact (noBetter_iff hcmp).1 h1
    · rw [if_neg h1]
      have hle : (r a).fval ≤ signif * comparedWith (fun j => (r j).fval) a := by
        rw [noBetter_iff hcmp] at h1
        exact not_lt.1 h1
      by_cases h2 : (r a).success = true
      · rw [h2]
        simp only [Bool.not_true, Bool.false_eq_true, if_false]
        obtain ⟨k, e1, e2, e3, e4, e5, e6⟩ := ih (a + 1) (by omega)
        have hc : comparedWith (fun j => (r j).fval) (a + 1) = (r (a - 1)).fval := by
          unfold comparedWith
          rw [if_neg (by omega), show a + 1 - 2 = a - 1 by omega]
        rw [hc] at e1
        refine ⟨k, e1, by omega, by omega, ?_, ?_, ?_⟩
        · intro j hj hjk
          by_cases hja : j = a
          · rw [hja]; exact hle
          · exact e4 j (by omega) hjk
        · intro j hj hjk
          by_cases hja : j = a
          · rw [hja]; exact h2
          · exact e5 j (by omega) hjk
        · intro hk
          rcases e6 (by omega) with h | ⟨h, h'⟩
          · exact Or.inl h
          · exact Or.inr ⟨by omega, h'⟩
      · rw [Bool.not_eq_true] at h2
        rw [h2]
        simp only [Bool.not_false, if_true]
        refine ⟨a, rfl, by omega, by omega, ?_, fun j h1 h2 => by omega, fun _ => Or.inr ⟨le_refl _, h2⟩⟩
        intro j hj hja
        rw [show j = a by omega]
        exact hle

/-- C40, the re-fit, for every optimiser that returns as many parameters as it was given and a non-negative goodness of fit:
`refit` never fails, the number `k` of components is the cut, and the fit has `k` widths, positions and amplitudes, which are
those the optimiser found for the `k` largest peaks. Widths are not negative and positions lie in `[0, W)`. -/
theorem refit_spec {F : Fitter} {signif W : ℝ} {p : Peaks} {r : ℕ → MinRes} (hW : 0 < W) (hlen : p.means.length = p.stddev.length)
    (hlen' : p.amplitudes.length = p.stddev.length) (hr : ∀ k, F.minimize (p.first k) = .ok (r k)) (hf : ∀ k, 0 ≤ (r k).fval)
    (hx : ∀ k, (r k).x.length = (p.first k).length) :
    ∃ fit k, refit F signif W p = .ok fit ∧ IsCut (fun j => (r j).fval) (fun j => (r j).success) signif p.stddev.length k ∧
      fit.stddev.length = k ∧ fit.means.length = k ∧ fit.amplitudes.length = k ∧
      (∀ i < k, fit.stddev[i]? = (r k).x[i]?.map (|·|) ∧ fit.means[i]? = (r k).x[k + i]?.map (fun m => fmod m W) ∧
        fit.amplitudes[i]? = (r k).x[2 * k + i]?) ∧
      (∀ b ∈ fit.stddev, 0 ≤ b) ∧ ∀ m ∈ fit.means, 0 ≤ m ∧ m < W := by
  set n := p.stddev.length with hn
  have hfirst : ∀ k, k ≤ n → (p.first k).length = k * 3 := by
    intro k hk
    unfold Peaks.first
    simp only [List.length_append, List.length_take, hlen, hlen', ← hn]
    omega
  have hfinish : ∀ k, k ≤ n → ∃ fit, (if (r k).x.length = k * 3 then pure ⟨(slice (r k).x 0 k).map (|·|),
      (slice (r k).x k (2 * k)).map (fun m => fmod m W), (r k).x.drop (2 * k)⟩ else .error .assertionError : Py Fit) = .ok fit ∧
      fit.stddev.length = k ∧ fit.means.length = k ∧ fit.amplitudes.length = k ∧
      (∀ i < k, fit.stddev[i]? = (r k).x[i]?.map (|·|) ∧ fit.means[i]? = (r k).x[k + i]?.map (fun m => fmod m W) ∧
        fit.amplitudes[i]? = (r k).x[2 * k + i]?) ∧
      (∀ b ∈ fit.stddev, 0 ≤ b) ∧ ∀ m ∈ fit.means, 0 ≤ m ∧ m < W := by
    intro k hk
    have hk3 : (r k).x.length = k * 3 := by rw [hx, hfirst k hk]
    refine ⟨_, by rw [if_pos hk3]; rfl, ?_, ?_, ?_, ?_, ?_, ?_⟩
    · simp [slice, hk3]; omega
    · simp [slice, hk3]; omega
    · simp [hk3]; omega
    · intro i hi
      refine ⟨?_, ?_, ?_⟩
      · simp only [slice, List.getElem?_map, List.drop_zero]
        rw [List.getElem?_take_of_lt hi]
      · simp only [slice, List.getElem?_map, List.getElem?_drop]
        rw [List.getElem?_take_of_lt (by omega)]
      · rw [List.getElem?_drop]
    · intro b hb
      obtain ⟨x, -, rfl⟩ := List.mem_map.1 hb
      exact abs_nonneg x
    · intro m hm
      obtain ⟨x, -, rfl⟩ := List.mem_map.1 hm
      exact fmod_range hW
  by_cases h2 : 2 ≤ n
  · obtain ⟨k, e1, e2, e3, e4, e5, e6⟩ := refitLoop_spec (signif := signif) hr hf (n - 2) 3 (le_refl _)
    obtain ⟨fit, g1, g2⟩ := hfinish k (by omega)
    refine ⟨fit, k, ?_, ⟨by omega, by omega, fun j a b => e4 j a b, fun j a b => e5 j a b, fun hk => e6 (by omega)⟩, g2⟩
    unfold refit
    rw [hr 2]
    simp only [bind, Except.bind]
    rw [← hn, show min 2 n = 3 - 1 by omega]
    have : comparedWith (fun j => (r j).fval) 3 = (r 2).fval * 2 := by unfold comparedWith; rw [if_pos rfl]
    rw [← this, e1]
    exact g1
  · obtain ⟨fit, g1, g2⟩ := hfinish n (le_refl _)
    refine ⟨fit, n, ?_, ⟨le_refl _, by omega, fun j a b => by omega, fun j a b => by omega, fun h => by omega⟩, g2⟩
    have hr2 : r n = r 2 := by
      have h1 := hr n
      have h3 := hr 2
      have : p.first n = p.first 2 := by
        unfold Peaks.first
        rw [List.take_of_length_le (by omega), List.take_of_length_le (by omega), List.take_of_length_le (by omega),
          List.take_of_length_le (by omega), List.take_of_length_le (by omega), List.take_of_length_le (by omega)]
      rw [this, h3] at h1
      exact (Except.ok.inj h1).symm
    unfold refit
    rw [hr 2]
    simp only [bind, Except.bind]
    rw [← hn, show n - 2 = 0 by omega, show min 2 n = n by omega]
    simp only [List.range_zero, List.map_nil, refitLoop, pure, Except.pure]
    rw [← hr2]
    exact g1

/-! ### Finding peaks -/

/-- One width, position and amplitude per peak. -/
structure PeakInv (n : ℕ) (dv rt : ℝ) (p0 p : Peaks) : Prop where
  lm : p.means.length = p.stddev.length
  la : p.amplitudes.length = p.stddev.length
  prefStd : p0.stddev <+: p.stddev
  new : ∀ i, p0.stddev.length ≤ i → i < p.stddev.length → (∃ j < n, p.means[i]? = some ((j : ℝ) * dv)) ∧ ∃ a, p.amplitudes[i]? = some a ∧ rt < a

theorem iterate_spec {F : Fitter} {dv rt : ℝ} {f : List ℝ} {mask : List ℕ} {out : List ℝ × ℝ × ℝ × ℝ}
    (hprof : ∀ a b c l, F.profile a b c = .ok l → l.length = f.length)
    (hm : ∃ m, maxOf (mask.filterMap (fun i => f[i]?)) = .ok m ∧ rt < m) (h : iterate_new_spectrum F dv f mask = .ok out) :
    out.1.length = f.length ∧ (∃ j < f.length, out.2.1 = (j : ℝ) * dv) ∧ rt < out.2.2.1 := by
  obtain ⟨m, hm1, hm2⟩ := hm
  have hmem : m ∈ f := by
    have hne : mask.filterMap (fun i => f[i]?) ≠ [] := by
      intro hc; rw [hc] at hm1; cases hm1
    obtain ⟨m', e1, e2, -⟩ := maxOf_spec hne
    rw [e1] at hm1
    cases hm1
    obtain ⟨i, -, hi⟩ := List.mem_filterMap.1 e2
    exact List.mem_of_getElem? hi
  have hlt : f.findIdx (fun v => decide (v = m)) < f.length := List.findIdx_lt_length_of_exists ⟨m, hmem, by simp⟩
  have hval : f[f.findIdx (fun v => decide (v = m))] = m :=
    of_decide_eq_true (List.findIdx_getElem (p := fun x : ℝ => decide (x = m)) (w := hlt))
  unfold iterate_new_spectrum at h
  rw [hm1] at h
  simp only [bind, Except.bind] at h
  have hget : Np.get f ((f.findIdx (fun v => decide (v = m)) : ℕ) : ℤ) = .ok m :=
    get_eq (index_nat hlt) (by rw [List.getElem?_eq_getElem hlt, hval])
  rw [hget] at h
  simp only at h
  split at h
  · cases h
  · split at h
    · cases h
    · rename_i x hx fitted hfit
      split at h
      · cases h
      · split at h
        · cases h
        · split at h
          · cases h
          · split at h
            · cases h
            · split at h
              · cases h
                refine ⟨?_, ⟨_, hlt, rfl⟩, hm2⟩
                simp [hprof _ _ _ _ hfit]
              · cases h

theorem step_inv {F : Fitter} {n : ℕ} {dv rt sattau : ℝ} {p0 : Peaks} (hprof : ∀ a b c l, F.profile a b c = .ok l → l.length = n)
    {s s' : Search} (hs : s.fitted.length = n ∧ PeakInv n dv rt p0 s.peaks) (hc : Search.again rt s = .ok true)
    (h : Search.step F dv sattau s = .ok s') : s'.fitted.length = n ∧ PeakInv n dv rt p0 s'.peaks ∧
      s'.peaks.stddev.length = s.peaks.stddev.length + 1 := by
  have hm : ∃ m, maxOf (s.mask.filterMap (fun i => s.fitted[i]?)) = .ok m ∧ rt < m := by
    unfold Search.again at hc
    split_ifs at hc with hmask
    · cases hc
    cases hmo : maxOf (s.mask.filterMap (fun i => s.fitted[i]?)) with
    | error e => rw [hmo] at hc; cases hc
    | ok m =>
      rw [hmo] at hc
      refine ⟨m, rfl, ?_⟩
      simpa [bind, Except.bind, pure, Except.pure] using hc
  unfold Search.step at h
  cases hit : iterate_new_spectrum F dv s.fitted s.mask with
  | error e => rw [hit] at h; cases h
  | ok out =>
    rw [hit] at h
    obtain ⟨fitted, mean, amplitude, stddev⟩ := out
    obtain ⟨h1, ⟨j, hj, h2⟩, h3⟩ := iterate_spec (rt := rt) (fun a b c l hl => by rw [hprof a b c l hl, hs.1]) hm hit
    simp only [bind, Except.bind] at h
    split at h
    · cases h
    · cases h
      obtain ⟨hsn, lm, la, pre, new⟩ := hs
      refine ⟨by simpa [hsn] using h1, ⟨by simp [lm], by simp [la], pre.trans (List.prefix_append _ _), ?_⟩, by simp⟩
      intro i hi hlt
      simp only [List.length_append, List.length_singleton] at hlt
      by_cases hlast : i < s.peaks.stddev.length
      · rw [List.getElem?_append_left (by omega), List.getElem?_append_left (by omega)]
        exact new i hi hlast
      · have hi' : i = s.peaks.stddev.length := by omega
        refine ⟨⟨j, by rw [hsn] at hj; exact hj, ?_⟩, amplitude, ?_, h3⟩
        · rw [hi', ← lm]; simpa using h2
        · rw [hi', ← la]; simp

/-- C40, the peaks: however the search for peaks goes, if it ends it has one width, position and amplitude for each peak;
the new peaks (those after the ones the object had) lie on pixels of the spectrum and are higher than the tolerance. -/
theorem findPeaks_spec {F : Fitter} {dv tol sattau rt : ℝ} {tau : List ℝ} {p0 p : Peaks} {fuel : ℕ}
    (hprof : ∀ a b c l, F.profile a b c = .ok l → l.length = tau.length) (hrt : realtol tol tau = .ok rt)
    (hl : p0.means.length = p0.stddev.length) (hl' : p0.amplitudes.length = p0.stddev.length)
    (h : findPeaks F dv tol sattau tau p0 fuel = some (.ok p)) : PeakInv tau.length dv rt p0 p := by
  unfold findPeaks at h
  rw [hrt] at h
  simp only [Run.andThen] at h
  split at h
  · cases h
  · cases h
  · rename_i s hrun
    cases h
    have := whileRun_inv (fun s => s.fitted.length = tau.length ∧ PeakInv tau.length dv rt p0 s.peaks)
      (by
        intro s s' hs hc hb
        obtain ⟨a, b, -⟩ := step_inv hprof hs hc (Option.some.inj hb)
        exact ⟨a, b⟩) fuel _ _ ⟨rfl, hl, hl', List.prefix_refl _, fun i h1 h2 => by simp at h1 h2; omega⟩ hrun
    exact this.1.2

/-- C40, except that a spectrum without peaks has no components and that the search may not end: on a new object, if `do_fit`
ends without a failed assertion, the fit has one width, position and amplitude per component, at most as many components as
peaks, at least one if there is a peak, widths are not negative and positions lie in the spectrum. -/
theorem do_fit_partial {F : Fitter} {dv tol signif sattau : ℝ} {tau : List ℝ} {p : Peaks} {fit : Fit} {fuel : ℕ}
    (hdv : 0 < dv) (hn : 1 < tau.length) (hprof : ∀ a b c l, F.profile a b c = .ok l → l.length = tau.length)
    (hmin : ∀ l, ∃ r, F.minimize l = .ok r ∧ 0 ≤ r.fval ∧ r.x.length = l.length)
    (h : do_fit F dv tol signif sattau tau ⟨[], [], []⟩ fuel = some (.ok (p, fit))) :
    ∃ k, fit.stddev.length = k ∧ fit.means.length = k ∧ fit.amplitudes.length = k ∧ k ≤ p.stddev.length ∧
      (p.stddev ≠ [] → 0 < k) ∧ (∀ b ∈ fit.stddev, 0 ≤ b) ∧ ∀ m ∈ fit.means, 0 ≤ m ∧ m < ((tau.length : ℝ) - 1) * dv := by
  have hne : tau ≠ [] := by intro hc; rw [hc] at hn; simp at hn
  obtain ⟨m, hm, -⟩ := maxOf_spec hne
  have hrt : realtol tol tau = .ok (tol * max 1 m) := by unfold realtol; rw [hm]; rfl
  unfold do_fit at h
  cases hfp : findPeaks F dv tol sattau tau ⟨[], [], []⟩ fuel with
  | none => rw [hfp] at h; cases h
  | some q =>
    cases q with
    | error e => rw [hfp] at h; cases h
    | ok p' =>
      have hinv := findPeaks_spec hprof hrt rfl rfl hfp
      choose r hr using hmin
      have hW : 0 < ((tau.length : ℝ) - 1) * dv := by
        have : (1 : ℝ) < tau.length := by exact_mod_cast hn
        exact mul_pos (by linarith) hdv
      obtain ⟨fit', k, e1, e2, e3, e4, e5, -, e7, e8⟩ := refit_spec (F := F) (signif := signif) (p := p') (r := fun k => r (p'.first k)) hW hinv.lm
        hinv.la (fun k => (hr _).1) (fun k => (hr _).2.1) (fun k => (hr _).2.2)
      rw [hfp] at h
      simp only [Run.andThen, e1, Option.some.injEq, Except.ok.injEq, Prod.mk.injEq] at h
      obtain ⟨rfl, rfl⟩ := h
      refine ⟨k, e3, e4, e5, e2.1, ?_, e7, e8⟩
      intro hpne
      have h1 := List.length_pos_iff.2 hpne
      have h2 := e2.2.1
      omega

/-- C40 is false for a spectrum without absorption above the tolerance: no component is found, and `get_systems` fails. -/
theorem flat_spectrum_fails {F : Fitter} {N : ℝ → ℝ → ℝ} {dv tol signif sattau close W : ℝ} {tau : List ℝ} {fuel : ℕ} (hfuel : 0 < fuel)
    (htol : 0 ≤ tol) (hne : tau ≠ []) (hflat : ∀ t ∈ tau, t ≤ tol) (hmin : ∃ r, F.minimize [] = .ok r ∧ r.x = []) :
    ∃ fit, do_fit F dv tol signif sattau tau ⟨[], [], []⟩ fuel = some (.ok (⟨[], [], []⟩, fit)) ∧ fit.means = [] ∧
      get_systems N W close fit fuel = some (.error .indexError) := by
  obtain ⟨r, hr, hx⟩ := hmin
  obtain ⟨m, hm, hmem, hmax⟩ := maxOf_spec hne
  have hrt : realtol tol tau = .ok (tol * max 1 m) := by unfold realtol; rw [hm]; rfl
  have hle : tol ≤ tol * max 1 m := le_mul_of_one_le_right htol (le_max_left _ _)
  obtain ⟨k, rfl⟩ : ∃ k, fuel = k + 1 := ⟨fuel - 1, by omega⟩
  have hcond : ∀ mask, Search.again (tol * max 1 m) ⟨tau, mask, ⟨[], [], []⟩⟩ = .ok false ∨
      mask.filterMap (fun i => tau[i]?) = [] := by
    intro mask
    by_cases hne' : mask.filterMap (fun i => tau[i]?) = []
    · exact Or.inr hne'
    · left
      unfold Search.again
      split_ifs with h
      · rfl
      · obtain ⟨m', e1, e2, -⟩ := maxOf_spec hne'
        simp only [e1, bind, Except.bind, pure, Except.pure]
        obtain ⟨i, -, hi⟩ := List.mem_filterMap.1 e2
        have := hflat m' (List.mem_of_getElem? hi)
        congr 1
        rw [decide_eq_false_iff_not, not_lt]
        linarith
  set mask := (List.range tau.length).filter (fun i => decide (-1 < tau.getD i 0)) with hmaskdef
  have hagain : Search.again (tol * max 1 m) ⟨tau, mask, ⟨[], [], []⟩⟩ = .ok false := by
    rcases hcond mask with h | h
    · exact h
    · have : mask = [] := by
        by_contra hc
        obtain ⟨i, hi⟩ := List.exists_mem_of_ne_nil _ hc
        have hlt : i < tau.length := by
          have := (List.mem_filter.1 hi).1
          exact List.mem_range.1 this
        have : tau[i] ∈ mask.filterMap (fun i => tau[i]?) := List.mem_filterMap.2 ⟨i, hi, List.getElem?_eq_getElem hlt⟩
        rw [h] at this
        simp at this
      unfold Search.again
      rw [if_pos this]
  refine ⟨⟨[], [], []⟩, ?_, rfl, get_systems_none⟩
  unfold do_fit findPeaks
  rw [hrt]
  simp only [Run.andThen, whileRun, ← hmaskdef, hagain]
  unfold refit Peaks.first
  simp only [List.take_nil, List.append_nil, hr, bind, Except.bind, List.length_nil, Nat.zero_sub, List.range_zero, List.map_nil, refitLoop,
    Nat.min_zero, pure, Except.pure, hx, Nat.zero_mul, if_true, slice, List.drop_nil]

/-- Calling `do_fit` again on the same object adds the peaks of the same spectrum to those it has, if it has any above the
tolerance: it keeps what the first call found, and finds at least one more. -/
theorem do_fit_again_adds {F : Fitter} {dv tol signif sattau rt : ℝ} {tau : List ℝ} {p p' : Peaks} {fit : Fit} {fuel : ℕ}
    (hprof : ∀ a b c l, F.profile a b c = .ok l → l.length = tau.length) (hrt : realtol tol tau = .ok rt)
    (hl : p.means.length = p.stddev.length) (hl' : p.amplitudes.length = p.stddev.length) (hpeak : ∃ t ∈ tau, rt < t ∧ -1 < t)
    (h : do_fit F dv tol signif sattau tau p fuel = some (.ok (p', fit))) :
    p.stddev <+: p'.stddev ∧ p.stddev.length < p'.stddev.length := by
  unfold do_fit at h
  cases hfp : findPeaks F dv tol sattau tau p fuel with
  | none => rw [hfp] at h; cases h
  | some q =>
    cases q with
    | error e => rw [hfp] at h; cases h
    | ok q =>
      have hinv := findPeaks_spec hprof hrt hl hl' hfp
      have hq : q = p' := by
        rw [hfp] at h
        simp only [Run.andThen] at h
        split at h
        · cases h
        · cases h
        · simp only [Option.some.injEq, Except.ok.injEq, Prod.mk.injEq] at h
          exact h.1
      rw [← hq]
      refine ⟨hinv.prefStd, ?_⟩
      unfold findPeaks at hfp
      rw [hrt] at hfp
      simp only [Run.andThen] at hfp
      set mask := (List.range tau.length).filter (fun i => decide (-1 < tau.getD i 0)) with hmaskdef
      obtain ⟨t, ht, ht1, ht2⟩ := hpeak
      obtain ⟨i, hi, hit⟩ := List.mem_iff_getElem.1 ht
      have himask : i ∈ mask := by
        rw [hmaskdef, List.mem_filter, List.mem_range]
        refine ⟨hi, ?_⟩
        simp [hi, hit, ht2]
      have hcond : Search.again rt ⟨tau, mask, p⟩ = .ok true := by
        unfold Search.again
        rw [if_neg (by intro hc; simp only at hc; rw [hc] at himask; simp at himask)]
        have hmem : t ∈ mask.filterMap (fun i => tau[i]?) :=
          List.mem_filterMap.2 ⟨i, himask, by rw [List.getElem?_eq_getElem hi, hit]⟩
        obtain ⟨m, e1, -, e3⟩ := maxOf_spec (List.ne_nil_of_mem hmem)
        simp only [e1, bind, Except.bind, pure, Except.pure]
        have := e3 t hmem
        congr 1
        rw [decide_eq_true_eq]
        linarith
      cases fuel with
      | zero => simp [whileRun] at hfp
      | succ fuel =>
        rw [whileRun, hcond] at hfp
        simp only [Run.andThen] at hfp
        cases hst : Search.step F dv sattau ⟨tau, mask, p⟩ with
        | error e => rw [hst] at hfp; simp at hfp
        | ok s1 =>
          rw [hst] at hfp
          simp only at hfp
          have h0 : PeakInv tau.length dv rt p p := ⟨hl, hl', List.prefix_refl _, fun i h1 h2 => by omega⟩
          obtain ⟨a1, a2, a3⟩ := step_inv (p0 := p) hprof ⟨rfl, h0⟩ hcond hst
          split at hfp
          · cases hfp
          · cases hfp
          · rename_i s hrun
            simp only [Option.some.injEq, Except.ok.injEq] at hfp
            have := whileRun_inv (fun s => (s.fitted.length = tau.length ∧ PeakInv tau.length dv rt p s.peaks) ∧
                p.stddev.length < s.peaks.stddev.length)
              (by
                intro s s' hs hc hb
                obtain ⟨a, b, c⟩ := step_inv hprof hs.1 hc (Option.some.inj hb)
                exact ⟨⟨a, b⟩, by omega⟩) fuel _ _ ⟨⟨a1, a2⟩, by simp only at a3; omega⟩ hrun
            rw [← hfp]
            exact this.1.2

/-- A fitter for spectra of two pixels of width 1, with profiles of one pixel. -/
noncomputable def toyFitter : Fitter :=
  ⟨fun _ mean amp => .ok [if mean = 0 then amp else 0, if mean = 1 then amp else 0], fun _ _ => .ok 1, fun l => .ok ⟨l, 0, true⟩⟩

/-- The hypotheses of `do_fit_partial` and `do_fit_again_adds` hold for a spectrum with one peak: one component. -/
example : ∃ p fit, do_fit toyFitter 1 (1/10) (95/100) 4 [1, 0] ⟨[], [], []⟩ 2 = some (.ok (p, fit)) ∧ fit.means = [0] ∧
    fit.stddev = [1] ∧ fit.amplitudes = [1] ∧
    (∀ a b c l, toyFitter.profile a b c = .ok l → l.length = [(1 : ℝ), 0].length) ∧
    (∀ l, ∃ r, toyFitter.minimize l = .ok r ∧ 0 ≤ r.fval ∧ r.x.length = l.length) := by
  have hm : ∀ a b : ℝ, b ≤ a → maxOf [a, b] = .ok a := by intro a b h; simp [maxOf, h]
  have hrt : realtol (1/10) [1, 0] = .ok (1/10) := by
    unfold realtol; rw [hm _ _ (by norm_num)]; norm_num [bind, Except.bind, pure, Except.pure]
  have hmask : (List.range 2).filter (fun i => decide (-1 < ([1, 0] : List ℝ).getD i 0)) = [0, 1] := by
    simp [List.range_succ, List.filter_cons]
  have hit : iterate_new_spectrum toyFitter 1 [1, 0] [0, 1] = .ok ([0, 0], 0, 1, 1) := by
    unfold iterate_new_spectrum
    have h1 : ([0, 1] : List ℕ).filterMap (fun i => ([1, 0] : List ℝ)[i]?) = [1, 0] := rfl
    have h2 : ([1, 0] : List ℝ).findIdx (fun v => decide (v = 1)) = 0 := by simp [List.findIdx_cons]
    have h3 : Np.get ([1, 0] : List ℝ) 0 = .ok 1 := get_eq (k := 0) (by unfold index; simp) rfl
    have h4 : argmax ([1, 0] : List ℝ) = .ok 0 := by
      unfold argmax; rw [hm _ _ (by norm_num)]; simp [bind, Except.bind, pure, Except.pure, List.findIdx_cons]
    simp only [h1, hm 1 0 (by norm_num), bind, Except.bind, h2, h3, toyFitter, Nat.cast_zero, zero_mul, if_true,
      if_neg (zero_ne_one' ℝ), h4, ne_eq, not_true_eq_false, if_false, List.zipWith_cons_cons, List.zipWith_nil_right, sub_self,
      hm 0 0 (le_refl _), zero_lt_one, pure, Except.pure]
  have hpm : profile_multiple toyFitter 2 ⟨[1], [0], [1]⟩ = .ok [1, 0] := by
    unfold profile_multiple
    simp [toyFitter, bind, Except.bind, pure, Except.pure, List.range_succ]
  have hmask2 : (List.range 2).filter (fun i => decide (([1, 0] : List ℝ).getD i 0 < 4)) = [0, 1] := by
    simp [List.range_succ, List.filter_cons]
  have hstep : Search.step toyFitter 1 4 ⟨[1, 0], [0, 1], ⟨[], [], []⟩⟩ = .ok ⟨[0, 0], [0, 1], ⟨[1], [0], [1]⟩⟩ := by
    unfold Search.step
    simp only [hit, bind, Except.bind, List.nil_append, List.length_cons, List.length_nil, Nat.zero_add, Nat.reduceAdd, hpm, hmask2, pure,
      Except.pure]
  have hc1 : Search.again (1/10) ⟨[1, 0], [0, 1], ⟨[], [], []⟩⟩ = .ok true := by
    unfold Search.again
    have h1 : ([0, 1] : List ℕ).filterMap (fun i => ([1, 0] : List ℝ)[i]?) = [1, 0] := rfl
    rw [if_neg (by simp)]
    simp only [h1, hm 1 0 (by norm_num), bind, Except.bind, pure, Except.pure]
    norm_num
  have hc2 : Search.again (1/10) ⟨[0, 0], [0, 1], ⟨[1], [0], [1]⟩⟩ = .ok false := by
    unfold Search.again
    have h1 : ([0, 1] : List ℕ).filterMap (fun i => ([0, 0] : List ℝ)[i]?) = [0, 0] := rfl
    rw [if_neg (by simp)]
    simp only [h1, hm 0 0 (by norm_num), bind, Except.bind, pure, Except.pure]
    norm_num
  refine ⟨⟨[1], [0], [1]⟩, ⟨[1], [0], [1]⟩, ?_, rfl, rfl, rfl, ?_, fun l => ⟨⟨l, 0, true⟩, rfl, le_refl _, rfl⟩⟩
  · unfold do_fit findPeaks
    simp only [hrt, Run.andThen, List.length_cons, List.length_nil, Nat.zero_add, Nat.reduceAdd, hmask, whileRun, hc1, hstep, hc2]
    have : refit toyFitter (95/100) (((2 : ℕ) - 1 : ℝ) * 1) ⟨[1], [0], [1]⟩ = .ok ⟨[1], [0], [1]⟩ := by
      unfold refit Peaks.first
      simp [toyFitter, bind, Except.bind, pure, Except.pure, refitLoop, slice, fmod]
    simp only [this]
  · intro a b c l hl
    simp only [toyFitter, Except.ok.injEq] at hl
    rw [← hl]
    rfl

/-! ### The profile -/

theorem argmax_unique {a : List ℝ} {k : ℕ} {m : ℝ} (hk : a[k]? = some m) (h : ∀ i y, i ≠ k → a[i]? = some y → y < m) : argmax a = .ok k := by
  have hne : a ≠ [] := by intro hc; rw [hc] at hk; simp at hk
  obtain ⟨k', m', h1, -, hk', hkm, hmax, -⟩ := argmax_spec hne
  rw [h1]
  congr 1
  by_contra hc
  have h2 := h k' m' hc hkm
  have h3 := hmax m (List.mem_of_getElem? hk)
  linarith

/-- C40, the profile: if the Voigt function of width `b` is largest at its centre, the assertion holds and the profile has its
peak, of the height asked for, in the pixel of the mean; `j` pixels to the right (cyclically, up to half of the spectrum either
way) it has the value of the Voigt function there, in units of that at the centre. -/
theorem voigt_profile_spec {H : ℝ → ℝ → ℝ} {n : ℕ} {dv stddev mean amplitude : ℝ} (hn : 0 < n) (hdv : 0 < dv) (ha : amplitude ≠ 0)
    (h0 : 0 < H |stddev| 0) (hH : ∀ v, v ≠ 0 → H |stddev| v < H |stddev| 0) :
    ∃ prof, voigt_profile H n dv stddev mean amplitude = .ok prof ∧ prof.length = n ∧ peakIndex n dv mean < n ∧
      prof[peakIndex n dv mean]? = some |amplitude| ∧ argmax prof = .ok (peakIndex n dv mean) ∧
      ∀ j : ℤ, -((n / 2 : ℕ) : ℤ) ≤ j → j < (n : ℤ) - (n / 2 : ℕ) →
        prof[(((peakIndex n dv mean : ℤ) + j) % n).toNat]? = some (|amplitude| * (H |stddev| ((j : ℝ) * dv) / H |stddev| 0)) := by
  set pk := peakIndex n dv mean with hpk
  have hn' : (0 : ℤ) < n := by exact_mod_cast hn
  have hpkn : pk < n := by
    rw [hpk]; unfold peakIndex
    simp only
    generalize pyround _ = z
    have h1 := Int.emod_nonneg z (by omega : (n : ℤ) ≠ 0)
    have h2 := Int.emod_lt_of_pos z hn'
    omega
  set rolled := (List.range n).map (fun i : ℕ => H |stddev| ((i : ℝ) * dv - ((n / 2 : ℕ) : ℝ) * dv) / H |stddev| 0 * |amplitude|) with hrolled
  have hrl : rolled.length = n := by simp [hrolled]
  have hget : ∀ i, i < n → rolled[i]? = some (H |stddev| ((i : ℝ) * dv - ((n / 2 : ℕ) : ℝ) * dv) / H |stddev| 0 * |amplitude|) := by
    intro i hi
    rw [hrolled, List.getElem?_map, List.getElem?_range hi]; rfl
  have hap : 0 < |amplitude| := abs_pos.2 ha
  have hmid : rolled[n / 2]? = some |amplitude| := by
    rw [hget _ (by omega), sub_self, div_self (ne_of_gt h0), one_mul]
  have hlow : ∀ i y, i ≠ n / 2 → rolled[i]? = some y → y < |amplitude| := by
    intro i y hi hy
    have hin : i < n := by rw [← hrl]; exact (List.getElem?_eq_some_iff.1 hy).1
    rw [hget i hin, Option.some.injEq] at hy
    rw [← hy]
    have : (i : ℝ) * dv - ((n / 2 : ℕ) : ℝ) * dv ≠ 0 := by
      rw [← sub_mul]
      refine mul_ne_zero ?_ (ne_of_gt hdv)
      rw [sub_ne_zero]
      exact_mod_cast hi
    have h2 := hH _ this
    have h3 : H |stddev| ((i : ℝ) * dv - ((n / 2 : ℕ) : ℝ) * dv) / H |stddev| 0 < 1 := (div_lt_one h0).2 h2
    nlinarith
  have hk1 : argmax rolled = .ok (n / 2) := argmax_unique hmid hlow
  set prof := roll rolled ((pk : ℤ) - (n / 2 : ℕ)) with hprof
  have hpl : prof.length = n := by rw [hprof, roll_length, hrl]
  have hat : ∀ j : ℤ, -((n / 2 : ℕ) : ℤ) ≤ j → j < (n : ℤ) - (n / 2 : ℕ) →
      prof[(((pk : ℤ) + j) % n).toNat]? = rolled[((n / 2 : ℕ) + j).toNat]? := by
    intro j hj1 hj2
    have e0 := Int.emod_nonneg ((pk : ℤ) + j) (by omega : (n : ℤ) ≠ 0)
    have e1 := Int.emod_lt_of_pos ((pk : ℤ) + j) hn'
    rw [hprof, roll_get _ _ (by rw [hrl]; omega), hrl, Int.toNat_of_nonneg e0]
    congr 1
    have : (((pk : ℤ) + j) % n - ((pk : ℤ) - (n / 2 : ℕ))) % n = ((n / 2 : ℕ) + j : ℤ) := by
      rw [Int.sub_emod, Int.emod_emod, ← Int.sub_emod, show (pk : ℤ) + j - ((pk : ℤ) - (n / 2 : ℕ)) = (n / 2 : ℕ) + j by ring]
      exact Int.emod_eq_of_lt (by omega) (by omega)
    rw [this]
  have hpkmod : (((pk : ℤ) + 0) % n).toNat = pk := by
    rw [add_zero, Int.emod_eq_of_lt (by omega) (by omega)]; rfl
  have hpeak : prof[pk]? = some |amplitude| := by
    have := hat 0 (by omega) (by omega)
    rw [hpkmod] at this
    rw [this, ← hmid]
    congr 1
  have hk2 : argmax prof = .ok pk := by
    refine argmax_unique hpeak ?_
    intro i y hi hy
    have hin : i < n := by rw [← hpl]; exact (List.getElem?_eq_some_iff.1 hy).1
    rw [hprof, roll_get _ _ (by rw [hrl]; exact hin), hrl] at hy
    refine hlow _ y ?_ hy
    intro hc
    have h1 := Int.emod_nonneg ((i : ℤ) - ((pk : ℤ) - (n / 2 : ℕ))) (by omega : (n : ℤ) ≠ 0)
    have h2 : ((i : ℤ) - ((pk : ℤ) - (n / 2 : ℕ))) % n = (n / 2 : ℕ) % n := by
      rw [Int.emod_eq_of_lt (by omega) (by omega : ((n / 2 : ℕ) : ℤ) < n)]; omega
    have h3 : ((i : ℤ) - ((pk : ℤ) - (n / 2 : ℕ)) - (n / 2 : ℕ)) % n = 0 := Int.emod_eq_emod_iff_emod_sub_eq_zero.1 h2
    rw [show (i : ℤ) - ((pk : ℤ) - (n / 2 : ℕ)) - (n / 2 : ℕ) = (i : ℤ) - pk by ring] at h3
    obtain ⟨c, hc'⟩ := Int.dvd_of_emod_eq_zero h3
    have hc0 : c = 0 := by
      by_contra hne
      rcases lt_or_gt_of_ne hne with h | h
      · have : (n : ℤ) * c ≤ n * (-1) := mul_le_mul_of_nonneg_left (by omega) (le_of_lt hn')
        omega
      · have : (n : ℤ) * 1 ≤ n * c := mul_le_mul_of_nonneg_left (by omega) (le_of_lt hn')
        omega
    rw [hc0] at hc'
    omega
  refine ⟨prof, ?_, hpl, hpkn, hpeak, hk2, ?_⟩
  · unfold voigt_profile
    simp only [← hrolled, ← hpk, hk1, bind, Except.bind, ← hprof, hk2, if_true, pure, Except.pure]
  · intro j hj1 hj2
    rw [hat j hj1 hj2, hget _ (by omega)]
    congr 1
    have : ((((n / 2 : ℕ) : ℤ) + j).toNat : ℝ) = ((n / 2 : ℕ) : ℝ) + j := by
      have h := Int.toNat_of_nonneg (by omega : 0 ≤ ((n / 2 : ℕ) : ℤ) + j)
      rw [← Int.cast_natCast (R := ℝ) (n := (((n / 2 : ℕ) : ℤ) + j).toNat), h, Int.cast_add, Int.cast_natCast]
    rw [this, add_mul, add_sub_cancel_left]
    ring

/-- A profile of amplitude 0 fails its own assertion, unless it is to be centred on the first pixel. -/
theorem voigt_profile_zero {H : ℝ → ℝ → ℝ} {n : ℕ} {dv stddev mean : ℝ} (hn : 0 < n) (hpk : peakIndex n dv mean ≠ 0) :
    voigt_profile H n dv stddev mean 0 = .error .assertionError := by
  have hz : (List.range n).map (fun i : ℕ => H |stddev| ((i : ℝ) * dv - ((n / 2 : ℕ) : ℝ) * dv) / H |stddev| 0 * |0|) =
      List.replicate n 0 := by
    rw [List.eq_replicate_iff]
    simp
  have ha : argmax (List.replicate n (0 : ℝ)) = .ok 0 := by
    obtain ⟨m, h1, h2, -⟩ := maxOf_spec (a := List.replicate n (0 : ℝ)) (by
      intro hc
      have := congrArg List.length hc
      simp at this
      omega)
    have hm : m = 0 := (List.mem_replicate.1 h2).2
    unfold argmax
    rw [h1, hm]
    obtain ⟨k, rfl⟩ : ∃ k, n = k + 1 := ⟨n - 1, by omega⟩
    simp [bind, Except.bind, pure, Except.pure, List.replicate_succ, List.findIdx_cons]
  have hroll : ∀ k, roll (List.replicate n (0 : ℝ)) k = List.replicate n 0 := by
    intro k
    unfold roll
    exact List.rotate_replicate _ _ _
  unfold voigt_profile
  simp only [hz, ha, bind, Except.bind, hroll]
  rw [if_neg (fun h => hpk h.symm)]

example : ∃ prof, voigt_profile (fun b v => Real.exp (-(v / b) ^ 2)) 5 1 2 (-1) 3 = .ok prof ∧ prof.length = 5 := by
  obtain ⟨prof, h1, h2, -⟩ := voigt_profile_spec (H := fun b v => Real.exp (-(v / b) ^ 2)) (n := 5) (dv := 1) (stddev := 2) (mean := -1)
    (amplitude := 3) (by norm_num) (by norm_num) (by norm_num) (by simp [Real.exp_pos]) (by
      intro v hv
      apply Real.exp_lt_exp.2
      have : 0 < (v / |2|) ^ 2 := by positivity
      simpa using this)
  exact ⟨prof, h1, h2⟩

/-- The reported position is a place where the same profile is drawn, if the fitted one was within one length of the spectrum. -/
theorem position_same {n : ℕ} {dv mean : ℝ} (hdv : 0 < dv) (hn : 1 < n) (h1 : -(((n : ℝ) - 1) * dv) ≤ mean)
    (h2 : mean < ((n : ℝ) - 1) * dv) : peakIndex n dv (fmod mean (((n : ℝ) - 1) * dv)) = peakIndex n dv mean := by
  have hn' : (1 : ℝ) < n := by exact_mod_cast hn
  have hW : 0 < ((n : ℝ) - 1) * dv := mul_pos (by linarith) hdv
  by_cases hm : mean < 0
  · have hfl : ⌊mean / (((n : ℝ) - 1) * dv)⌋ = -1 := by
      rw [Int.floor_eq_iff]
      push_cast
      constructor
      · rw [le_div_iff₀ hW]; linarith
      · rw [div_lt_iff₀ hW]; linarith
    have hf : fmod mean (((n : ℝ) - 1) * dv) = mean + ((n : ℝ) - 1) * dv := by
      unfold fmod; rw [hfl]; push_cast; ring
    rw [hf]
    unfold peakIndex
    have e1 : mean / dv < 0 := div_neg_of_neg_of_pos hm hdv
    have e2 : (mean + ((n : ℝ) - 1) * dv) / dv = mean / dv + ((n : ℝ) - 1) := by
      rw [add_div, mul_div_assoc, div_self (ne_of_gt hdv), mul_one]
    have e3 : ¬ (mean + ((n : ℝ) - 1) * dv) / dv < 0 := by
      rw [not_lt]; exact div_nonneg (by linarith) (le_of_lt hdv)
    simp only [if_pos e1, if_neg e3, e2]
    rw [if_neg (by rw [← e2]; exact e3)]
  · have hfl : ⌊mean / (((n : ℝ) - 1) * dv)⌋ = 0 := by
      rw [Int.floor_eq_iff]
      push_cast
      constructor
      · exact div_nonneg (not_lt.1 hm) (le_of_lt hW)
      · rw [zero_add, div_lt_one hW]; exact h2
    have hf : fmod mean (((n : ℝ) - 1) * dv) = mean := by
      unfold fmod; rw [hfl]; push_cast; ring
    rw [hf]

theorem pyround_natCast (k : ℕ) : pyround (k : ℝ) = k := by
  unfold pyround
  simp

/-- A component in the last pixel is reported at position 0, where its profile would be drawn in the first pixel. -/
theorem position_last_pixel {n : ℕ} {dv : ℝ} (hdv : 0 < dv) (hn : 1 < n) :
    peakIndex n dv (((n : ℝ) - 1) * dv) = n - 1 ∧ fmod (((n : ℝ) - 1) * dv) (((n : ℝ) - 1) * dv) = 0 ∧ peakIndex n dv 0 = 0 := by
  have hn' : (1 : ℝ) < n := by exact_mod_cast hn
  have hW : ((n : ℝ) - 1) * dv ≠ 0 := ne_of_gt (mul_pos (by linarith) hdv)
  refine ⟨?_, ?_, ?_⟩
  · unfold peakIndex
    have e1 : ((n : ℝ) - 1) * dv / dv = ((n - 1 : ℕ) : ℝ) := by
      rw [mul_div_assoc, div_self (ne_of_gt hdv), mul_one, Nat.cast_sub (by omega), Nat.cast_one]
    simp only [e1]
    rw [if_neg (not_lt.2 (Nat.cast_nonneg _)), pyround_natCast, Int.emod_eq_of_lt (by omega) (by omega)]
    rfl
  · unfold fmod
    rw [div_self hW, Int.floor_one]
    push_cast
    ring
  · unfold peakIndex
    have := pyround_natCast 0
    simp only [Nat.cast_zero] at this
    simp [this]

/-! The theorems at work for spectra of a few pixels. -/

example := refit_spec (F := toyFitter) (signif := 0.95) (W := 1) (p := ⟨[1, 2], [0, 1], [1, 0.5]⟩) (r := fun k => ⟨Peaks.first ⟨[1, 2], [0, 1], [1, 0.5]⟩ k, 0, true⟩)
  (by norm_num) rfl rfl (fun _ => rfl) (fun _ => le_refl _) (fun _ => rfl)

example := flat_spectrum_fails (F := toyFitter) (N := fun b a => b * a) (dv := 1) (tol := 0.1) (signif := 0.95) (sattau := 4) (close := 5) (W := 1)
  (tau := [0.05, 0.02]) (fuel := 3) (by norm_num) (by norm_num) (by simp) (by simp; norm_num) ⟨_, rfl, rfl⟩

example := position_same (n := 10) (dv := 2) (mean := -5) (by norm_num) (by norm_num) (by norm_num) (by norm_num)

example := position_last_pixel (n := 10) (dv := 2) (by norm_num) (by norm_num)

end Verif.Props
