import Verif.Spec.Voigt
import Verif.Props.VoigtMin

/-!
C40 and C84 for the Voigt function itself: the properties of it that the other theorems assume, proved.
-/

namespace Verif.Props.VoigtFunction
open Verif Verif.Np Verif.Voigt Verif.VoigtMin Verif.Spec

/-- `scipy.special.wofz` is the Faddeeva function in the upper half plane. -/
def IsFaddeeva (wofz : ℂ → ℂ) : Prop := ∀ z : ℂ, 0 < z.im → wofz z = faddeeva z

theorem voigt_eq {wofz : ℂ → ℂ} (hw : IsFaddeeva wofz) {P : Profiles} (hP : 0 < P.voigt_fac) {b : ℝ} (hb : 0 < b) (v : ℝ) :
    P.voigt wofz b v = voigtH (P.voigt_fac / b) (v / b) := by
  have ha : 0 < P.voigt_fac / b := by positivity
  unfold Profiles.voigt
  rw [hw _ (by simpa using ha), faddeeva_re ha]

theorem voigt_fac_pos {table : LineData.Key → Option LineData.Line} {tau : List ℝ} {dv : ℝ} {g : Bool} {key : LineData.Key}
    {ln : LineData.Line} {P : Profiles} (htab : table key = some ln) (hlam : 0 < ln.lambda) (hgam : 0 < ln.gamma)
    (hP : Profiles.init table tau dv g key = .ok P) : 0 < P.voigt_fac := by
  unfold Profiles.init at hP
  rw [htab] at hP
  simp only [Except.ok.injEq] at hP
  rw [← hP]
  simp only
  have := Real.pi_pos
  positivity

theorem voigt_pos {wofz : ℂ → ℂ} (hw : IsFaddeeva wofz) {P : Profiles} (hP : 0 < P.voigt_fac) (b v : ℝ) (hb : 0 < b) :
    0 < P.voigt wofz b v := by
  rw [voigt_eq hw hP hb]
  exact voigtH_pos (by positivity) _

theorem voigt_max {wofz : ℂ → ℂ} (hw : IsFaddeeva wofz) {P : Profiles} (hP : 0 < P.voigt_fac) (b v : ℝ) (hb : 0 < b) (hv : v ≠ 0) :
    P.voigt wofz b v < P.voigt wofz b 0 := by
  rw [voigt_eq hw hP hb, voigt_eq hw hP hb]
  refine voigtH_lt (by positivity) ?_
  rw [zero_div, abs_zero]
  exact abs_pos.2 (div_ne_zero hv hb.ne')

/-- C40, except for spectra without peaks and peaks without a minimum, for the Voigt function of a line with damping: for a bounded
minimiser and an optimiser that returns as many parameters as it was given, `do_fit` ends after at most one turn per pixel, with
consistent results, or the assertion fails that the spectrum, or what is left of it, has a minimum. -/
theorem do_fit_voigt_partial {wofz : ℂ → ℂ} (hw : IsFaddeeva wofz) {table : LineData.Key → Option LineData.Line} {tau : List ℝ} {dv : ℝ}
    {key : LineData.Key} {ln : LineData.Line} {P : Profiles} (htab : table key = some ln) (hlam : 0 < ln.lambda) (hgam : 0 < ln.gamma)
    (hP : Profiles.init table tau dv false key = .ok P) {minScalar : (ℝ → Py ℝ) → Py ℝ} {minimize : (List ℝ → Py ℝ) → List ℝ → Py MinRes}
    {tol signif sattau : ℝ} {fuel : ℕ} (hdv : 0 < dv) (hn : 1 < tau.length) (htol : 0 ≤ tol)
    (hscalar : ∀ f x, minScalar f = .ok x → 1 ≤ x ∧ x ≤ 120)
    (hraise : ∀ f e, minScalar f = .error e → ∃ x, 1 ≤ x ∧ x ≤ 120 ∧ f x = .error e)
    (hmin : ∀ l, ∃ r, minimize (fun_min_multiple (P.profile wofz) tau) l = .ok r ∧ 0 ≤ r.fval ∧ r.x.length = l.length)
    (hfuel : tau.length < fuel) :
    (∃ p fit k, do_fit (P.fitter wofz minScalar minimize) dv tol signif sattau tau ⟨[], [], []⟩ fuel = some (.ok (p, fit)) ∧
      p.means.Nodup ∧ p.means.length = p.stddev.length ∧ p.stddev.length ≤ tau.length ∧
      fit.stddev.length = k ∧ fit.means.length = k ∧ fit.amplitudes.length = k ∧ k ≤ p.stddev.length ∧
      (p.stddev ≠ [] → 0 < k) ∧ (∀ b ∈ fit.stddev, 0 ≤ b) ∧ ∀ m ∈ fit.means, 0 ≤ m ∧ m < ((tau.length : ℝ) - 1) * dv) ∨
    (do_fit (P.fitter wofz minScalar minimize) dv tol signif sattau tau ⟨[], [], []⟩ fuel = some (.error .assertionError) ∧
      ∃ g : List ℝ, g.length = tau.length ∧ allMins g = .ok [] ∧ g.getD 0 0 = g.getD (g.length - 1) 0) := by
  have hfac := voigt_fac_pos htab hlam hgam hP
  obtain ⟨e1, e2, e3⟩ : P.tau = tau ∧ P.dvbin = dv ∧ P.gaussian = false := by
    unfold Profiles.init at hP
    rw [htab] at hP
    simp only [Except.ok.injEq] at hP
    rw [← hP]
    exact ⟨rfl, rfl, rfl⟩
  subst e1
  subst e2
  exact do_fit_ends_partial e3 hdv hn htol (voigt_pos hw hfac) (voigt_max hw hfac) hscalar hraise hmin hfuel

/-- C84: the fitted spectrum is, in each pixel, the sum of the Voigt functions of the components. -/
theorem fitted_profile_voigt {wofz : ℂ → ℂ} (hw : IsFaddeeva wofz) {P : Profiles} {f : Fit} (hfac : 0 < P.voigt_fac) (hg : P.gaussian = false)
    (hdv : 0 < P.dvbin) (hn : 0 < P.tau.length)
    {cs : List (ℝ × ℝ × ℝ)} (h1 : f.stddev = cs.map (fun c => c.1)) (h2 : f.means = cs.map (fun c => c.2.1))
    (h3 : f.amplitudes = cs.map (fun c => c.2.2)) (hb : ∀ c ∈ cs, c.1 ≠ 0 ∧ c.2.2 ≠ 0) :
    ∃ l, P.get_fitted_profile wofz f = .ok ((List.range P.tau.length).map (fun (i : ℕ) => (i : ℝ) * P.dvbin), l) ∧
      l.length = P.tau.length ∧ ∀ i < P.tau.length, l[i]? = some (cs.map (fun c => |c.2.2| *
        (voigtH (P.voigt_fac / |c.1|) ((pixelsFrom P.tau.length (peakIndex P.tau.length P.dvbin c.2.1) i : ℝ) * P.dvbin / |c.1|) /
          voigtH (P.voigt_fac / |c.1|) 0))).sum := by
  obtain ⟨l, e1, e2, e3⟩ := fitted_profile_spec hg hdv hn (voigt_pos hw hfac) (voigt_max hw hfac) h1 h2 h3 hb
  refine ⟨l, e1, e2, fun i hi => ?_⟩
  rw [e3 i hi]
  congr 2
  refine List.map_congr_left fun c hc => ?_
  have hb0 : 0 < |c.1| := abs_pos.2 (hb c hc).1
  rw [voigt_eq hw hfac hb0, voigt_eq hw hfac hb0, zero_div]

theorem voigt_integral {wofz : ℂ → ℂ} (hw : IsFaddeeva wofz) {P : Profiles} (hP : 0 < P.voigt_fac) {b : ℝ} (hb : 0 < b) :
    ∫ v, P.voigt wofz b v = b * √Real.pi := by
  simp_rw [voigt_eq hw hP hb]
  rw [MeasureTheory.Measure.integral_comp_div (voigtH (P.voigt_fac / b)), voigtH_integral (by positivity), abs_of_pos hb, smul_eq_mul]

/-- C84: the column density reported for a component is the one whose optical depth, integrated over velocity and divided by cross
section and speed of light (as used by the fitter), is that of the fitted Voigt profile. -/
theorem column_density_integral {wofz : ℂ → ℂ} (hw : IsFaddeeva wofz) {table : LineData.Key → Option LineData.Line} {tau : List ℝ} {dv : ℝ}
    {g : Bool} {key : LineData.Key} {ln : LineData.Line} {P : Profiles} (htab : table key = some ln) (hlam : 0 < ln.lambda) (hf : 0 < ln.fosc)
    (hgam : 0 < ln.gamma) (hP : Profiles.init table tau dv g key = .ok P) {b amp : ℝ} (hb : 0 < b) :
    P.get_column_density wofz b amp * (√(3 * Real.pi * 6.652458558e-25 / 8) * (ln.lambda / 1e8) * ln.fosc) * 2.99e5 =
      ∫ v, amp * (voigtH (ln.gamma * ln.lambda / (4 * Real.pi) / 1e13 / b) (v / b) / voigtH (ln.gamma * ln.lambda / (4 * Real.pi) / 1e13 / b) 0) := by
  have hfac := voigt_fac_pos htab hlam hgam hP
  rw [column_density_integral_partial htab hlam hf hP (voigt_integral hw hfac hb) (voigt_pos hw hfac b 0 hb).ne']
  have e : P.voigt_fac = ln.gamma * ln.lambda / (4 * Real.pi) / 1e13 := by
    unfold Profiles.init at hP
    rw [htab] at hP
    simp only [Except.ok.injEq] at hP
    rw [← hP]
  congr 1
  funext v
  rw [voigt_eq hw hfac hb, voigt_eq hw hfac hb, zero_div, e]

/-- Witness: the Faddeeva function, and the Lyman α line of hydrogen. -/
example : ∃ (wofz : ℂ → ℂ) (table : LineData.Key → Option LineData.Line) (key : LineData.Key) (ln : LineData.Line) (P : Profiles),
    IsFaddeeva wofz ∧ table key = some ln ∧ 0 < ln.lambda ∧ 0 < ln.fosc ∧ 0 < ln.gamma ∧
    Profiles.init table [0, 2, 1] 1 false key = .ok P := by
  refine ⟨faddeeva, fun _ => some ⟨1215.6701, 0.4164, 6.265e8⟩, ("H".toList, 1, 1215), ⟨1215.6701, 0.4164, 6.265e8⟩, _, fun _ _ => rfl, rfl,
    by norm_num, by norm_num, by norm_num, rfl⟩

/-- Two components, one of them with a negative amplitude as the minimiser may give it. -/
example := fitted_profile_voigt (wofz := faddeeva) (fun _ _ => rfl) (P := ⟨1, [0, 2, 1], false, 1, 1, 1⟩) (f := ⟨[3, -2], [0, 1], [-1, 2]⟩)
  (by norm_num) rfl (by norm_num) (by norm_num) (cs := [(3, 0, -1), (-2, 1, 2)]) rfl rfl rfl (by
    intro c hc
    simp only [List.mem_cons, List.not_mem_nil, or_false] at hc
    rcases hc with rfl | rfl <;> norm_num)

end Verif.Props.VoigtFunction
