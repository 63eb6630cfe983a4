import Verif.Model.MeanFlux
import Mathlib.Analysis.SpecialFunctions.Log.Basic
import Mathlib.Analysis.Complex.ExponentialBounds

/-! Helper lemmas for the mean flux iteration. -/

namespace Verif.MeanFlux

theorem fluxSum_nonneg (us : List ℝ) (s : ℝ) : 0 ≤ fluxSum us s := by
  unfold fluxSum
  apply List.sum_nonneg
  intro x hx
  obtain ⟨t, -, rfl⟩ := List.mem_map.1 hx
  exact (Real.exp_pos _).le

theorem tauFluxSum_nonneg {us : List ℝ} (h : ∀ t ∈ us, 0 ≤ t) (s : ℝ) : 0 ≤ tauFluxSum us s := by
  unfold tauFluxSum
  apply List.sum_nonneg
  intro x hx
  obtain ⟨t, ht, rfl⟩ := List.mem_map.1 hx
  exact mul_nonneg (Real.exp_pos _).le (h t ht)

theorem tauFluxSum_pos {us : List ℝ} (h : ∀ t ∈ us, 0 ≤ t) (hp : ∃ t ∈ us, 0 < t) (s : ℝ) : 0 < tauFluxSum us s := by
  induction us with
  | nil => obtain ⟨t, ht, -⟩ := hp; cases ht
  | cons u us ih =>
    have hu : 0 ≤ Real.exp (-s * u) * u := mul_nonneg (Real.exp_pos _).le (h u (by simp))
    have hus := tauFluxSum_nonneg (fun t ht => h t (by simp [ht])) (us := us) s
    have e : tauFluxSum (u :: us) s = Real.exp (-s * u) * u + tauFluxSum us s := by simp [tauFluxSum]
    rw [e]
    obtain ⟨t, ht, htp⟩ := hp
    rcases List.mem_cons.1 ht with rfl | ht
    · have : 0 < Real.exp (-s * t) * t := mul_pos (Real.exp_pos _) htp
      linarith
    · have := ih (fun t ht => h t (by simp [ht])) ⟨t, ht, htp⟩
      linarith

/-- The tangent lies below the curve: `exp(-x t) ≥ exp(-s t) - t exp(-s t) (x - s)`. -/
theorem tangent_le (us : List ℝ) (s x : ℝ) : fluxSum us s - tauFluxSum us s * (x - s) ≤ fluxSum us x := by
  induction us with
  | nil => simp [fluxSum, tauFluxSum]
  | cons u us ih =>
    have e1 : tauFluxSum (u :: us) s = Real.exp (-s * u) * u + tauFluxSum us s := by simp [tauFluxSum]
    have e2 : ∀ y, fluxSum (u :: us) y = Real.exp (-y * u) + fluxSum us y := by intro y; simp [fluxSum]
    rw [e1, e2, e2]
    have h1 : Real.exp (-x * u) = Real.exp (-s * u) * Real.exp (-(x - s) * u) := by
      rw [← Real.exp_add]; congr 1; ring
    have h2 := Real.add_one_le_exp (-(x - s) * u)
    have h3 := mul_le_mul_of_nonneg_left h2 (Real.exp_pos (-s * u)).le
    rw [← h1] at h3
    nlinarith

theorem fluxSum_anti {us : List ℝ} (h : ∀ t ∈ us, 0 ≤ t) {s x : ℝ} (hsx : s ≤ x) : fluxSum us x ≤ fluxSum us s := by
  unfold fluxSum
  apply List.sum_le_sum
  intro t ht
  exact Real.exp_le_exp.2 (by nlinarith [h t ht])

/-- `t exp(-s t) ≤ 1/(e s)`. -/
theorem tauFluxSum_le {us : List ℝ} {s : ℝ} (hs : 0 < s) : tauFluxSum us s ≤ us.length * (Real.exp (-1) / s) := by
  induction us with
  | nil => simp [tauFluxSum]
  | cons u us ih =>
    have e1 : tauFluxSum (u :: us) s = Real.exp (-s * u) * u + tauFluxSum us s := by simp [tauFluxSum]
    rw [e1]
    have h1 : Real.exp (-s * u) * u ≤ Real.exp (-1) / s := by
      rw [le_div_iff₀ hs]
      have h2 := Real.add_one_le_exp (s * u - 1)
      have h3 : Real.exp (-1) = Real.exp (-s * u) * Real.exp (s * u - 1) := by
        rw [← Real.exp_add]; congr 1; ring
      rw [h3]
      nlinarith [Real.exp_pos (-s * u)]
    push_cast [List.length_cons]
    linarith

/-- A scale at which the mean flux is below the target, when fewer pixels than that have no absorption. -/
theorem exists_below {us : List ℝ} (h : ∀ t ∈ us, 0 ≤ t) {c : ℝ} (hc : ((us.filter (fun t => t = 0)).length : ℝ) < c) :
    ∃ S, fluxSum us S < c := by
  have key : Filter.Tendsto (fluxSum us) Filter.atTop (nhds ((us.filter (fun t => t = 0)).length : ℝ)) := by
    clear hc
    induction us with
    | nil =>
      have : fluxSum [] = fun _ => 0 := by funext y; simp [fluxSum]
      rw [this]
      simp
    | cons u us ih =>
      have e2 : fluxSum (u :: us) = fun y => Real.exp (-y * u) + fluxSum us y := by funext y; simp [fluxSum]
      rw [e2]
      have ih' := ih (fun t ht => h t (by simp [ht]))
      by_cases hu : u = 0
      · subst hu
        rw [List.filter_cons_of_pos (by simp)]
        push_cast [List.length_cons]
        rw [add_comm _ (1 : ℝ)]
        simpa using ih'.const_add 1
      · rw [List.filter_cons_of_neg (by simpa using hu)]
        have hup : 0 < u := lt_of_le_of_ne (h u (by simp)) (Ne.symm hu)
        have : Filter.Tendsto (fun y : ℝ => Real.exp (-y * u)) Filter.atTop (nhds 0) := by
          apply Real.tendsto_exp_atBot.comp
          have := Filter.tendsto_neg_atTop_atBot.comp (Filter.tendsto_id.atTop_mul_const hup)
          refine this.congr ?_
          intro y; simp
        simpa using this.add ih'
  obtain ⟨S, hS⟩ := ((key.eventually (gt_mem_nhds hc))).exists
  exact ⟨S, hS⟩

/-- The loop ends and its result comes from one pass: a step function that maps positive scales to scales that
are at most `B`, and from the second pass on never decrease. -/
theorem loop_ends {step : ℝ → Option ℝ} {tol B lo : ℝ} (htol : 0 < tol) (hlo : 0 < lo) {P : ℝ → Prop}
    (hstep : ∀ s, P s → ∃ ν, step s = some ν ∧ P ν ∧ s ≤ ν) (hP : ∀ s, P s → lo ≤ s ∧ s ≤ B) :
    ∀ s, P s → ∃ fuel s' ν, loop step tol fuel s = some (some ν) ∧ P s' ∧ step s' = some ν ∧
      |ν - s'| ≤ tol * ν := by
  have H : ∀ n : ℕ, ∀ s, P s → B < s + (n + 1) * (tol * lo) →
      ∃ fuel s' ν, loop step tol fuel s = some (some ν) ∧ P s' ∧ step s' = some ν ∧ |ν - s'| ≤ tol * ν := by
    intro n
    induction n with
    | zero =>
      intro s hs hB
      obtain ⟨ν, h1, h2, h3⟩ := hstep s hs
      have h4 := hP ν h2
      refine ⟨1, s, ν, ?_, hs, h1, ?_⟩
      · unfold loop
        rw [h1]
        dsimp only
        rw [if_neg]
        rw [not_lt, abs_of_nonneg (by linarith)]
        have : tol * lo ≤ tol * ν := mul_le_mul_of_nonneg_left h4.1 htol.le
        push_cast at hB
        linarith
      · rw [abs_of_nonneg (by linarith)]
        have : tol * lo ≤ tol * ν := mul_le_mul_of_nonneg_left h4.1 htol.le
        push_cast at hB
        linarith
    | succ n ih =>
      intro s hs hB
      obtain ⟨ν, h1, h2, h3⟩ := hstep s hs
      have h4 := hP ν h2
      by_cases hc : |ν - s| > tol * ν
      · have hν : s + tol * lo < ν := by
          rw [abs_of_nonneg (by linarith)] at hc
          have : tol * lo ≤ tol * ν := mul_le_mul_of_nonneg_left h4.1 htol.le
          linarith
        obtain ⟨fuel, s', ν', a1, a2, a3, a4⟩ := ih ν h2 (by push_cast at hB ⊢; nlinarith)
        refine ⟨fuel + 1, s', ν', ?_, a2, a3, a4⟩
        unfold loop
        rw [h1]
        dsimp only
        rw [if_pos hc]
        exact a1
      · refine ⟨1, s, ν, ?_, hs, h1, not_lt.1 hc⟩
        unfold loop
        rw [h1]
        dsimp only
        rw [if_neg hc]
  intro s hs
  obtain ⟨n, hn⟩ := exists_nat_gt ((B - s) / (tol * lo))
  refine H n s hs ?_
  rw [div_lt_iff₀ (by positivity)] at hn
  nlinarith [mul_pos htol hlo]

theorem loop_mono {step : ℝ → Option ℝ} {tol : ℝ} {fuel : ℕ} : ∀ {s : ℝ} {r : Option ℝ},
    loop step tol fuel s = some r → ∀ k, loop step tol (fuel + k) s = some r := by
  induction fuel with
  | zero => intro s r h; cases h
  | succ fuel ih =>
    intro s r h k
    rw [Nat.add_right_comm]
    unfold loop at h ⊢
    cases hs : step s with
    | none => rw [hs] at h; exact h
    | some ν =>
      rw [hs] at h
      dsimp only at h ⊢
      split
      · next hc =>
        rw [if_pos hc] at h
        exact ih h k
      · next hc =>
        rw [if_neg hc] at h
        exact h

/-- What one pass returns when it is not clamped: the zero of the tangent. It is at most where the curve
crosses the target, and if it is close to the starting point the mean flux there is close to the target. -/
theorem newton_below {us : List ℝ} (h : ∀ t ∈ us, 0 ≤ t) (hp : ∃ t ∈ us, 0 < t) {c s ν : ℝ}
    (hν : ν = s + (fluxSum us s - c) / tauFluxSum us s) : c ≤ fluxSum us ν := by
  have hd := tauFluxSum_pos h hp s
  have := tangent_le us s ν
  have e : fluxSum us s - tauFluxSum us s * (ν - s) = c := by
    rw [hν]; field_simp; ring
  linarith

theorem newton_close {us : List ℝ} (h : ∀ t ∈ us, 0 ≤ t) (hp : ∃ t ∈ us, 0 < t) {c s ν tol : ℝ}
    (hν : ν = s + (fluxSum us s - c) / tauFluxSum us s) (hpos : 0 < ν) (htol : 0 < tol) (htol1 : tol ≤ 1 / 2)
    (hc : |ν - s| ≤ tol * ν) : fluxSum us ν ≤ c + tol * us.length := by
  have hd := tauFluxSum_pos h hp s
  have hnum : fluxSum us s - c = tauFluxSum us s * (ν - s) := by rw [hν]; field_simp; ring
  have he : Real.exp (-1) ≤ 1 / 2 := by
    have := Real.exp_neg_one_lt_d9
    linarith
  have hs : 0 < s := by
    have := (abs_le.1 hc).2
    nlinarith
  have hlen : (0 : ℝ) ≤ us.length := Nat.cast_nonneg _
  rcases le_total s ν with hle | hle
  · -- below the target: the flux only falls on the way to the new scale
    have h1 := fluxSum_anti h hle
    have h2 := tauFluxSum_le (us := us) hs
    rw [abs_of_nonneg (by linarith)] at hc
    have h3 : (1 / 2) * ν ≤ s := by nlinarith
    have h4 : tauFluxSum us s * (ν - s) ≤ us.length * (Real.exp (-1) / s) * (tol * ν) := by
      apply mul_le_mul h2 hc (by linarith)
      positivity
    have h5 : Real.exp (-1) / s * ν ≤ 1 := by
      rw [div_mul_eq_mul_div, div_le_one hs]
      nlinarith [Real.exp_pos (-1)]
    have h6 : us.length * (Real.exp (-1) / s) * (tol * ν) ≤ tol * us.length := by
      have : us.length * (Real.exp (-1) / s) * (tol * ν) = (tol * us.length) * (Real.exp (-1) / s * ν) := by ring
      rw [this]
      exact mul_le_of_le_one_right (by positivity) h5
    linarith
  · have h1 := tangent_le us ν s
    have h2 := tauFluxSum_le (us := us) hpos
    rw [abs_of_nonpos (by linarith)] at hc
    have h3 : tauFluxSum us ν * (s - ν) ≤ us.length * (Real.exp (-1) / ν) * (tol * ν) := by
      apply mul_le_mul h2 (by linarith) (by linarith)
      positivity
    have h4 : us.length * (Real.exp (-1) / ν) * (tol * ν) = us.length * (Real.exp (-1) * tol) := by
      field_simp
    have h5 : us.length * (Real.exp (-1) * tol) ≤ tol * us.length := by
      nlinarith [mul_nonneg hlen htol.le]
    have h6 : fluxSum us s - c ≤ 0 := by rw [hnum]; nlinarith
    linarith

end Verif.MeanFlux
