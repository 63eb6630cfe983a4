import Verif.Model.TempDens
import Verif.Props.GasProps
import Verif.Props.Units
import Verif.Props.RateGas

/-!
C87: the temperature-density relation of a snapshot (tempdens.py).
-/

namespace Verif.Props
open Verif Verif.TempDens

/-! ### Specification -/

/-- How far the power law `T = T0 Δ^(γ - 1)` is from particles with overdensity `Δ` and temperature `T`: squared differences of the
decimal logarithms of the temperatures. -/
noncomputable def powerLawMisfit (gas : List (ℝ × ℝ)) (T0 γ : ℝ) : ℝ :=
  (gas.map (fun p => (Real.logb 10 p.2 - Real.logb 10 (T0 * p.1 ^ (γ - 1))) ^ 2)).sum

/-- The gas of the forest: between one and ten times the mean density, and cooler than 10^5 K (but not below 10^0.1 K). -/
def IsForest (p : ℝ × ℝ) : Prop := 1 < p.1 ∧ p.1 < 10 ∧ (10 : ℝ) ^ (0.1 : ℝ) < p.2 ∧ p.2 < 10 ^ 5

/-- An optimiser that finds the least sum of squares if it returns. -/
def ExactLeastsq (leastsq : Leastsq) : Prop :=
  ∀ f x0 p, leastsq f x0 = .ok p → ∀ q, ((f p).map (fun x => x ^ 2)).sum ≤ ((f q).map (fun x => x ^ 2)).sum

/-- `(T0, γ)` is the one power law that is closest to the gas. -/
def BestPowerLaw (gas : List (ℝ × ℝ)) (r : ℝ × ℝ) : Prop :=
  0 < r.1 ∧ ∀ T0 γ, 0 < T0 → powerLawMisfit gas r.1 r.2 ≤ powerLawMisfit gas T0 γ ∧
    (powerLawMisfit gas T0 γ = powerLawMisfit gas r.1 r.2 → (T0, γ) = r)

/-- `m` is a median: at most half of the values are below it, at most half above it. -/
def IsMedian (a : List ℝ) (m : ℝ) : Prop :=
  2 * (a.countP (fun x => decide (x < m))) ≤ a.length ∧ 2 * (a.countP (fun x => decide (m < x))) ≤ a.length

/-! ### Logarithms -/

theorem log10_eq (x : ℝ) : log10 x = Real.logb 10 x := rfl

theorem logb_power_law {T0 γ Δ : ℝ} (hT : 0 < T0) (hΔ : 0 < Δ) :
    Real.logb 10 (T0 * Δ ^ (γ - 1)) = Real.logb 10 T0 + (γ - 1) * Real.logb 10 Δ := by
  rw [Real.logb_mul hT.ne' (Real.rpow_pos_of_pos hΔ _).ne', Real.logb_rpow_eq_mul_logb_of_pos hΔ]

theorem forest_iff {Δ T : ℝ} (hΔ : 0 < Δ) (hT : 0 < T) :
    (0 < Real.logb 10 Δ ∧ Real.logb 10 Δ < 1 ∧ 0.1 < Real.logb 10 T ∧ Real.logb 10 T < 5) ↔ IsForest (Δ, T) := by
  unfold IsForest
  have h1 : (0 < Real.logb 10 Δ ↔ 1 < Δ) := Real.logb_pos_iff (by norm_num) hΔ
  have h2 : (Real.logb 10 Δ < 1 ↔ Δ < 10) := by
    rw [Real.logb_lt_iff_lt_rpow (by norm_num) hΔ, Real.rpow_one]
  have h3 : (0.1 < Real.logb 10 T ↔ (10 : ℝ) ^ (0.1 : ℝ) < T) := Real.lt_logb_iff_rpow_lt (by norm_num) hT
  have h4 : (Real.logb 10 T < 5 ↔ T < 10 ^ 5) := by
    rw [Real.logb_lt_iff_lt_rpow (by norm_num) hT]
    norm_num
  rw [h1, h2, h3, h4]

open Classical in
theorem forest_map {gas : List (ℝ × ℝ)} (hpos : ∀ p ∈ gas, 0 < p.1 ∧ 0 < p.2) :
    forest (gas.map (fun p => (Real.logb 10 p.1, Real.logb 10 p.2))) =
      (gas.filter (fun p => decide (IsForest p))).map (fun p => (Real.logb 10 p.1, Real.logb 10 p.2)) := by
  unfold forest
  rw [List.filter_map]
  congr 1
  apply List.filter_congr
  intro p hp
  obtain ⟨h1, h2⟩ := hpos p hp
  simp only [Function.comp, decide_eq_decide]
  exact forest_iff h1 h2

/-! ### Least squares -/

/-- The sum of squares that is minimised. -/
noncomputable def squares (pts : List (ℝ × ℝ)) (q : ℝ × ℝ) : ℝ := ((min_func pts q).map (fun x => x ^ 2)).sum

theorem squares_misfit {gas : List (ℝ × ℝ)} (hpos : ∀ p ∈ gas, 0 < p.1) {T0 γ : ℝ} (hT : 0 < T0) :
    powerLawMisfit gas T0 γ = squares (gas.map (fun p => (Real.logb 10 p.1, Real.logb 10 p.2))) (Real.logb 10 T0, γ - 1) := by
  unfold powerLawMisfit squares min_func
  rw [List.map_map, List.map_map]
  congr 1
  apply List.map_congr_left
  intro p hp
  simp only [Function.comp]
  rw [logb_power_law hT (hpos p hp)]

theorem squares_mid (pts : List (ℝ × ℝ)) (p q : ℝ × ℝ) :
    squares pts ((p.1 + q.1) / 2, (p.2 + q.2) / 2) =
      (squares pts p + squares pts q) / 2 - (pts.map (fun x => ((p.1 - q.1) + (p.2 - q.2) * x.1) ^ 2)).sum / 4 := by
  unfold squares min_func
  induction pts with
  | nil => simp
  | cons x pts ih =>
    simp only [List.map_cons, List.sum_cons] at ih ⊢
    rw [ih]
    ring

/-- Two minimisers are the same if two points have different abscissae. -/
theorem squares_unique {pts : List (ℝ × ℝ)} {p q x y : ℝ × ℝ} (hx : x ∈ pts) (hy : y ∈ pts) (hxy : x.1 ≠ y.1)
    (hmin : ∀ r, squares pts p ≤ squares pts r) (hq : squares pts q = squares pts p) : q = p := by
  have h := hmin ((p.1 + q.1) / 2, (p.2 + q.2) / 2)
  rw [squares_mid, hq] at h
  have hnn : ∀ v ∈ pts.map (fun x => ((p.1 - q.1) + (p.2 - q.2) * x.1) ^ 2), 0 ≤ v := by
    intro v hv
    obtain ⟨x, -, rfl⟩ := List.mem_map.1 hv
    exact sq_nonneg _
  have h0 : (pts.map (fun x => ((p.1 - q.1) + (p.2 - q.2) * x.1) ^ 2)).sum ≤ 0 := by linarith
  have hz : ∀ z ∈ pts, (p.1 - q.1) + (p.2 - q.2) * z.1 = 0 := by
    intro z hz
    have := List.single_le_sum hnn _ (List.mem_map.2 ⟨z, hz, rfl⟩)
    exact pow_eq_zero_iff (two_ne_zero) |>.1 (le_antisymm (this.trans h0) (sq_nonneg _))
  have e1 := hz x hx
  have e2 := hz y hy
  have h2 : p.2 - q.2 = 0 := by
    have : (p.2 - q.2) * (x.1 - y.1) = 0 := by linarith
    rcases mul_eq_zero.1 this with h | h
    · exact h
    · exact absurd (sub_eq_zero.1 h) hxy
  rw [h2] at e1
  exact Prod.ext (by linarith) (by linarith)

open Classical in
/-- C87, the fit: given overdensities and temperatures of gas, `fit_temp_dens_relation` returns the one power law that is closest to the
gas of the forest, when that has two particles of different density; all other gas does not matter. -/
theorem td_fit_spec {leastsq : Leastsq} (hls : ExactLeastsq leastsq) {gas : List (ℝ × ℝ)} (hpos : ∀ p ∈ gas, 0 < p.1 ∧ 0 < p.2)
    {a b : ℝ × ℝ} (ha : a ∈ gas) (hb : b ∈ gas) (hfa : IsForest a) (hfb : IsForest b) (hab : a.1 ≠ b.1) {r : ℝ × ℝ}
    (hr : fit_temp_dens_relation leastsq (gas.map (fun p => (log10 p.1, log10 p.2))) = .ok r) :
    BestPowerLaw (gas.filter (fun p => decide (IsForest p))) r := by
  set sel := gas.filter (fun p => decide (IsForest p)) with hsel
  have hsp : ∀ p ∈ sel, 0 < p.1 := fun p hp => (hpos p (List.mem_filter.1 hp).1).1
  unfold fit_temp_dens_relation at hr
  simp only [log10_eq, forest_map hpos] at hr
  rw [← hsel] at hr
  set pts := sel.map (fun p => (Real.logb 10 p.1, Real.logb 10 p.2)) with hpts
  split_ifs at hr with hl
  cases hp : leastsq (min_func pts) (Real.logb 10 1e4, 0.5) with
  | error e => rw [hp] at hr; simp [bind, Except.bind] at hr
  | ok p =>
    rw [hp] at hr
    simp only [bind, Except.bind, pure, Except.pure, Except.ok.injEq] at hr
    subst hr
    have hmin : ∀ q, squares pts p ≤ squares pts q := hls _ _ _ hp
    have hT : (0 : ℝ) < 10 ^ p.1 := Real.rpow_pos_of_pos (by norm_num) _
    have hpp : ((Real.logb 10 ((10 : ℝ) ^ p.1), p.2 + 1 - 1) : ℝ × ℝ) = p := by
      rw [Real.logb_rpow (by norm_num) (by norm_num)]
      exact Prod.ext rfl (by ring)
    refine ⟨hT, fun T0 γ h0 => ?_⟩
    rw [squares_misfit hsp hT, squares_misfit hsp h0, hpp]
    refine ⟨hmin _, fun he => ?_⟩
    have hmem : ∀ {c : ℝ × ℝ}, c ∈ gas → IsForest c → ((Real.logb 10 c.1, Real.logb 10 c.2) : ℝ × ℝ) ∈ pts := by
      intro c hc hf
      exact List.mem_map.2 ⟨c, List.mem_filter.2 ⟨hc, by simpa using hf⟩, rfl⟩
    have hne : Real.logb 10 a.1 ≠ Real.logb 10 b.1 := by
      intro h
      exact hab (Real.logb_injOn_pos (by norm_num) (hpos a ha).1 (hpos b hb).1 h)
    have hu := squares_unique (hmem ha hfa) (hmem hb hfb) hne hmin he
    have e1 : Real.logb 10 T0 = p.1 := congrArg Prod.fst hu
    have e2 : γ - 1 = p.2 := congrArg Prod.snd hu
    refine Prod.ext ?_ (by simp only; linarith)
    simp only
    rw [← e1, Real.rpow_logb (by norm_num) (by norm_num) h0]

/-- Gas on a power law: the closest power law is that one. -/
theorem best_power_law_exact {gas : List (ℝ × ℝ)} {r : ℝ × ℝ} (hbest : BestPowerLaw gas r) {T0 γ : ℝ} (hT : 0 < T0)
    (h : ∀ p ∈ gas, p.2 = T0 * p.1 ^ (γ - 1)) : r = (T0, γ) := by
  obtain ⟨-, h2⟩ := hbest
  have h0 : powerLawMisfit gas T0 γ = 0 := by
    unfold powerLawMisfit
    apply List.sum_eq_zero
    intro x hx
    obtain ⟨p, hp, rfl⟩ := List.mem_map.1 hx
    rw [← h p hp]
    simp
  have hnn : 0 ≤ powerLawMisfit gas r.1 r.2 := by
    unfold powerLawMisfit
    apply List.sum_nonneg
    intro x hx
    obtain ⟨p, -, rfl⟩ := List.mem_map.1 hx
    exact sq_nonneg _
  exact ((h2 T0 γ hT).2 (le_antisymm (h0 ▸ hnn) (h2 T0 γ hT).1)).symm

open Classical in
/-- With fewer than two particles of the forest there is no fit. -/
theorem td_fit_few {leastsq : Leastsq} {gas : List (ℝ × ℝ)} (hpos : ∀ p ∈ gas, 0 < p.1 ∧ 0 < p.2)
    (h : (gas.filter (fun p => decide (IsForest p))).length < 2) :
    fit_temp_dens_relation leastsq (gas.map (fun p => (log10 p.1, log10 p.2))) = .error .typeError := by
  unfold fit_temp_dens_relation
  simp only [log10_eq, forest_map hpos]
  rw [if_pos (by simpa using h)]

/-! ### The median -/

theorem countP_split {a : List ℝ} (k : ℕ) (p : ℝ → Bool) : a.countP p = (a.take k).countP p + (a.drop k).countP p := by
  conv_lhs => rw [← List.take_append_drop k a]
  rw [List.countP_append]

/-- In a sorted list, at most `k` values are below that at position `k`, at most `length - 1 - k` above. -/
theorem sorted_count {s : List ℝ} (hs : s.Pairwise (· ≤ ·)) {k : ℕ} (hk : k < s.length) {m : ℝ} :
    (m ≤ s[k] → s.countP (fun x => decide (x < m)) ≤ k) ∧ (s[k] ≤ m → s.countP (fun x => decide (m < x)) ≤ s.length - 1 - k) := by
  constructor
  · intro hm
    rw [countP_split k]
    have h0 : (s.drop k).countP (fun x => decide (x < m)) = 0 := by
      rw [List.countP_eq_zero]
      intro x hx
      obtain ⟨j, hj, rfl⟩ := List.getElem_of_mem hx
      rw [List.getElem_drop]
      simp only [decide_eq_true_eq, not_lt]
      refine hm.trans ?_
      rcases Nat.eq_zero_or_pos j with rfl | hj0
      · simp
      · rw [List.length_drop] at hj
        exact List.pairwise_iff_getElem.1 hs k (k + j) hk (by omega) (by omega)
    rw [h0, add_zero]
    exact (List.countP_le_length).trans (by rw [List.length_take]; exact min_le_left _ _)
  · intro hm
    rw [countP_split (k + 1)]
    have h0 : (s.take (k + 1)).countP (fun x => decide (m < x)) = 0 := by
      rw [List.countP_eq_zero]
      intro x hx
      obtain ⟨j, hj, rfl⟩ := List.getElem_of_mem hx
      rw [List.length_take] at hj
      rw [List.getElem_take]
      simp only [decide_eq_true_eq, not_lt]
      refine le_trans ?_ hm
      rcases (by omega : j = k ∨ j < k) with rfl | hjk
      · exact le_rfl
      · exact List.pairwise_iff_getElem.1 hs j k (by omega) hk hjk
    rw [h0, zero_add]
    refine (List.countP_le_length).trans ?_
    rw [List.length_drop]; omega

/-- `np.median` is a median. -/
theorem median_spec (a : List ℝ) : (median a = none ↔ a = []) ∧ ∀ m, median a = some m → IsMedian a m := by
  have hperm : (a.mergeSort (fun x y => decide (x ≤ y))).Perm a := List.mergeSort_perm _ _
  have hsort : (a.mergeSort (fun x y => decide (x ≤ y))).Pairwise (· ≤ ·) := by
    have := List.pairwise_mergeSort (le := fun (x y : ℝ) => decide (x ≤ y)) (by intro a b c; simpa using le_trans)
      (by intro a b; simpa using le_total a b) a
    simpa using this
  unfold median
  set s := a.mergeSort (fun x y => decide (x ≤ y)) with hs
  have hlen : s.length = a.length := hperm.length_eq
  constructor
  · simp only
    split_ifs with h1 h2
    · exact ⟨fun _ => List.length_eq_zero_iff.1 (by omega), fun _ => rfl⟩
    · constructor
      · intro h
        rw [List.getElem?_eq_none_iff] at h
        omega
      · intro h
        have : a.length = 0 := by rw [h]; rfl
        omega
    · constructor
      · intro h; exact absurd h (by simp)
      · intro h
        have : a.length = 0 := by rw [h]; rfl
        omega
  · intro m hm
    simp only at hm
    unfold IsMedian
    rw [← hperm.countP_eq, ← hperm.countP_eq, ← hlen]
    split_ifs at hm with h1 h2
    · have hk : s.length / 2 < s.length := by omega
      rw [List.getElem?_eq_getElem hk, Option.some_inj] at hm
      obtain ⟨c1, c2⟩ := sorted_count hsort hk (m := m)
      have := c1 hm.ge
      have := c2 hm.le
      omega
    · have hk : s.length / 2 < s.length := by omega
      have hk' : s.length / 2 - 1 < s.length := by omega
      rw [Option.some_inj] at hm
      simp only [List.getD_eq_getElem?_getD, List.getElem?_eq_getElem hk, List.getElem?_eq_getElem hk', Option.getD_some] at hm
      have hle : s[s.length / 2 - 1] ≤ s[s.length / 2] := List.pairwise_iff_getElem.1 hsort _ _ hk' hk (by omega)
      obtain ⟨c1, -⟩ := sorted_count hsort hk (m := m)
      obtain ⟨-, c2⟩ := sorted_count hsort hk' (m := m)
      have := c1 (by linarith)
      have := c2 (by linarith)
      omega

/-! ### Snapshots -/

/-- The overdensity of a particle of a snapshot: its comoving density, over the mean comoving density of baryons. Both are in units with `h²`, which
cancels. -/
noncomputable def overdensity (s : Snap) (p : Particle) : ℝ := p.density * s.units.UnitDensity_in_cgs / (s.omegab * Units.rho_crit 1)

/-- A snapshot with gas. -/
structure GoodSnap (s : Snap) : Prop where
  units : ValidUnits s.units
  time : 0 < s.time ∧ s.time ≤ 1
  hubble : 0 < s.hubble
  omegab : 0 < s.omegab
  gas : ∀ p ∈ s.gas, 0 < p.density ∧ 0 < p.ienergy ∧ 0 ≤ p.nelec

theorem rho_crit_one : 0 < Units.rho_crit 1 := (rho_crit_friedmann one_pos).1

theorem mean_density_pos {s : Snap} (hs : GoodSnap s) : 0 < mean_density s.hubble (1 / s.time - 1) s.omegab := by
  obtain ⟨-, ⟨ht, -⟩, hh, ho, -⟩ := hs
  have hc := (rho_crit_friedmann hh).1
  unfold mean_density
  have hp : 0 < Units.protonmass := by unfold Units.protonmass; norm_num
  have : (0 : ℝ) < 1 + (1 / s.time - 1) := by
    have : 0 < 1 / s.time := by positivity
    linarith
  simp only
  positivity

/-- The overdensity that is computed, for gas properties with units `u`. -/
theorem overdensity_computed {s : Snap} (hs : GoodSnap s) (u : Units.UnitSystem) {g : Gas.Obj} (h1 : g.units = u) (h2 : g.redshift = 1 / s.time - 1)
    (h3 : g.hubble = s.hubble) (d : ℝ) :
    d * g.conv / mean_density s.hubble (1 / s.time - 1) s.omegab = d * u.UnitDensity_in_cgs / (s.omegab * Units.rho_crit 1) := by
  obtain ⟨-, ⟨ht, -⟩, hh, ho, -⟩ := hs
  have hc := rho_crit_one
  have hp : 0 < Units.protonmass := by unfold Units.protonmass; norm_num
  have hz : (0 : ℝ) < 1 + (1 / s.time - 1) := by
    have : 0 < 1 / s.time := by positivity
    linarith
  have hscale : Units.rho_crit s.hubble = s.hubble ^ 2 * Units.rho_crit 1 := by
    unfold Units.rho_crit
    simp only
    ring
  unfold Gas.Obj.conv mean_density
  rw [h1, h2, h3]
  simp only
  rw [hscale]
  have := hz.ne'
  field_simp

theorem snapTemp_pos {u : Units.UnitSystem} (hu : ValidUnits u) {e n : ℝ} (he : 0 < e) (hn : 0 ≤ n) : 0 < Units.snapTemp u 0.76 e n := by
  unfold Units.snapTemp Units.UnitSystem.UnitInternalEnergy_in_cgs Units.gamma Units.protonmass Units.boltzmann
  have hv := hu.2.2
  simp only
  have h1 : (0 : ℝ) < 0.76 * (3 + 4 * n) + 1 := by positivity
  have h2 : (0 : ℝ) < (5 / 3 - 1) * 1.67262178e-24 / 1.38066e-16 := by norm_num
  positivity

theorem gas_init_ok {z h f : ℝ} {u : Units.UnitSystem} {sf : Bool} (hz : 0 ≤ z) :
    ∃ g, Gas.Obj.init z h f u sf = .ok g ∧ g.units = u ∧ g.redshift = z ∧ g.hubble = h := by
  unfold Gas.Obj.init
  obtain ⟨h1, h2, -⟩ := uvbAt_spec z
  rcases le_or_gt z 8 with h8 | h8
  · obtain ⟨b, hb, -⟩ := h1 hz h8
    rw [hb]
    exact ⟨_, rfl, rfl, rfl, rfl⟩
  · rw [h2 h8]
    exact ⟨_, rfl, rfl, rfl, rfl⟩

open Classical in
/-- The last steps of `fit_td_rel_plot`, for any densities and temperatures. -/
theorem td_rel_of_gas {leastsq : Leastsq} (hls : ExactLeastsq leastsq) {mkNet : ℝ → ℝ → Py Rates.Net} {bicubic : RateGas.Bicubic} {raw : Bool} {s : Snap}
    (hs : GoodSnap s) {gas od : List (ℝ × ℝ)} (hgas : snapGas mkNet bicubic raw s = .ok gas)
    (hod : gas.map (fun p => (p.1 / mean_density s.hubble (1 / s.time - 1) s.omegab, p.2)) = od) (hpos : ∀ p ∈ gas, 0 < p.1 ∧ 0 < p.2)
    {a b : ℝ × ℝ} (ha : a ∈ od) (hb : b ∈ od) (hfa : IsForest a) (hfb : IsForest b) (hab : a.1 ≠ b.1) {T00 : Option ℝ} {r : ℝ × ℝ}
    (hr : fit_td_rel_plot leastsq mkNet bicubic raw s = .ok (T00, r)) :
    BestPowerLaw (od.filter (fun p => decide (IsForest p))) r ∧
      (∀ m, T00 = some m → IsMedian ((od.filter (fun p => decide (0.95 < p.1 ∧ p.1 < 1.05))).map Prod.snd) m) ∧
      (T00 = none ↔ ∀ p ∈ od, ¬(0.95 < p.1 ∧ p.1 < 1.05)) := by
  have hm := mean_density_pos hs
  set M := mean_density s.hubble (1 / s.time - 1) s.omegab with hM
  have hodpos : ∀ p ∈ od, 0 < p.1 ∧ 0 < p.2 := by
    intro p hp
    rw [← hod] at hp
    obtain ⟨q, hq, rfl⟩ := List.mem_map.1 hp
    exact ⟨div_pos (hpos q hq).1 hm, (hpos q hq).2⟩
  have hlogs : gas.map (fun p => (log10 p.1 - log10 M, log10 p.2)) = od.map (fun p => (log10 p.1, log10 p.2)) := by
    rw [← hod, List.map_map]
    apply List.map_congr_left
    intro p hp
    simp only [Function.comp, log10_eq]
    rw [Real.logb_div (hpos p hp).1.ne' hm.ne']
  unfold fit_td_rel_plot at hr
  simp only [hgas, bind, Except.bind] at hr
  rw [← hM, hlogs, hod] at hr
  cases hf : fit_temp_dens_relation leastsq (od.map (fun p => (log10 p.1, log10 p.2))) with
  | error e => rw [hf] at hr; simp at hr
  | ok r' =>
    rw [hf] at hr
    simp only [pure, Except.pure, Except.ok.injEq, Prod.mk.injEq] at hr
    obtain ⟨hT, rfl⟩ := hr
    refine ⟨td_fit_spec hls hodpos ha hb hfa hfb hab hf, ?_, ?_⟩
    · intro m hm'
      rw [← hT] at hm'
      exact (median_spec _).2 m hm'
    · rw [← hT]
      unfold get_temp_meandensity
      rw [(median_spec _).1, List.map_eq_nil_iff, List.filter_eq_nil_iff]
      simp

open Classical in
/-- C87 for the temperatures of a snapshot (`gas="raw"`): in every system of units, at every redshift and for every Hubble parameter, what is returned is the
power law closest to the gas between one and ten times the mean density, with the temperatures of an ideal gas; and the temperature that is
printed for the mean density is the median of the gas within five percent of it. -/
theorem td_rel_raw {leastsq : Leastsq} (hls : ExactLeastsq leastsq) {mkNet : ℝ → ℝ → Py Rates.Net} {bicubic : RateGas.Bicubic} {s : Snap}
    (hs : GoodSnap s) {od : List (ℝ × ℝ)} (hod : od = s.gas.map (fun p => (overdensity s p, Units.snapTemp s.units 0.76 p.ienergy p.nelec)))
    {a b : ℝ × ℝ} (ha : a ∈ od) (hb : b ∈ od) (hfa : IsForest a) (hfb : IsForest b) (hab : a.1 ≠ b.1) {T00 : Option ℝ} {r : ℝ × ℝ}
    (hr : fit_td_rel_plot leastsq mkNet bicubic true s = .ok (T00, r)) :
    BestPowerLaw (od.filter (fun p => decide (IsForest p))) r ∧
      (∀ m, T00 = some m → IsMedian ((od.filter (fun p => decide (0.95 < p.1 ∧ p.1 < 1.05))).map Prod.snd) m) ∧
      (T00 = none ↔ ∀ p ∈ od, ¬(0.95 < p.1 ∧ p.1 < 1.05)) := by
  have hz : 0 ≤ 1 / s.time - 1 := by
    have := one_le_one_div hs.time.1 hs.time.2
    linarith
  obtain ⟨g, hg, g1, g2, g3⟩ := gas_init_ok (h := s.hubble) (f := 0.17) (u := s.units) (sf := true) hz
  have hgas : snapGas mkNet bicubic true s =
      .ok (s.gas.map (fun p => (p.density * g.conv, Units.snapTemp g.units 0.76 p.ienergy p.nelec))) := by
    unfold snapGas
    simp only [if_true, hg, bind, Except.bind, pure, Except.pure]
  have hconv : 0 < g.conv := by
    obtain ⟨hm, hl, -⟩ := hs.units
    have hh := hs.hubble
    unfold Gas.Obj.conv Units.UnitSystem.UnitDensity_in_cgs Units.protonmass
    rw [g1, g2, g3]
    positivity
  refine td_rel_of_gas hls hs hgas ?_ ?_ ha hb hfa hfb hab hr
  · rw [hod, List.map_map]
    apply List.map_congr_left
    intro p _
    simp only [Function.comp, g1]
    rw [overdensity_computed hs s.units g1 g2 g3]
    rfl
  · intro p hp
    obtain ⟨q, hq, rfl⟩ := List.mem_map.1 hp
    obtain ⟨q1, q2, q3⟩ := hs.gas q hq
    exact ⟨mul_pos q1 hconv, snapTemp_pos (g1 ▸ hs.units) q2 q3⟩

/-- C87: there is a result for every snapshot with two particles of the forest, if the optimiser returns. -/
theorem td_rel_raw_returns {leastsq : Leastsq} (hret : ∀ f x0, ∃ p, leastsq f x0 = .ok p) {mkNet : ℝ → ℝ → Py Rates.Net} {bicubic : RateGas.Bicubic}
    {s : Snap} (hs : GoodSnap s) {od : List (ℝ × ℝ)}
    (hod : od = s.gas.map (fun p => (overdensity s p, Units.snapTemp s.units 0.76 p.ienergy p.nelec)))
    {a b : ℝ × ℝ} (ha : a ∈ od) (hb : b ∈ od) (hfa : IsForest a) (hfb : IsForest b) (hab : a.1 ≠ b.1) :
    ∃ T00 r, fit_td_rel_plot leastsq mkNet bicubic true s = .ok (T00, r) := by
  classical
  have hz : 0 ≤ 1 / s.time - 1 := by
    have := one_le_one_div hs.time.1 hs.time.2
    linarith
  obtain ⟨g, hg, g1, g2, g3⟩ := gas_init_ok (h := s.hubble) (f := 0.17) (u := s.units) (sf := true) hz
  have hm := mean_density_pos hs
  have hconv : 0 < g.conv := by
    obtain ⟨hm, hl, -⟩ := hs.units
    have hh := hs.hubble
    unfold Gas.Obj.conv Units.UnitSystem.UnitDensity_in_cgs Units.protonmass
    rw [g1, g2, g3]
    positivity
  have hlogs : (s.gas.map (fun p => (p.density * g.conv, Units.snapTemp g.units 0.76 p.ienergy p.nelec))).map
      (fun p => (log10 p.1 - log10 (mean_density s.hubble (1 / s.time - 1) s.omegab), log10 p.2)) = od.map (fun p => (log10 p.1, log10 p.2)) := by
    rw [hod, List.map_map, List.map_map]
    apply List.map_congr_left
    intro p hp
    simp only [Function.comp, log10_eq, g1]
    rw [← Real.logb_div (mul_pos (hs.gas p hp).1 hconv).ne' hm.ne', overdensity_computed hs s.units g1 g2 g3]
    rfl
  have hodpos : ∀ p ∈ od, 0 < p.1 ∧ 0 < p.2 := by
    intro p hp
    rw [hod] at hp
    obtain ⟨q, hq, rfl⟩ := List.mem_map.1 hp
    obtain ⟨q1, q2, q3⟩ := hs.gas q hq
    refine ⟨?_, snapTemp_pos hs.units q2 q3⟩
    obtain ⟨hm, hl, -⟩ := hs.units
    have := rho_crit_one
    have := hs.omegab
    unfold overdensity Units.UnitSystem.UnitDensity_in_cgs
    positivity
  have hlen : ¬(forest (od.map (fun p => (log10 p.1, log10 p.2)))).length < 2 := by
    simp only [log10_eq]
    rw [forest_map hodpos, List.length_map]
    intro hl
    have h1 : a ∈ od.filter (fun p => decide (IsForest p)) := List.mem_filter.2 ⟨ha, by simpa using hfa⟩
    have h2 : b ∈ od.filter (fun p => decide (IsForest p)) := List.mem_filter.2 ⟨hb, by simpa using hfb⟩
    generalize od.filter (fun p => decide (IsForest p)) = l at *
    match l, hl with
    | [], _ => simp at h1
    | [c], _ =>
      simp only [List.mem_singleton] at h1 h2
      exact hab (by rw [h1, h2])
  unfold fit_td_rel_plot snapGas
  simp only [if_true, hg, bind, Except.bind, pure, Except.pure]
  rw [hlogs]
  unfold fit_temp_dens_relation
  simp only
  rw [if_neg hlen]
  obtain ⟨p, hp⟩ := hret (min_func (forest (od.map (fun p => (log10 p.1, log10 p.2))))) (log10 1e4, 0.5)
  simp only [hp, bind, Except.bind, pure, Except.pure]
  exact ⟨_, _, rfl⟩

open Classical in
/-- C87 for the temperatures of the rate network (`gas` other than `"raw"`), for snapshots in the default units and gas the table covers. -/
theorem td_rel_rates_partial {leastsq : Leastsq} (hls : ExactLeastsq leastsq) {mkNet : ℝ → ℝ → Py Rates.Net} {bicubic : RateGas.Bicubic} {s : Snap}
    (hs : GoodSnap s) (hdef : s.units = Units.gadget) {g : RateGas.Obj}
    (hg : RateGas.Obj.init mkNet (1 / s.time - 1) s.hubble 0.17 Units.gadget true 1 1 = .ok g)
    (hcov : Covered g (s.gas.map (fun p => (p.density, p.ienergy)))) {od : List (ℝ × ℝ)}
    (hod : od = s.gas.map (fun p => (overdensity s p,
      if 0.76 * protons g (p.density, p.ienergy) < Gas.rhoThresh Units.gadget s.hubble s.hubble then tableValue g bicubic false (p.density, p.ienergy) else 1e4)))
    {a b : ℝ × ℝ} (ha : a ∈ od) (hb : b ∈ od) (hfa : IsForest a) (hfb : IsForest b) (hab : a.1 ≠ b.1) {T00 : Option ℝ} {r : ℝ × ℝ}
    (hr : fit_td_rel_plot leastsq mkNet bicubic false s = .ok (T00, r)) :
    BestPowerLaw (od.filter (fun p => decide (IsForest p))) r ∧
      (∀ m, T00 = some m → IsMedian ((od.filter (fun p => decide (0.95 < p.1 ∧ p.1 < 1.05))).map Prod.snd) m) ∧
      (T00 = none ↔ ∀ p ∈ od, ¬(0.95 < p.1 ∧ p.1 < 1.05)) := by
  have hz : 0 ≤ 1 / s.time - 1 := by
    have := one_le_one_div hs.time.1 hs.time.2
    linarith
  obtain ⟨uvb, -, hgg, -⟩ := rateGas_init hg
  have g1 : g.gas.units = Units.gadget := by rw [hgg]
  have g2 : g.gas.redshift = 1 / s.time - 1 := by rw [hgg]
  have g3 : g.gas.hubble = s.hubble := by rw [hgg]
  have htemp := (rate_gas_sf_partial gadget_valid hs.hubble hz hg bicubic (blocks := s.gas.map (fun p => (p.density, p.ienergy)))
    (by intro b hb; obtain ⟨q, hq, rfl⟩ := List.mem_map.1 hb; exact (hs.gas q hq).1) hcov).1
  have hgas : snapGas mkNet bicubic false s = .ok (s.gas.map (fun p => (p.density * g.gas.conv,
      if 0.76 * protons g (p.density, p.ienergy) < Gas.rhoThresh Units.gadget s.hubble s.hubble then tableValue g bicubic false (p.density, p.ienergy) else 1e4))) := by
    unfold snapGas
    simp only [Bool.false_eq_true, if_false, hg, bind, Except.bind, pure, Except.pure]
    rw [htemp]
    simp only
    rw [List.map_map]
    congr 1
    clear hr hb ha hod htemp hcov
    induction s.gas with
    | nil => rfl
    | cons p ps ih => simp only [List.map_cons, List.zipWith_cons_cons, ih, Function.comp]
  have hconv : 0 < g.gas.conv := by
    obtain ⟨hm, hl, -⟩ := gadget_valid
    have hh := hs.hubble
    unfold Gas.Obj.conv Units.UnitSystem.UnitDensity_in_cgs Units.protonmass
    rw [g1, g2, g3]
    positivity
  refine td_rel_of_gas hls hs hgas ?_ ?_ ha hb hfa hfb hab hr
  · rw [hod, List.map_map]
    apply List.map_congr_left
    intro p _
    simp only [Function.comp]
    rw [overdensity_computed hs Units.gadget g1 g2 g3]
    unfold overdensity
    rw [hdef]
  · intro p hp
    obtain ⟨q, hq, rfl⟩ := List.mem_map.1 hp
    refine ⟨mul_pos (hs.gas q hq).1 hconv, ?_⟩
    simp only
    split_ifs
    · exact Real.exp_pos _
    · norm_num

/-- C87 is false for the temperatures of the rate network and snapshots in other units: the units of the snapshot are not passed on. If lengths are in Mpc
and no gas is more than 10^8 times less dense than the mean, there is never a result. -/
theorem td_rel_rates_units {leastsq : Leastsq} {mkNet : ℝ → ℝ → Py Rates.Net} {bicubic : RateGas.Bicubic} {s : Snap}
    (hs : GoodSnap s) (hu : s.units = ⟨1.98892e43, 3.085678e24, 1e5⟩) (hgas : ∀ p ∈ s.gas, 1e-8 < overdensity s p) (res : Option ℝ × ℝ × ℝ) :
    fit_td_rel_plot leastsq mkNet bicubic false s ≠ .ok res := by
  intro hr
  unfold fit_td_rel_plot snapGas at hr
  simp only [Bool.false_eq_true, if_false, bind, Except.bind] at hr
  cases hg : RateGas.Obj.init mkNet (1 / s.time - 1) s.hubble 0.17 Units.gadget true 1 1 with
  | error e => rw [hg] at hr; simp at hr
  | ok g =>
    rw [hg] at hr
    simp only at hr
    cases ht : g.get_temp bicubic (s.gas.map (fun p => (p.density, p.ienergy))) with
    | error e => rw [ht] at hr; simp at hr
    | ok temp =>
      rw [ht] at hr
      simp only [pure, Except.pure] at hr
      obtain ⟨uvb, -, hgg, -⟩ := rateGas_init hg
      have g1 : g.gas.units = Units.gadget := by rw [hgg]
      have g2 : g.gas.redshift = 1 / s.time - 1 := by rw [hgg]
      have g3 : g.gas.hubble = s.hubble := by rw [hgg]
      have hconv : 0 < g.gas.conv := by
        obtain ⟨hm, hl, -⟩ := gadget_valid
        have hh := hs.hubble
        have hz : 0 ≤ 1 / s.time - 1 := by
          have := one_le_one_div hs.time.1 hs.time.2
          linarith
        unfold Gas.Obj.conv Units.UnitSystem.UnitDensity_in_cgs Units.protonmass
        rw [g1, g2, g3]
        positivity
      have hm := mean_density_pos hs
      have hzip : ∀ x ∈ List.zipWith (fun (p : Particle) t => (p.density * g.gas.conv, t)) s.gas temp, ∃ p ∈ s.gas, x.1 = p.density * g.gas.conv := by
        intro x hx
        obtain ⟨i, hi, rfl⟩ := List.getElem_of_mem hx
        rw [List.length_zipWith] at hi
        exact ⟨s.gas[i], List.getElem_mem _, by rw [List.getElem_zipWith]⟩
      have hnil : forest ((List.zipWith (fun (p : Particle) t => (p.density * g.gas.conv, t)) s.gas temp).map
          (fun p => (log10 p.1 - log10 (mean_density s.hubble (1 / s.time - 1) s.omegab), log10 p.2))) = [] := by
        unfold forest
        rw [List.filter_eq_nil_iff]
        intro x hx
        obtain ⟨y, hy, rfl⟩ := List.mem_map.1 hx
        obtain ⟨p, hp, hy1⟩ := hzip y hy
        simp only [decide_eq_true_eq, not_and]
        intro _ hlt
        exfalso
        rw [hy1, log10_eq, log10_eq, ← Real.logb_div (mul_pos (hs.gas p hp).1 hconv).ne' hm.ne', overdensity_computed hs Units.gadget g1 g2 g3] at hlt
        have hod := hgas p hp
        have hrc := rho_crit_one
        have hob := hs.omegab
        have hrel : p.density * Units.gadget.UnitDensity_in_cgs / (s.omegab * Units.rho_crit 1) = 1e9 * overdensity s p := by
          unfold overdensity
          have hd : Units.gadget.UnitDensity_in_cgs = 1e9 * s.units.UnitDensity_in_cgs := by
            rw [hu]
            unfold Units.UnitSystem.UnitDensity_in_cgs Units.gadget
            norm_num
          rw [hd]
          ring
        rw [hrel, Real.logb_lt_iff_lt_rpow (by norm_num) (by nlinarith), Real.rpow_one] at hlt
        nlinarith
      have : fit_temp_dens_relation leastsq ((List.zipWith (fun (p : Particle) t => (p.density * g.gas.conv, t)) s.gas temp).map
          (fun p => (log10 p.1 - log10 (mean_density s.hubble (1 / s.time - 1) s.omegab), log10 p.2))) = .error .typeError := by
        unfold fit_temp_dens_relation
        simp only [hnil]
        simp
      rw [this] at hr
      simp at hr

/-! ### The hypotheses can be met -/

open Classical in
/-- An exact optimiser. -/
noncomputable def bestLeastsq : Leastsq := fun f _ =>
  if h : ∃ p, ∀ q, ((f p).map (fun x => x ^ 2)).sum ≤ ((f q).map (fun x => x ^ 2)).sum then .ok h.choose else .error .valueError

theorem bestLeastsq_exact : ExactLeastsq bestLeastsq := by
  intro f x0 p hp
  unfold bestLeastsq at hp
  split_ifs at hp with h
  rw [← Except.ok.inj hp]
  exact h.choose_spec

/-- A snapshot at redshift 3 with gas at twice and four times the mean density, on a power law. -/
noncomputable def exampleSnap : Snap :=
  let part (Δ T : ℝ) : Particle := ⟨Δ * (0.05 * Units.rho_crit 1) / Units.gadget.UnitDensity_in_cgs, T / Units.snapTemp Units.gadget 0.76 1 1, 1⟩
  ⟨Units.gadget, 1 / 4, 0.7, 0.05, [part 2 20000, part 4 40000]⟩

theorem exampleSnap_gas : exampleSnap.gas.map (fun p => (overdensity exampleSnap p, Units.snapTemp exampleSnap.units 0.76 p.ienergy p.nelec)) =
    [(2, 20000), (4, 40000)] := by
  have h1 := rho_crit_one
  have h2 : 0 < Units.gadget.UnitDensity_in_cgs := by unfold Units.UnitSystem.UnitDensity_in_cgs Units.gadget; norm_num
  have h3 := snapTemp_pos (u := Units.gadget) gadget_valid one_pos zero_le_one
  have h4 : ∀ T : ℝ, Units.snapTemp Units.gadget 0.76 (T / Units.snapTemp Units.gadget 0.76 1 1) 1 = T := by
    intro T
    have : ∀ e : ℝ, Units.snapTemp Units.gadget 0.76 e 1 = e * Units.snapTemp Units.gadget 0.76 1 1 := by
      intro e; unfold Units.snapTemp; simp only; ring
    rw [this, div_mul_cancel₀ _ h3.ne']
  unfold exampleSnap overdensity
  simp only [List.map_cons, List.map_nil, h4]
  rw [show ∀ Δ : ℝ, Δ * (0.05 * Units.rho_crit 1) / Units.gadget.UnitDensity_in_cgs * Units.gadget.UnitDensity_in_cgs / (0.05 * Units.rho_crit 1) = Δ by
    intro Δ; field_simp]
  rw [show ∀ Δ : ℝ, Δ * (0.05 * Units.rho_crit 1) / Units.gadget.UnitDensity_in_cgs * Units.gadget.UnitDensity_in_cgs / (0.05 * Units.rho_crit 1) = Δ by
    intro Δ; field_simp]

theorem exampleSnap_good : GoodSnap exampleSnap := by
  have h1 := rho_crit_one
  have h2 : 0 < Units.gadget.UnitDensity_in_cgs := by unfold Units.UnitSystem.UnitDensity_in_cgs Units.gadget; norm_num
  have h3 := snapTemp_pos (u := Units.gadget) gadget_valid one_pos zero_le_one
  refine ⟨gadget_valid, by unfold exampleSnap; norm_num, by unfold exampleSnap; norm_num, by unfold exampleSnap; norm_num, ?_⟩
  intro p hp
  unfold exampleSnap at hp
  simp only [List.mem_cons, List.not_mem_nil, or_false] at hp
  rcases hp with rfl | rfl <;> exact ⟨by positivity, by positivity, by norm_num⟩

/-- For this snapshot an optimiser that finds the minimum gives the power law its gas is on. -/
example {mkNet : ℝ → ℝ → Py Rates.Net} {bicubic : RateGas.Bicubic} {T00 : Option ℝ} {r : ℝ × ℝ}
    (hr : fit_td_rel_plot bestLeastsq mkNet bicubic true exampleSnap = .ok (T00, r)) : r = (10000, 2) := by
  have ha : IsForest (2, 20000) := by
    refine ⟨by norm_num, by norm_num, ?_, by norm_num⟩
    exact lt_of_le_of_lt (Real.rpow_le_rpow_of_exponent_le (by norm_num) (by norm_num : (0.1 : ℝ) ≤ 1)) (by rw [Real.rpow_one]; norm_num)
  have hb : IsForest (4, 40000) := by
    refine ⟨by norm_num, by norm_num, ?_, by norm_num⟩
    exact lt_of_le_of_lt (Real.rpow_le_rpow_of_exponent_le (by norm_num) (by norm_num : (0.1 : ℝ) ≤ 1)) (by rw [Real.rpow_one]; norm_num)
  have h := (td_rel_raw bestLeastsq_exact exampleSnap_good exampleSnap_gas.symm (a := (2, 20000)) (b := (4, 40000)) (by simp) (by simp) ha hb
    (by norm_num) hr).1
  refine best_power_law_exact h (by norm_num) ?_
  intro p hp
  have := (List.mem_filter.1 hp).1
  simp only [List.mem_cons, List.not_mem_nil, or_false] at this
  rcases this with rfl | rfl <;> norm_num

example {mkNet : ℝ → ℝ → Py Rates.Net} {bicubic : RateGas.Bicubic} :
    ∃ T00 r, fit_td_rel_plot (fun _ _ => .ok (4, 1)) mkNet bicubic true exampleSnap = .ok (T00, r) := by
  have h10 : (10 : ℝ) ^ (0.1 : ℝ) < 20000 :=
    lt_of_le_of_lt (Real.rpow_le_rpow_of_exponent_le (by norm_num) (by norm_num : (0.1 : ℝ) ≤ 1)) (by rw [Real.rpow_one]; norm_num)
  exact td_rel_raw_returns (fun _ _ => ⟨_, rfl⟩) exampleSnap_good exampleSnap_gas.symm (a := (2, 20000)) (b := (4, 40000)) (by simp) (by simp)
    ⟨by norm_num, by norm_num, h10, by norm_num⟩ ⟨by norm_num, by norm_num, h10.trans (by norm_num), by norm_num⟩ (by norm_num)

end Verif.Props
