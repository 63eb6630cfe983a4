import Verif.Model.Cooling
import Verif.Props.RateNetwork
import Mathlib.Analysis.Complex.ExponentialBounds

/-!
C33, C34: the queries of the rate network. C63: cooling rates.
-/

namespace Verif.Props
open Verif Verif.Rates Verif.Spec

/-! The queries. -/

section Queries
variable {ι : Type}

/-- The temperature is always defined at the solution. -/
theorem temp_at_solution {n : Net} (h : Sane n) {density u : ι → ℝ} (hd : ∀ i, 0 < density i) (hu : ∀ i, 0 < u i) {Y : ℝ}
    (hY : 0 ≤ Y) (hY1 : Y < 1) {ne : ι → ℝ} (hr : get_equilib_ne n density u Y = .ok ne) :
    getTemp (fun i => ne i / (density i * (1 - Y))) u Y =
      .ok (fun i => tempOf (ne i / (density i * (1 - Y))) (u i) Y) ∧
    ∀ i, 0 < tempOf (ne i / (density i * (1 - Y))) (u i) Y := by
  have hpos : ∀ i, 0 < tempOf (ne i / (density i * (1 - Y))) (u i) Y := fun i =>
    tempOf_pos (equilibrium h hd hu hY hY1 hr i).2.1 (hu i) hY1
  refine ⟨?_, hpos⟩
  unfold getTemp
  rw [if_pos (fun i => (hpos i).le)]

/-- C33, C34: if the solver finds electron densities `ne`, then the electrons per hydrogen atom, the temperature and the
neutral fraction are those at `ne`: the temperature is that of an ideal gas with those electrons, and the neutral fraction
is in (0,1] and balances recombinations at that temperature with ionisations. If it fails, so do the three queries, in the
same way. -/
theorem queries {n : Net} (h : Sane n) {density u : ι → ℝ} (hd : ∀ i, 0 < density i) (hu : ∀ i, 0 < u i) {Y : ℝ}
    (hY : 0 ≤ Y) (hY1 : Y < 1) :
    (∀ e, get_equilib_ne n density u Y = .error e → get_ne_by_nh n density u Y = .error e ∧
      get_temp n density u Y = .error e ∧ get_neutral_fraction n density u Y = .error e) ∧
    ∀ ne, get_equilib_ne n density u Y = .ok ne → ∃ x T H,
      get_ne_by_nh n density u Y = .ok x ∧ get_temp n density u Y = .ok T ∧ get_neutral_fraction n density u Y = .ok H ∧
      ∀ i, x i * (density i * (1 - Y)) = ne i ∧ 0 < T i ∧
        u i * 1e10 = 3 / 2 * 1.38066e-16 * T i / (meanMass (x i) Y * 1.67262178e-24) ∧
        0 < H i ∧ H i ≤ 1 ∧
        (1e-40 < x i → H i * ((conditions n (density i * (1 - Y)) (T i) (x i)).collH * ne i +
          (conditions n (density i * (1 - Y)) (T i) (x i)).photoH) =
            (1 - H i) * (n.recomb.alphaHp (T i) * ne i)) := by
  constructor
  · intro e he
    refine ⟨?_, ?_, ?_⟩
    · unfold get_ne_by_nh; rw [he]; rfl
    · unfold get_temp; rw [he]; rfl
    · unfold get_neutral_fraction; rw [he]; rfl
  · intro ne hne
    obtain ⟨ht, hpos⟩ := temp_at_solution h hd hu hY hY1 hne
    have hnh : ∀ i, 0 < density i * (1 - Y) := fun i => mul_pos (hd i) (by linarith)
    refine ⟨fun i => ne i / (density i * (1 - Y)), fun i => tempOf (ne i / (density i * (1 - Y))) (u i) Y,
      fun i => nH0 n (density i * (1 - Y)) (tempOf (ne i / (density i * (1 - Y))) (u i) Y) (ne i / (density i * (1 - Y))),
      ?_, ?_, ?_, ?_⟩
    · unfold get_ne_by_nh; rw [hne]; rfl
    · unfold get_temp; rw [hne]; exact ht
    · unfold get_neutral_fraction
      rw [hne]
      simp only [bind, Except.bind]
      rw [ht]
      rfl
    · intro i
      have hx0 := (equilibrium h hd hu hY hY1 hne i).2.1
      refine ⟨div_mul_cancel₀ _ (hnh i).ne', hpos i, temp_ideal_gas hx0 hY hY1,
        (nH0_bounds h (hpos i) (hnh i) _).1, (nH0_bounds h (hpos i) (hnh i) _).2, fun hx => ?_⟩
      have hx' : 0 < ne i / (density i * (1 - Y)) := lt_trans (by norm_num) hx
      have hnei : ne i = ne i / (density i * (1 - Y)) * (density i * (1 - Y)) := (div_mul_cancel₀ _ (hnh i).ne').symm
      dsimp only at hx ⊢
      set x := ne i / (density i * (1 - Y)) with hxdef
      set T := tempOf x (u i) Y
      rw [hnei]
      have hr := h.pos (hpos i)
      have hpf := photofac_nonneg h (hpos i) (hnh i) (x := x)
      have hc := collis_nonneg n hr.eH0.le
      have hg := h.gH0
      have hp := hr.hp
      have hden : 0 < n.recomb.alphaHp T + collis n (n.recomb.GammaeH0 T) + n.gH0 * photofac n x (density i * (1 - Y)) T := by
        have : 0 ≤ n.gH0 * photofac n x (density i * (1 - Y)) T := by positivity
        linarith
      have hpe : photofac n x (density i * (1 - Y)) T * (x * (density i * (1 - Y))) =
          n.photo_factor * selfShieldCorr n (density i * (1 - Y)) T := by
        unfold photofac
        rw [if_pos hx]
        exact div_mul_cancel₀ _ (mul_pos hx' (hnh i)).ne'
      have hH : nH0 n (density i * (1 - Y)) T x * (n.recomb.alphaHp T + collis n (n.recomb.GammaeH0 T) +
          n.gH0 * photofac n x (density i * (1 - Y)) T) = n.recomb.alphaHp T := by
        unfold nH0
        exact div_mul_cancel₀ _ hden.ne'
      show nH0 n (density i * (1 - Y)) T x * ((if n.collisional then n.recomb.GammaeH0 T else 0) * _ + n.gH0 * _) = _
      rw [← hpe]
      have hcol : (if n.collisional then n.recomb.GammaeH0 T else 0) = collis n (n.recomb.GammaeH0 T) := rfl
      rw [hcol]
      linear_combination (x * (density i * (1 - Y))) * hH

/-- C34: the accelerated step finds the fixed point of a linear iteration at once. -/
theorem accel_exact {q r : ι → ℝ} (hr : ∀ j, r j ≠ 1) (hq : ∀ j, 0 ≤ q j) (p : ι → ℝ) :
    let f : (ι → ℝ) → ι → ℝ := fun p j => q j + r j * (p j - q j)
    (∀ j, p j ≠ q j) → accel p (f p) (f (f p)) = q := by
  intro f hp
  funext j
  have h1 : r j - 1 ≠ 0 := sub_ne_zero.2 (hr j)
  have h2 : p j - q j ≠ 0 := sub_ne_zero.2 (hp j)
  have hd : f (f p) j - 2 * f p j + p j = (r j - 1) ^ 2 * (p j - q j) := by
    show q j + r j * (q j + r j * (p j - q j) - q j) - 2 * (q j + r j * (p j - q j)) + p j = _
    ring
  have hn : f p j - p j = (r j - 1) * (p j - q j) := by
    show q j + r j * (p j - q j) - p j = _
    ring
  unfold accel del2
  dsimp only
  rw [hd, hn, if_pos (by positivity)]
  have : p j - ((r j - 1) * (p j - q j)) ^ 2 / ((r j - 1) ^ 2 * (p j - q j)) = q j := by
    field_simp
    ring
  rw [this, max_eq_left (hq j)]

end Queries

/-! Cooling coefficients. -/

/-- Every coefficient of a table takes energy from the gas. -/
structure PositiveCooling (c : Cool) (temp : ℝ) : Prop where
  h0 : 0 < c.CollisionalH0 temp
  he0 : 0 < c.CollisionalHe0 temp
  hep : 0 < c.CollisionalHeP temp
  rhp : 0 < c.RecombHp temp
  rhep : 0 < c.RecombHeP temp
  rhepp : 0 < c.RecombHePP temp
  ff1 : 0 < c.FreeFree temp 1
  ff2 : 0 < c.FreeFree temp 2

theorem t5_pos {c temp : ℝ} (hc : 0 < c) (ht : 0 < temp) : 0 < t5 c temp := by
  unfold t5; positivity

theorem gff_pos (temp zz : ℝ) : 0 < gff temp zz := by unfold gff; positivity

theorem freeFree_pos {g : ℝ → ℝ → ℝ} {temp zz : ℝ} (ht : 0 < temp) (hz : 0 < zz) (hg : 0 < g temp zz) :
    0 < freeFree g temp zz := by
  have := Real.sqrt_pos.2 ht
  unfold freeFree; positivity

theorem kwh_positive {c : ℝ} (hc : 0 < c) {name : String} {temp : ℝ} (ht : 0 < temp) :
    PositiveCooling (kwh c (recombOf name)) temp := by
  have hr := rates_positive_partial name ht
  have h5 := t5_pos hc ht
  have hev : 0 < eVinergs := by unfold eVinergs; norm_num
  have hk : 0 < kB := by unfold kB; norm_num
  have halpha : 0 ≤ (recombOf name).alphaHep temp := by
    unfold recombOf
    split_ifs
    · exact vernerHep_nonneg ht
    · exact (hep_positive ht).2.le
    · exact (hep_positive ht).1.le
  have h1 := hr.eH0
  have h2 := hr.eHe0
  have h3 := hr.eHep
  have h4 := hr.hp
  have h6 := hr.hepp
  have h7 := hr.d
  refine ⟨?_, ?_, ?_, ?_, ?_, ?_, freeFree_pos ht (by norm_num) (gff_pos _ _), freeFree_pos ht (by norm_num) (gff_pos _ _)⟩
  · show 0 < exciteH0 c temp + _
    unfold exciteH0; positivity
  · show 0 < exciteHe0 c temp + _
    unfold exciteHe0; positivity
  · show 0 < exciteHeP c temp + _
    unfold exciteHeP; positivity
  · show 0 < 0.75 * kB * temp * _
    positivity
  · show 0 < 0.75 * kB * temp * _ + _
    positivity
  · show 0 < 0.75 * kB * temp * _
    positivity

theorem fit_pos {a b s : ℝ} (hs : 0 < s) (hb : 0 < b) (h : 1.5 * Real.log (1.5 / b) < a + 1.5) :
    0 < a - 1.5 * Real.log s + b * s := by
  have hp : 0 < 1.5 / b := by positivity
  have h1 := Real.log_le_sub_one_of_pos (show 0 < s / (1.5 / b) by positivity)
  rw [Real.log_div hs.ne' hp.ne'] at h1
  have h2 : 1.5 * (s / (1.5 / b)) = b * s := by field_simp
  linarith

theorem nyxRecombHp_pos {temp : ℝ} (ht : 0 < temp) : 0 < nyxRecombHp temp := by
  have hs : 0 < temp ^ (1 / 3 : ℝ) := by positivity
  have hl : Real.log (temp ^ (1 / 3 : ℝ)) = 1 / 3 * Real.log temp := Real.log_rpow ht _
  have hlog : Real.log (1.5 / 0.01184) < 7 * 0.6931471808 := by
    have h1 : Real.log (1.5 / 0.01184) ≤ Real.log (2 ^ 7) := Real.log_le_log (by norm_num) (by norm_num)
    rw [Real.log_pow] at h1
    have := Real.log_two_lt_d9
    push_cast at h1
    linarith
  have := fit_pos (a := 5.914) hs (by norm_num : (0 : ℝ) < 0.01184) (by linarith)
  rw [hl] at this
  have h3 : 0 < 5.914 - 0.5 * Real.log temp + 0.01184 * temp ^ (1 / 3 : ℝ) := by
    have e : 5.914 - 1.5 * (1 / 3 * Real.log temp) = 5.914 - 0.5 * Real.log temp := by ring
    rw [e] at this
    exact this
  have := Real.sqrt_pos.2 ht
  unfold nyxRecombHp
  positivity

theorem nyxRecombHePP_pos {temp : ℝ} (ht : 0 < temp) : 0 < nyxRecombHePP temp := by
  have hs : 0 < temp ^ (1 / 3 : ℝ) := by positivity
  have hl : Real.log (temp ^ (1 / 3 : ℝ)) = 1 / 3 * Real.log temp := Real.log_rpow ht _
  have hlog : Real.log (1.5 / 7.459e-3) ≤ 8 * 0.6931471808 + (1.5 / 7.459e-3 / 256 - 1) := by
    have h1 := Real.log_le_sub_one_of_pos (show (0 : ℝ) < 1.5 / 7.459e-3 / 256 by norm_num)
    rw [Real.log_div (by norm_num) (by norm_num), show (256 : ℝ) = 2 ^ 8 by norm_num, Real.log_pow] at h1
    have := Real.log_two_lt_d9
    push_cast at h1
    norm_num at h1 ⊢
    linarith
  have := fit_pos (a := 6.607) hs (by norm_num : (0 : ℝ) < 7.459e-3) (by norm_num at hlog ⊢; linarith)
  rw [hl] at this
  have h3 : 0 < 6.607 - 0.5 * Real.log temp + 7.459e-3 * temp ^ (1 / 3 : ℝ) := by
    have e : 6.607 - 1.5 * (1 / 3 * Real.log temp) = 6.607 - 0.5 * Real.log temp := by ring
    rw [e] at this
    exact this
  have := Real.sqrt_pos.2 ht
  unfold nyxRecombHePP
  positivity

theorem nyxGff_pos {temp zz : ℝ} (hz : 0 < zz) (h1 : zz ^ 2 ≤ temp) (h2 : temp ≤ 1e17 * zz ^ 2) : 0 < nyxGff temp zz := by
  have hz2 : 0 < zz ^ 2 := by positivity
  have a1 : 1 ≤ temp / zz ^ 2 := by rw [le_div_iff₀ hz2]; linarith
  have a2 : temp / zz ^ 2 ≤ 1e17 := by rw [div_le_iff₀ hz2]; exact h2
  have l1 : 0 ≤ Real.logb 10 (temp / zz ^ 2) := Real.logb_nonneg (by norm_num) a1
  have l2 : Real.logb 10 (temp / zz ^ 2) ≤ 17 := by
    rw [Real.logb_le_iff_le_rpow (by norm_num) (by linarith)]
    have : ((10 : ℝ) ^ (17 : ℝ)) = 1e17 := by
      rw [show (17 : ℝ) = ((17 : ℕ) : ℝ) by norm_num, Real.rpow_natCast]; norm_num
    rw [this]; exact a2
  unfold nyxGff ind
  dsimp only
  by_cases h : temp / zz ^ 2 ≤ 3.2e5
  · rw [if_pos h, if_neg (not_not.2 h)]
    linarith
  · rw [if_neg h, if_pos h]
    linarith

/-- C63: every cooling coefficient is positive, for every table and temperature; those of Nyx for free-free emission
between 4 K and 10¹⁷ K. -/
theorem cooling_positive {name : String} {c : Cool} (hc : coolOf name = .ok c) {temp : ℝ} (ht : 0 < temp)
    (hnyx : name = "Nyx" → 4 ≤ temp ∧ temp ≤ 1e17) : PositiveCooling c temp := by
  unfold coolOf at hc
  split_ifs at hc with h1 h2 h3
  · rw [← Except.ok.inj hc]
    exact kwh_positive (name := "C92") (by norm_num) ht
  · rw [← Except.ok.inj hc]
    exact kwh_positive (name := "V96") (by norm_num) ht
  · rw [← Except.ok.inj hc]
    have hk := kwh_positive (c := 5e7) (name := "C92") (by norm_num) ht
    obtain ⟨t1, t2⟩ := hnyx h3
    refine ⟨?_, hk.he0, hk.hep, nyxRecombHp_pos ht, hk.rhep, nyxRecombHePP_pos ht, ?_, ?_⟩
    · show 0 < nyxCollisionalH0 temp
      unfold nyxCollisionalH0
      positivity
    · exact freeFree_pos ht (by norm_num) (nyxGff_pos (by norm_num) (by linarith) (by linarith))
    · exact freeFree_pos ht (by norm_num) (nyxGff_pos (by norm_num) (by linarith) (by linarith))

/-- C63 (finding): the Gaunt factor of Nyx, and with it free-free cooling, is negative above 10¹⁸ K. -/
theorem nyx_freefree_negative {temp : ℝ} (ht : 1e18 ≤ temp) : nyx.FreeFree temp 1 < 0 := by
  have h0 : 0 < temp := lt_of_lt_of_le (by norm_num) ht
  have l : 18 ≤ Real.logb 10 (temp / 1 ^ 2) := by
    rw [Real.le_logb_iff_rpow_le (by norm_num) (by positivity)]
    have : ((10 : ℝ) ^ (18 : ℝ)) = 1e18 := by
      rw [show (18 : ℝ) = ((18 : ℕ) : ℝ) by norm_num, Real.rpow_natCast]; norm_num
    rw [this]; simpa using ht
  have hg : nyxGff temp 1 < 0 := by
    unfold nyxGff ind
    dsimp only
    have h : ¬ temp / 1 ^ 2 ≤ 3.2e5 := by
      rw [one_pow, div_one, not_le]
      exact lt_of_lt_of_le (by norm_num) ht
    rw [if_neg h, if_pos h]
    linarith
  have := Real.sqrt_pos.2 h0
  show freeFree nyxGff temp 1 < 0
  unfold freeFree
  have hp : 0 < 1.426e-27 * √temp * 1 ^ 2 := by positivity
  exact mul_neg_of_pos_of_neg hp hg

/-- C63: the microwave background cools gas hotter than itself and heats colder gas. -/
theorem compton_sign {name : String} {c : Cool} (hc : coolOf name = .ok c) {z : ℝ} (hz : -1 < z) (temp : ℝ) :
    (0 < c.InverseCompton temp z ↔ 2.7255 * (1 + z) < temp) ∧ (c.InverseCompton temp z = 0 ↔ temp = 2.7255 * (1 + z)) := by
  have hi : c.InverseCompton = inverseCompton := by
    unfold coolOf at hc
    split_ifs at hc <;> rw [← Except.ok.inj hc] <;> rfl
  rw [hi]
  unfold inverseCompton tcmb kB
  dsimp only
  have hz' : 0 < 1 + z := by linarith
  have hk : (0 : ℝ) < 4 * 6.6524e-25 * 7.5657e-15 / (9.10938e-28 * 2.99792e10) * (2.7255 * (1 + z)) ^ 4 * 1.38064852e-16 := by
    positivity
  constructor
  · rw [mul_pos_iff_of_pos_left hk, sub_pos]
  · rw [mul_eq_zero, or_iff_right hk.ne', sub_eq_zero]

/-! The net rate. -/

/-- The energy a cubic centimetre of gas loses per second to collisions, recombination and free-free emission: a rate
coefficient times the densities of the electrons and of the ions of each process. -/
noncomputable def atomicCooling (c : Cool) (temp ne nH nHe : ℝ) (f : Fractions) : ℝ :=
  ne * (c.CollisionalH0 temp * (f.h0 * nH) + c.CollisionalHe0 temp * (f.he0 * nHe) + c.CollisionalHeP temp * (f.he1 * nHe)) +
  ne * (c.RecombHp temp * (f.h1 * nH) + c.RecombHeP temp * (f.he1 * nHe) + c.RecombHePP temp * (f.he2 * nHe)) +
  ne * (c.FreeFree temp 1 * (f.h1 * nH + f.he1 * nHe) + c.FreeFree temp 2 * (f.he2 * nHe))

/-- The energy it gains from the photons that ionise its atoms. -/
noncomputable def photoHeating (c : CoolNet) (density nH nHe : ℝ) (f : Fractions) : ℝ :=
  (c.epsH0 * (f.h0 * nH) + c.epsHe0 * (f.he0 * nHe) + c.epsHep * (f.he1 * nHe)) * c.net.photo_factor *
    (if c.he_model_on then heFactor c density else 1)

/-- C63: the rate per gram, times the mass of a cubic centimetre, is the sum of the processes, where the Compton term is
the coefficient times the square of the electron density. -/
theorem cooling_rate_partial {k : ℕ} {c : CoolNet} (h : Sane c.net) (hcol : c.net.collisional = true)
    {density u : Fin k → ℝ} (hd : ∀ i, 0 < density i) (hu : ∀ i, 0 < u i) {Y : ℝ} (hY : 0 ≤ Y) (hY1 : Y < 1) {ph : Bool}
    {r : Fin k → Option ℝ} (hr : get_cooling_rate c density u Y ph = .ok r) (i : Fin k) :
    ∃ (ne : Fin k → ℝ) (f : Fractions) (v temp : ℝ), get_equilib_ne c.net density u Y = .ok ne ∧
      temp = tempOf (ne i / (density i * (1 - Y))) (u i) Y ∧
      NetFractions c.net (density i * (1 - Y)) temp (ne i / (density i * (1 - Y))) f ∧ f.Physical ∧ r i = some v ∧
      v * (density i * protonmass) = atomicCooling c.cool temp (ne i) (density i * (1 - Y)) (density i * Y / 4) f +
        ne i ^ 2 * c.cool.InverseCompton temp c.redshift -
        (if ph then photoHeating c (density i) (density i * (1 - Y)) (density i * Y / 4) f else 0) := by
  unfold get_cooling_rate at hr
  simp only [bind, Except.bind] at hr
  cases hne : get_equilib_ne c.net density u Y with
  | error e => rw [hne] at hr; simp at hr
  | ok ne =>
    rw [hne] at hr
    dsimp only at hr
    obtain ⟨ht, hpos⟩ := temp_at_solution h hd hu hY hY1 hne
    rw [ht] at hr
    dsimp only at hr
    have hnh : ∀ i, 0 < density i * (1 - Y) := fun i => mul_pos (hd i) (by linarith)
    split at hr
    · simp at hr
    · have hr' := Except.ok.inj hr
      obtain ⟨f, hf, hphys, -⟩ := fractions_physical_partial h (hpos i) (hnh i) (ne i / (density i * (1 - Y))) (Or.inl hcol)
      obtain ⟨f0, f1, f2, f3, f4⟩ := hf
      have hv : r i = some ((lambdaTot c (ne i / (density i * (1 - Y))) (tempOf (ne i / (density i * (1 - Y))) (u i) Y)
          f.h0 f.h1 (f.he0 * yy Y) (f.he1 * yy Y) (f.he2 * yy Y) -
          heatingTot c ph (density i) (density i * (1 - Y)) f.h0 (f.he0 * yy Y) (f.he1 * yy Y)) *
          (1 - Y) ^ 2 * density i / protonmass) := by
        rw [← hr']
        dsimp only
        rw [← f2, ← f0, ← f1, ← f3, ← f4]
        rfl
      refine ⟨ne, f, _, _, rfl, rfl, ⟨f0, f1, f2, f3, f4⟩, hphys, hv, ?_⟩
      · set T := tempOf (ne i / (density i * (1 - Y))) (u i) Y
        have hY' : 0 < 1 - Y := by linarith
        have hmp : 0 < protonmass := by unfold protonmass; norm_num
        have hdi := hd i
        unfold atomicCooling photoHeating lambdaTot heatingTot yy
        dsimp only
        cases ph
        · simp only [Bool.false_eq_true, if_false]
          field_simp
          ring
        · simp only [if_true]
          cases c.he_model_on
          · simp only [Bool.false_eq_true, if_false]
            field_simp
          · simp only [if_true]
            field_simp

/-- C63 (finding): Compton cooling per volume is the coefficient times the density of electrons ("multiply this only by
n_e"), not its square, so at any other density than one electron per cubic centimetre and any temperature but that of the
background the net rate is wrong. -/
theorem compton_wrong {name : String} {c : Cool} (hc : coolOf name = .ok c) {z : ℝ} (hz : -1 < z) {temp ne : ℝ} (hne : 0 < ne) :
    ne ^ 2 * c.InverseCompton temp z = ne * c.InverseCompton temp z ↔ ne = 1 ∨ temp = 2.7255 * (1 + z) := by
  rw [← (compton_sign hc hz temp).2, pow_two, mul_assoc, mul_right_inj' hne.ne']
  constructor
  · intro h
    by_cases h0 : c.InverseCompton temp z = 0
    · exact Or.inr h0
    · left
      have : (ne - 1) * c.InverseCompton temp z = 0 := by linear_combination h
      rcases mul_eq_zero.1 this with h | h
      · linarith
      · exact absurd h h0
  · rintro (rfl | h)
    · rw [one_mul]
    · rw [h, mul_zero]

/-- C63: without photoheating, gas at least as hot as the background does not gain energy. -/
theorem cooling_nonneg {k : ℕ} {c : CoolNet} (h : Sane c.net) (hcol : c.net.collisional = true) {name : String}
    (hc : coolOf name = .ok c.cool) (hz : -1 < c.redshift)
    {density u : Fin k → ℝ} (hd : ∀ i, 0 < density i) (hu : ∀ i, 0 < u i) {Y : ℝ} (hY : 0 ≤ Y) (hY1 : Y < 1)
    {r : Fin k → Option ℝ} (hr : get_cooling_rate c density u Y false = .ok r) {T : Fin k → ℝ}
    (hT : get_temp c.net density u Y = .ok T) (i : Fin k) (hTi : 2.7255 * (1 + c.redshift) ≤ T i)
    (hnyx : name = "Nyx" → 4 ≤ T i ∧ T i ≤ 1e17) : ∃ v, r i = some v ∧ 0 ≤ v := by
  obtain ⟨ne, f, v, temp, hne, htemp, -, hphys, hv, hrate⟩ := cooling_rate_partial h hcol hd hu hY hY1 hr i
  have hTt : T i = temp := by
    unfold get_temp at hT
    rw [hne] at hT
    have h1 := (temp_at_solution h hd hu hY hY1 hne).1
    have h2 : getTemp (fun i => ne i / (density i * (1 - Y))) u Y = .ok T := hT
    rw [h1] at h2
    rw [← Except.ok.inj h2, htemp]
  rw [hTt] at hTi hnyx
  have hnh : 0 < density i * (1 - Y) := mul_pos (hd i) (by linarith)
  have hpos : 0 < temp := by rw [htemp]; exact (temp_at_solution h hd hu hY hY1 hne).2 i
  have hx := (equilibrium h hd hu hY hY1 hne i).2.1
  have hne0 : 0 ≤ ne i := by
    rcases le_or_gt 0 (ne i) with h | h
    · exact h
    · exact absurd hx (not_le.2 (div_neg_of_neg_of_pos h hnh))
  have hp := cooling_positive hc hpos hnyx
  have hic : 0 ≤ c.cool.InverseCompton temp c.redshift := by
    rcases hTi.lt_or_eq with h | h
    · exact ((compton_sign hc hz temp).1.2 h).le
    · exact ((compton_sign hc hz temp).2.2 h.symm).ge
  refine ⟨v, hv, ?_⟩
  have hmp : 0 < protonmass := by unfold protonmass; norm_num
  have hd' := hd i
  have key : 0 ≤ v * (density i * protonmass) := by
    rw [hrate]
    obtain ⟨p1, p2, p3, p4, p5, p6, p7, p8⟩ := hp
    obtain ⟨q1, q2, q3, q4, q5, -, -⟩ := hphys
    unfold atomicCooling
    have hnhe : 0 ≤ density i * Y / 4 := by positivity
    simp only [Bool.false_eq_true, if_false, sub_zero]
    positivity
  by_contra hcon
  have : v * (density i * protonmass) < 0 := mul_neg_of_neg_of_pos (not_le.1 hcon) (by positivity)
  linarith

/-- C63 (finding): with the helium reionisation model, photoheating of an array of more than one element always raises
ValueError, or fails in the solver. -/
theorem he_model_array {k : ℕ} {c : CoolNet} (hon : c.he_model_on = true) (hk : k ≠ 1) (density u : Fin k → ℝ) (Y : ℝ) :
    ∃ e, get_cooling_rate c density u Y true = .error e := by
  unfold get_cooling_rate
  simp only [bind, Except.bind]
  cases get_equilib_ne c.net density u Y with
  | error e => exact ⟨e, rfl⟩
  | ok ne =>
    dsimp only
    cases getTemp (fun i => ne i / (density i * (1 - Y))) u Y with
    | error e => exact ⟨e, rfl⟩
    | ok t => exact ⟨.valueError, by dsimp only; rw [if_pos ⟨trivial, hon, hk⟩]⟩

/-- Witness: two particles, the tables of Sherwood, at redshift 3. -/
noncomputable def exampleCool : CoolNet :=
  ⟨exampleNet 10, kwh 5e7 Verner96, 3, 1e-24, 1e-24, 1e-26, 0.7, 10, 1, 0, false⟩

example : Sane exampleCool.net ∧ exampleCool.net.collisional = true ∧ coolOf "Sherwood" = .ok exampleCool.cool :=
  ⟨exampleNet_sane _, rfl, rfl⟩

/-! Witnesses: two particles in the network of the example, and the bounds on temperatures. -/

example := queries (exampleNet_sane 10) (density := fun _ : Fin 2 => 1e-4) (u := fun _ => 200) (by norm_num) (by norm_num) (Y := 0.24)
  (by norm_num) (by norm_num)

example := accel_exact (q := fun _ : Fin 2 => 3) (r := fun _ => 1 / 2) (by norm_num) (by norm_num) (fun _ => 5) (by norm_num)

example := cooling_positive (name := "Nyx") rfl (temp := 1e4) (by norm_num) (by norm_num)

example := nyx_freefree_negative (temp := 2e18) (by norm_num)

example := compton_sign (name := "Sherwood") rfl (z := 3) (by norm_num) 1e4

example := compton_wrong (name := "Sherwood") rfl (z := 3) (by norm_num) (temp := 1e4) (ne := 1e-4) (by norm_num)

example {r : Fin 2 → Option ℝ} (hr : get_cooling_rate exampleCool (fun _ => 1e-4) (fun _ => 200) 0.24 true = .ok r) :=
  cooling_rate_partial (exampleNet_sane _) rfl (by norm_num) (by norm_num) (by norm_num) (by norm_num) hr 0

example {r : Fin 2 → Option ℝ} (hr : get_cooling_rate exampleCool (fun _ => 1e-4) (fun _ => 200) 0.24 false = .ok r)
    {T : Fin 2 → ℝ} (hT : get_temp exampleCool.net (fun _ => 1e-4) (fun _ => 200) 0.24 = .ok T) (h : 11 ≤ T 0) :=
  cooling_nonneg (name := "Sherwood") (exampleNet_sane _) rfl rfl (by norm_num [exampleCool]) (by norm_num) (by norm_num) (by norm_num)
    (by norm_num) hr hT 0 (by norm_num [exampleCool]; linarith) (by simp)

end Verif.Props
