import Verif.Model.RateNetwork

/-!
C35: recombination and collisional rates are positive at every temperature.
-/

namespace Verif.Props
open Verif.Rates

/-- All rates the network divides by or multiplies with are positive at this temperature. Recombination of He+
has a radiative and a dielectronic part, which are always used together. -/
structure PositiveRates (r : Recomb) (temp : ℝ) : Prop where
  hp : 0 < r.alphaHp temp
  hep : 0 < r.alphaHep temp + r.alphad temp
  hepp : 0 < r.alphaHepp temp
  d : 0 < r.alphad temp
  eH0 : 0 < r.GammaeH0 temp
  eHe0 : 0 < r.GammaeHe0 temp
  eHep : 0 < r.GammaeHep temp

theorem vernerFit_pos {temp aa bb t0 t1 : ℝ} (ht : 0 < temp) (ha : 0 < aa) (h0 : 0 < t0) (h1 : 0 < t1) :
    0 < vernerFit temp aa bb t0 t1 := by
  unfold vernerFit
  have s0 : 0 < √(temp / t0) := Real.sqrt_pos.2 (by positivity)
  have s1 : 0 < √(temp / t1) := Real.sqrt_pos.2 (by positivity)
  have p0 : 0 < (1 + √(temp / t0)) ^ (1 - bb) := Real.rpow_pos_of_pos (by positivity) _
  have p1 : 0 < (1 + √(temp / t1)) ^ (1 + bb) := Real.rpow_pos_of_pos (by positivity) _
  positivity

theorem badnellFit_pos {temp aa bb cc t0 t1 t2 : ℝ} (ht : 0 < temp) (ha : 0 < aa) (h0 : 0 < t0) (h1 : 0 < t1) :
    0 < badnellFit temp aa bb cc t0 t1 t2 := by
  unfold badnellFit
  have s0 : 0 < √(temp / t0) := Real.sqrt_pos.2 (by positivity)
  have s1 : 0 < √(temp / t1) := Real.sqrt_pos.2 (by positivity)
  have p0 : 0 < (1 + √(temp / t0)) ^ (1 - (bb + cc * Real.exp (-t2 / temp))) := Real.rpow_pos_of_pos (by positivity) _
  have p1 : 0 < (1 + √(temp / t1)) ^ (1 + (bb + cc * Real.exp (-t2 / temp))) := Real.rpow_pos_of_pos (by positivity) _
  positivity

theorem voronovFit_pos {dE PP AA XX KK temp : ℝ} (ht : 0 < temp) (hd : 0 < dE) (hP : 0 ≤ PP) (hA : 0 < AA) (hX : 0 < XX) :
    0 < voronovFit dE PP AA XX KK temp := by
  unfold voronovFit
  have hU : 0 < dE / (8.61734e-5 * temp) := by positivity
  have p : 0 < (dE / (8.61734e-5 * temp)) ^ KK := Real.rpow_pos_of_pos hU _
  have s : 0 ≤ √(dE / (8.61734e-5 * temp)) := Real.sqrt_nonneg _
  positivity

theorem cenHp_pos {temp : ℝ} (ht : 0 < temp) : 0 < cenHp temp := by
  unfold cenHp
  have s0 : 0 < √temp := Real.sqrt_pos.2 ht
  have p0 : 0 < (temp / 1000) ^ (0.2 : ℝ) := Real.rpow_pos_of_pos (by positivity) _
  have p1 : 0 < (temp / 1e6) ^ (0.7 : ℝ) := Real.rpow_pos_of_pos (by positivity) _
  positivity

theorem cenGamma_pos {a e temp : ℝ} (ht : 0 < temp) (ha : 0 < a) : 0 < cenGamma a e temp := by
  unfold cenGamma
  have s0 : 0 < √temp := Real.sqrt_pos.2 ht
  positivity

theorem cenAlphad_pos {temp : ℝ} (ht : 0 < temp) : 0 < cenAlphad temp := by
  unfold cenAlphad
  have p0 : 0 < temp ^ (1.5 : ℝ) := Real.rpow_pos_of_pos ht _
  positivity

theorem cenHep_pos {temp : ℝ} (ht : 0 < temp) : 0 < cenHep temp := by
  unfold cenHep
  have p0 : 0 < temp ^ (0.6353 : ℝ) := Real.rpow_pos_of_pos ht _
  positivity

theorem vernerAlphad_pos {temp : ℝ} (ht : 0 < temp) : 0 < vernerAlphad temp := by
  unfold vernerAlphad
  have p0 : 0 < temp ^ (1.5 : ℝ) := Real.rpow_pos_of_pos ht _
  positivity

/-- The fit for He+ below the join, above it and inside it. -/
theorem vernerHep_cases {temp : ℝ} :
    (temp < 6e5 → vernerHep temp = vernerFit temp 3.294e-11 0.6910 1.554e+01 3.676e+07) ∧
    (8e5 < temp → vernerHep temp = vernerFit temp 9.356e-10 0.7892 4.266e-02 4.677e+06) ∧
    (6e5 < temp → temp < 8e5 → vernerHep temp =
      (vernerFit temp 3.294e-11 0.6910 1.554e+01 3.676e+07 * (8e5 - temp) +
        vernerFit temp 9.356e-10 0.7892 4.266e-02 4.677e+06 * (temp - 6e5)) / 2e5) ∧
    (temp = 6e5 ∨ temp = 8e5 → vernerHep temp = 0) := by
  have e1 : (7e5 - 1e5 : ℝ) = 6e5 := by norm_num
  have e2 : (7e5 + 1e5 : ℝ) = 8e5 := by norm_num
  have e3 : (2 * 1e5 : ℝ) = 2e5 := by norm_num
  unfold vernerHep
  dsimp only
  rw [e1, e2, e3]
  unfold ind
  refine ⟨?_, ?_, ?_, ?_⟩
  · intro h
    rw [if_pos h, if_neg (by intro h'; norm_num at h h'; linarith), if_neg (c := temp > 6e5) (by intro h'; linarith)]
    ring
  · intro h
    rw [if_neg (by intro h'; norm_num at h h'; linarith), if_pos h, if_neg (c := 8e5 > temp) (by intro h'; linarith)]
    ring
  · intro h h'
    rw [if_neg (by linarith), if_neg (by linarith), if_pos h', if_pos h]
    ring
  · rintro (rfl | rfl)
    · norm_num
    · norm_num

/-- C35 (finding): the radiative rate of He+ in the default tables is positive except at exactly 600000 K and
800000 K, where it is zero. -/
theorem verner_hep_pos_iff {temp : ℝ} (ht : 0 < temp) : 0 < vernerHep temp ↔ temp ≠ 6e5 ∧ temp ≠ 8e5 := by
  obtain ⟨h1, h2, h3, h4⟩ := @vernerHep_cases temp
  have pl := vernerFit_pos (temp := temp) (aa := 3.294e-11) (bb := 0.6910) (t0 := 1.554e+01) (t1 := 3.676e+07) ht
    (by norm_num) (by norm_num) (by norm_num)
  have ph := vernerFit_pos (temp := temp) (aa := 9.356e-10) (bb := 0.7892) (t0 := 4.266e-02) (t1 := 4.677e+06) ht
    (by norm_num) (by norm_num) (by norm_num)
  constructor
  · intro h
    constructor
    · intro e; rw [h4 (Or.inl e)] at h; exact lt_irrefl _ h
    · intro e; rw [h4 (Or.inr e)] at h; exact lt_irrefl _ h
  · rintro ⟨n1, n2⟩
    rcases lt_or_gt_of_ne n1 with a | a
    · rw [h1 a]; exact pl
    · rcases lt_or_gt_of_ne n2 with b | b
      · rw [h3 a b]
        have := mul_pos pl (sub_pos.2 b)
        have := mul_pos ph (sub_pos.2 a)
        positivity
      · rw [h2 b]; exact ph

theorem vernerHep_nonneg {temp : ℝ} (ht : 0 < temp) : 0 ≤ vernerHep temp := by
  by_cases h : temp ≠ 6e5 ∧ temp ≠ 8e5
  · exact ((verner_hep_pos_iff ht).2 h).le
  · have : temp = 6e5 ∨ temp = 8e5 := by tauto
    rw [vernerHep_cases.2.2.2 this]

/-- C35: whichever tables are asked for, every rate is positive at every temperature, where the two ways for He+
to recombine are added as the network does. -/
theorem rates_positive_partial (name : String) {temp : ℝ} (ht : 0 < temp) : PositiveRates (recombOf name) temp := by
  unfold recombOf
  split_ifs
  · exact ⟨vernerFit_pos ht (by norm_num) (by norm_num) (by norm_num),
      add_pos_of_nonneg_of_pos (vernerHep_nonneg ht) (vernerAlphad_pos ht),
      vernerFit_pos ht (by norm_num) (by norm_num) (by norm_num), vernerAlphad_pos ht,
      voronovFit_pos ht (by norm_num) (by norm_num) (by norm_num) (by norm_num),
      voronovFit_pos ht (by norm_num) (by norm_num) (by norm_num) (by norm_num),
      voronovFit_pos ht (by norm_num) (by norm_num) (by norm_num) (by norm_num)⟩
  · exact ⟨vernerFit_pos ht (by norm_num) (by norm_num) (by norm_num),
      add_pos (vernerFit_pos ht (by norm_num) (by norm_num) (by norm_num)) (vernerAlphad_pos ht),
      badnellFit_pos ht (by norm_num) (by norm_num) (by norm_num), vernerAlphad_pos ht,
      voronovFit_pos ht (by norm_num) (by norm_num) (by norm_num) (by norm_num),
      voronovFit_pos ht (by norm_num) (by norm_num) (by norm_num) (by norm_num),
      voronovFit_pos ht (by norm_num) (by norm_num) (by norm_num) (by norm_num)⟩
  · exact ⟨cenHp_pos ht, add_pos (cenHep_pos ht) (cenAlphad_pos ht), mul_pos (by norm_num) (cenHp_pos ht),
      cenAlphad_pos ht, cenGamma_pos ht (by norm_num), cenGamma_pos ht (by norm_num), cenGamma_pos ht (by norm_num)⟩

/-- C35: with the tables of Cen or Badnell the radiative rate of He+ alone is positive as well. -/
theorem hep_positive {temp : ℝ} (ht : 0 < temp) : 0 < Cen92.alphaHep temp ∧ 0 < Badnell.alphaHep temp :=
  ⟨cenHep_pos ht, vernerFit_pos ht (by norm_num) (by norm_num) (by norm_num)⟩

theorem vernerFit_antitone {aa bb t0 t1 : ℝ} (ha : 0 < aa) (hb : 0 ≤ bb) (hb1 : bb ≤ 1) (h0 : 0 < t0) (h1 : 0 < t1) {s t : ℝ}
    (hs : 0 < s) (hst : s ≤ t) : vernerFit t aa bb t0 t1 ≤ vernerFit s aa bb t0 t1 := by
  unfold vernerFit
  dsimp only
  have s0 : 0 < √(s / t0) := Real.sqrt_pos.2 (by positivity)
  have m0 : √(s / t0) ≤ √(t / t0) := Real.sqrt_le_sqrt (by gcongr)
  have m1 : √(s / t1) ≤ √(t / t1) := Real.sqrt_le_sqrt (by gcongr)
  have q0 : 0 ≤ √(s / t1) := Real.sqrt_nonneg _
  have p0 : 0 < (1 + √(s / t0)) ^ (1 - bb) := Real.rpow_pos_of_pos (by positivity) _
  have p1 : 0 < (1 + √(s / t1)) ^ (1 + bb) := Real.rpow_pos_of_pos (by positivity) _
  have l0 : (1 + √(s / t0)) ^ (1 - bb) ≤ (1 + √(t / t0)) ^ (1 - bb) :=
    Real.rpow_le_rpow (by positivity) (by linarith) (by linarith)
  have l1 : (1 + √(s / t1)) ^ (1 + bb) ≤ (1 + √(t / t1)) ^ (1 + bb) :=
    Real.rpow_le_rpow (by positivity) (by linarith) (by linarith)
  apply div_le_div_of_nonneg_left ha.le (by positivity)
  gcongr

/-- C35: hydrogen recombines more slowly at higher temperature, whichever tables are used. -/
theorem alphaHp_antitone (name : String) {s t : ℝ} (hs : 0 < s) (hst : s ≤ t) :
    (recombOf name).alphaHp t ≤ (recombOf name).alphaHp s := by
  unfold recombOf
  split_ifs
  · exact vernerFit_antitone (by norm_num) (by norm_num) (by norm_num) (by norm_num) (by norm_num) hs hst
  · exact vernerFit_antitone (by norm_num) (by norm_num) (by norm_num) (by norm_num) (by norm_num) hs hst
  · change cenHp t ≤ cenHp s
    unfold cenHp
    have s0 : 0 < √s := Real.sqrt_pos.2 hs
    have m0 : √s ≤ √t := Real.sqrt_le_sqrt hst
    have p0 : 0 < (s / 1000) ^ (0.2 : ℝ) := Real.rpow_pos_of_pos (by positivity) _
    have p1 : 0 < (s / 1e6) ^ (0.7 : ℝ) := Real.rpow_pos_of_pos (by positivity) _
    have l0 : (s / 1000) ^ (0.2 : ℝ) ≤ (t / 1000) ^ (0.2 : ℝ) :=
      Real.rpow_le_rpow (by positivity) (by gcongr) (by norm_num)
    have l1 : (s / 1e6) ^ (0.7 : ℝ) ≤ (t / 1e6) ^ (0.7 : ℝ) :=
      Real.rpow_le_rpow (by positivity) (by gcongr) (by norm_num)
    gcongr

/-! The theorems at work at ten thousand degrees. -/

example := verner_hep_pos_iff (temp := 1e4) (by norm_num)

example := rates_positive_partial "V96" (temp := 1e4) (by norm_num)

example := hep_positive (temp := 1e4) (by norm_num)

example := alphaHp_antitone "C92" (s := 1e4) (t := 1e5) (by norm_num) (by norm_num)

end Verif.Props
