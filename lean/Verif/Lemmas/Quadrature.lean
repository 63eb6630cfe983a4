import Verif.Lemmas.Kernels

/-! Error of the eight step trapezium rule of `sph_kern_frac`. -/

namespace Verif
namespace Absorption

open Real

/-- Eight step trapezium rule. -/
noncomputable def trap (f : ℝ → ℝ) (a b : ℝ) : ℝ :=
  (b - a) / 8 * (f a / 2 + (∑ i ∈ Finset.range 7, f (((i : ℝ) + 1) * ((b - a) / 8) + a)) + f b / 2)

theorem trap_mono_error {f : ℝ → ℝ} (hf : Monotone f) {a b : ℝ} (hab : a ≤ b) :
    |trap f a b - ∫ x in a..b, f x| ≤ (b - a) / 16 * (f b - f a) := by
  have hd : 0 ≤ (b - a) / 8 := by linarith
  set d := (b - a) / 8 with hdd
  let g : ℝ → ℝ := fun x => f (a + d * x)
  have hg : Monotone g := by
    intro x y hxy
    apply hf
    have := mul_le_mul_of_nonneg_left hxy hd
    linarith
  have h1 := MonotoneOn.sum_le_integral (x₀ := 0) (a := 8) (hg.monotoneOn _)
  have h2 := MonotoneOn.integral_le_sum (x₀ := 0) (a := 8) (hg.monotoneOn _)
  have h3 : d * ∫ x in (0 : ℝ)..0 + (8 : ℕ), g x = ∫ x in a..b, f x := by
    have := intervalIntegral.mul_integral_comp_add_mul (a := 0) (b := 0 + (8 : ℕ)) (f := f) d a
    rw [this]
    congr 1
    · ring
    · rw [hdd]; push_cast; ring
  have m1 := mul_le_mul_of_nonneg_left h1 hd
  have m2 := mul_le_mul_of_nonneg_left h2 hd
  rw [h3] at m1 m2
  have e0 : g 0 = f a := by simp [g]
  have e8 : g 8 = f b := by simp only [g]; congr 1; rw [hdd]; ring
  have ei : ∀ i : ℝ, f (i * d + a) = g i := by intro i; simp only [g]; congr 1; ring
  unfold trap
  rw [← hdd]
  simp only [Finset.sum_range_succ, Finset.sum_range_zero, ei] at m1 m2 ⊢
  norm_num at m1 m2 ⊢
  rw [e0] at m1
  rw [e8] at m2
  rw [show (b - a) / 16 = d / 2 by rw [hdd]; ring, abs_le]
  generalize (∫ x in a..b, f x) = I at *
  constructor <;> nlinarith

/-- Kernel value on the sightline, at distance `z` along it from the point nearest the particle. -/
noncomputable def alongLine (kern : ℝ → ℝ) (h dr2 z : ℝ) : ℝ := kern (√(dr2 + z * z) / h)

noncomputable def rise (kern : ℝ → ℝ) (h dr2 z : ℝ) : ℝ := alongLine kern h dr2 (min z 0)
noncomputable def fall (kern : ℝ → ℝ) (h dr2 z : ℝ) : ℝ :=
  alongLine kern h dr2 0 - alongLine kern h dr2 (max z 0)

section
variable {kern : ℝ → ℝ} (hk : AntitoneOn kern (Set.Ici 0)) {h : ℝ} (hh : 0 < h) (dr2 : ℝ)

include hk hh

theorem alongLine_le {x y : ℝ} (hxy : x * x ≤ y * y) :
    alongLine kern h dr2 y ≤ alongLine kern h dr2 x := by
  unfold alongLine
  apply hk
  · exact Set.mem_Ici.2 (by positivity)
  · exact Set.mem_Ici.2 (by positivity)
  · gcongr

theorem rise_mono : Monotone (rise kern h dr2) := by
  intro x y hxy
  apply alongLine_le hk hh
  have h1 : min x 0 ≤ min y 0 := min_le_min_right 0 hxy
  have h2 : min y 0 ≤ 0 := min_le_right _ _
  nlinarith

theorem fall_mono : Monotone (fall kern h dr2) := by
  intro x y hxy
  apply sub_le_sub_left
  apply alongLine_le hk hh
  have h1 : max x 0 ≤ max y 0 := max_le_max_right 0 hxy
  have h2 : 0 ≤ max x 0 := le_max_right _ _
  nlinarith

omit hk hh in
theorem alongLine_eq (z : ℝ) : alongLine kern h dr2 z = rise kern h dr2 z - fall kern h dr2 z := by
  unfold rise fall
  rcases le_total z 0 with hz | hz
  · rw [min_eq_left hz, max_eq_right hz]; ring
  · rw [min_eq_right hz, max_eq_left hz]; ring

omit hk hh in
theorem trap_sub (f g : ℝ → ℝ) (a b : ℝ) : trap (fun x => f x - g x) a b = trap f a b - trap g a b := by
  unfold trap
  rw [Finset.sum_sub_distrib]
  ring

theorem alongLine_integrable (a b : ℝ) :
    IntervalIntegrable (alongLine kern h dr2) MeasureTheory.volume a b := by
  rw [show alongLine kern h dr2 = _ from funext (alongLine_eq (kern := kern) (h := h) dr2)]
  exact ((rise_mono hk hh dr2).intervalIntegrable).sub ((fall_mono hk hh dr2).intervalIntegrable)

theorem trap_error {a b : ℝ} (hab : a ≤ b) :
    |trap (alongLine kern h dr2) a b - ∫ z in a..b, alongLine kern h dr2 z| ≤
      (b - a) / 16 * ((rise kern h dr2 b + fall kern h dr2 b) -
        (rise kern h dr2 a + fall kern h dr2 a)) := by
  have e : alongLine kern h dr2 = fun z => rise kern h dr2 z - fall kern h dr2 z :=
    funext (alongLine_eq dr2)
  rw [e, trap_sub, intervalIntegral.integral_sub ((rise_mono hk hh dr2).intervalIntegrable)
    ((fall_mono hk hh dr2).intervalIntegrable)]
  have h1 := trap_mono_error (rise_mono hk hh dr2) hab
  have h2 := trap_mono_error (fall_mono hk hh dr2) hab
  rw [abs_le] at *
  constructor <;> nlinarith

omit hk hh in
theorem sph_kern_frac_eq (zlow zhigh zr : ℝ) :
    sph_kern_frac kern zlow zhigh h dr2 zr =
      if max zlow (-zr) > min zhigh zr then 0
      else trap (alongLine kern h dr2) (max zlow (-zr)) (min zhigh zr) := by
  unfold sph_kern_frac trap alongLine
  simp only [NGRID, List.range', List.foldl_cons, List.foldl_nil, Finset.sum_range_succ,
    Finset.sum_range_zero]
  split_ifs
  · rfl
  · norm_num
    left; ring

/-- The pixel fraction against the exact integral over the part of the pixel inside `[-zr, zr]`. -/
theorem sph_kern_frac_error {zlow zhigh zr : ℝ} (hr : 0 ≤ zr) (hz : zlow ≤ zhigh) :
    |sph_kern_frac kern zlow zhigh h dr2 zr -
        ∫ z in clamp zr zlow..clamp zr zhigh, alongLine kern h dr2 z| ≤
      (zhigh - zlow) / 16 * ((rise kern h dr2 (clamp zr zhigh) + fall kern h dr2 (clamp zr zhigh)) -
        (rise kern h dr2 (clamp zr zlow) + fall kern h dr2 (clamp zr zlow))) := by
  rw [sph_kern_frac_eq]
  have hc : clamp zr zlow ≤ clamp zr zhigh := by
    unfold clamp; exact max_le_max_left _ (min_le_min_right _ hz)
  have hm1 := rise_mono hk hh dr2 hc
  have hm2 := fall_mono hk hh dr2 hc
  split
  · rename_i hgt
    have : clamp zr zlow = clamp zr zhigh := by
      have := overlap_eq_clamp hr hz
      rw [max_eq_left (by linarith)] at this
      linarith
    rw [this]; simp
  · rename_i hle
    push Not at hle
    have e1 : max zlow (-zr) = clamp zr zlow := by
      unfold clamp
      have : zlow ≤ zr := le_trans (le_max_left _ _) (le_trans hle (min_le_right _ _))
      rw [min_eq_left this, max_comm]
    have e2 : min zhigh zr = clamp zr zhigh := by
      unfold clamp
      have : -zr ≤ min zhigh zr := le_trans (le_max_right _ _) hle
      rw [max_eq_right this]
    rw [e1, e2]
    refine (trap_error hk hh dr2 hc).trans ?_
    apply mul_le_mul_of_nonneg_right _ (by linarith)
    have := overlap_eq_clamp hr hz
    have h3 : max 0 (min zhigh zr - max zlow (-zr)) ≤ zhigh - zlow := by
      apply max_le (by linarith)
      have := min_le_left zhigh zr
      have := le_max_left zlow (-zr)
      linarith
    linarith

theorem total_variation (hk0 : ∀ q, 0 ≤ q → 0 ≤ kern q) (a b : ℝ) :
    (rise kern h dr2 b + fall kern h dr2 b) - (rise kern h dr2 a + fall kern h dr2 a) ≤
      2 * kern (√dr2 / h) := by
  have e0 : kern (√dr2 / h) = alongLine kern h dr2 0 := by unfold alongLine; simp
  have hn : ∀ z, 0 ≤ alongLine kern h dr2 z := fun z => hk0 _ (by positivity)
  have h1 : ∀ z, alongLine kern h dr2 z ≤ alongLine kern h dr2 0 :=
    fun z => alongLine_le hk hh dr2 (by nlinarith)
  rw [e0]
  unfold rise fall
  have := hn (min a 0); have := hn (max b 0); have := h1 (min b 0); have := h1 (max a 0)
  linarith

end

theorem list_abs_sum_le {α : Type*} (l : List α) (f g : α → ℝ) (hfg : ∀ x ∈ l, |f x| ≤ g x) :
    |(l.map f).sum| ≤ (l.map g).sum := by
  induction l with
  | nil => simp
  | cons x l ih =>
    simp only [List.map_cons, List.sum_cons]
    exact (abs_add_le _ _).trans (add_le_add (hfg x (by simp)) (ih (fun y hy => hfg y (by simp [hy]))))

theorem intRange_telescope {lo hi : ℤ} (h : lo ≤ hi) (f : ℤ → ℝ) :
    ((intRange lo hi).map (fun z => f (z + 1) - f z)).sum = f (hi + 1) - f lo := by
  obtain ⟨n, rfl⟩ : ∃ n : ℕ, hi = lo + n := ⟨(hi - lo).toNat, by omega⟩
  exact sum_intRange lo n f

/-- The pixels of a particle, summed. -/
theorem sum_sph_kern_frac {kern : ℝ → ℝ} (hk : AntitoneOn kern (Set.Ici 0))
    (hk0 : ∀ q, 0 ≤ q → 0 ≤ kern q) {h : ℝ} (hh : 0 < h) (dr2 : ℝ) {d p zr : ℝ} (hd : 0 < d)
    (hr : 0 ≤ zr) :
    |((intRange ⌊(p - zr) / d⌋ ⌈(p + zr) / d⌉).map (fun z : ℤ =>
        sph_kern_frac kern (d * z - p) (d * z - p + d) h dr2 zr)).sum -
      ∫ z in -zr..zr, alongLine kern h dr2 z| ≤ d / 8 * kern (√dr2 / h) := by
  have hle : ⌊(p - zr) / d⌋ ≤ ⌈(p + zr) / d⌉ := by
    have h1 : (p - zr) / d ≤ (p + zr) / d := by gcongr; linarith
    have := Int.floor_le ((p - zr) / d)
    have := Int.le_ceil ((p + zr) / d)
    exact_mod_cast (by linarith : (⌊(p - zr) / d⌋ : ℝ) ≤ ⌈(p + zr) / d⌉)
  have hlow : d * (⌊(p - zr) / d⌋ : ℝ) - p ≤ -zr := by
    have := Int.floor_le ((p - zr) / d)
    rw [le_div_iff₀ hd] at this; nlinarith
  have hhigh : zr ≤ d * ((⌈(p + zr) / d⌉ : ℝ) + 1) - p := by
    have := Int.le_ceil ((p + zr) / d)
    rw [div_le_iff₀ hd] at this; nlinarith
  have c1 : clamp zr (d * (⌊(p - zr) / d⌋ : ℝ) - p) = -zr := by
    unfold clamp; rw [min_eq_left (by linarith), max_eq_left hlow]
  have c2 : clamp zr (d * ((⌈(p + zr) / d⌉ : ℝ) + 1) - p) = zr := by
    unfold clamp; rw [min_eq_right hhigh, max_eq_right (by linarith)]
  let I : ℤ → ℝ := fun z => ∫ x in -zr..clamp zr (d * z - p), alongLine kern h dr2 x
  let U : ℤ → ℝ := fun z => d / 16 * (rise kern h dr2 (clamp zr (d * z - p)) +
    fall kern h dr2 (clamp zr (d * z - p)))
  have hI : ∫ z in -zr..zr, alongLine kern h dr2 z =
      ((intRange ⌊(p - zr) / d⌋ ⌈(p + zr) / d⌉).map (fun z => I (z + 1) - I z)).sum := by
    rw [intRange_telescope hle]
    simp only [I]
    push_cast
    rw [c1, c2, intervalIntegral.integral_same, sub_zero]
  rw [hI]
  have hsub : ∀ (l : List ℤ) (f g : ℤ → ℝ), (l.map f).sum - (l.map g).sum =
      (l.map (fun z => f z - g z)).sum := by
    intro l f g
    induction l with
    | nil => simp
    | cons x l ih => simp only [List.map_cons, List.sum_cons, ← ih]; ring
  rw [hsub]
  refine (list_abs_sum_le _ _ (fun z => U (z + 1) - U z) ?_).trans ?_
  · intro z _
    have hstep : d * ((z + 1 : ℤ) : ℝ) - p = d * z - p + d := by push_cast; ring
    have := sph_kern_frac_error hk hh dr2 (zlow := d * z - p) (zhigh := d * z - p + d) hr (by linarith)
    have e : I (z + 1) - I z = ∫ x in clamp zr (d * z - p)..clamp zr (d * z - p + d),
        alongLine kern h dr2 x := by
      simp only [I]
      rw [hstep, intervalIntegral.integral_interval_sub_left (alongLine_integrable hk hh dr2 _ _)
        (alongLine_integrable hk hh dr2 _ _)]
    rw [e]
    refine this.trans (le_of_eq ?_)
    simp only [U]
    rw [hstep]
    ring
  · rw [intRange_telescope hle]
    simp only [U]
    have := total_variation hk hh dr2 hk0 (clamp zr (d * (⌊(p - zr) / d⌋ : ℝ) - p))
      (clamp zr (d * (((⌈(p + zr) / d⌉ + 1 : ℤ)) : ℝ) - p))
    rw [← mul_sub]
    have := mul_le_mul_of_nonneg_left this (by positivity : 0 ≤ d / 16)
    linarith

end Absorption
end Verif
