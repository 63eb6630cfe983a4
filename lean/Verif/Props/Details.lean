import Verif.Props.GasProps
import Verif.Props.Cooling
import Verif.Props.Construct
import Verif.Props.ColumnDensity
import Verif.Props.VoigtFit
import Verif.Props.Emission
import Verif.Model.Kernels

/-!
Consequences a user sees of small choices in the code that the other properties do not fix: which kernel a name selects, the
groups of pixels a distance gives, the peak of the Gaunt factor, the arrays a query leaves alone.
-/

namespace Verif.Props.Details

/-! ### C18: the kernels -/

/-- C18. The names Python accepts select the kernels of those names in the C++ code. -/
theorem kernel_named (s : Construct.Snap) :
    Construct.kernelOf (.name "tophat") s = .ok Absorption.TOP_HAT_KERNEL ∧
    Construct.kernelOf (.name "cubic") s = .ok Absorption.SPH_CUBIC_SPLINE ∧
    Construct.kernelOf (.name "sph") s = .ok Absorption.SPH_CUBIC_SPLINE ∧
    Construct.kernelOf (.name "quintic") s = .ok Absorption.SPH_QUINTIC_SPLINE ∧
    Construct.kernelOf (.name "voronoi") s = .ok Absorption.VORONOI_MESH := ⟨rfl, rfl, rfl, rfl, rfl⟩

/-! ### C23: the groups of pixels -/

open Absorbers in
theorem npRound_near (x : ℝ) : |(npRound x : ℝ) - x| ≤ 1 / 2 := by
  have h1 := Int.fract_nonneg x
  have h2 := Int.fract_lt_one x
  have h3 : x = ⌊x⌋ + Int.fract x := (Int.floor_add_fract x).symm
  unfold npRound
  rw [abs_le]
  split
  · constructor <;> linarith
  · split
    · push_cast
      constructor <;> linarith
    · split
      · constructor <;> linarith
      · push_cast
        constructor <;> linarith

open Absorbers in
/-- C23. Absorbers are sums over the whole number of pixels nearest to the distance asked for, so the width summed over is
within half a pixel of it; a distance of less than a pixel gives single pixels. -/
theorem cbins_spec {close dvbin : ℝ} (hd : 0 < dvbin) :
    (dvbin ≤ close → |(cbins close dvbin : ℝ) * dvbin - close| ≤ dvbin / 2) ∧ (close < dvbin → cbins close dvbin = 1) := by
  have hn := abs_le.1 (npRound_near (close / dvbin))
  have e : close / dvbin * dvbin = close := div_mul_cancel₀ _ (ne_of_gt hd)
  constructor
  · intro h
    have h1 : 1 ≤ close / dvbin := (one_le_div hd).2 h
    have h2 : (1 : ℤ) ≤ npRound (close / dvbin) := by
      by_contra hc
      have : (npRound (close / dvbin) : ℝ) ≤ 0 := by exact_mod_cast (by omega : npRound (close / dvbin) ≤ 0)
      linarith [hn.1]
    have h3 : ((cbins close dvbin : ℕ) : ℝ) = (npRound (close / dvbin) : ℝ) := by
      unfold cbins
      rw [max_eq_left h2]
      have : ((npRound (close / dvbin)).toNat : ℤ) = npRound (close / dvbin) := Int.toNat_of_nonneg (by omega)
      exact_mod_cast this
    rw [h3, abs_le]
    constructor <;> nlinarith
  · intro h
    have h1 : close / dvbin < 1 := (div_lt_one hd).2 h
    have h2 : npRound (close / dvbin) ≤ 1 := by
      by_contra hc
      have : (2 : ℝ) ≤ npRound (close / dvbin) := by exact_mod_cast (by omega : 2 ≤ npRound (close / dvbin))
      linarith [hn.2]
    unfold cbins
    rw [max_eq_right h2]
    rfl

/-- The hypotheses are met: 50 km/s in pixels of 20 km/s. -/
example : (0 : ℝ) < 20 ∧ (20 : ℝ) ≤ 50 := by norm_num

/-! ### C40: rounding to pixels -/

open Voigt in
/-- Python's `round`: no integer is nearer, and halves go to the even neighbour. -/
theorem pyround_spec (x : ℝ) : |(pyround x : ℝ) - x| ≤ 1 / 2 ∧ (|(pyround x : ℝ) - x| = 1 / 2 → Even (pyround x)) := by
  have h1 := Int.fract_nonneg x
  have h2 := Int.fract_lt_one x
  have h3 : x = ⌊x⌋ + Int.fract x := (Int.floor_add_fract x).symm
  unfold pyround
  split
  · rename_i h
    have : |((⌊x⌋ : ℤ) : ℝ) - x| = Int.fract x := by
      rw [abs_sub_comm, abs_of_nonneg (by linarith)]; linarith
    rw [this]
    exact ⟨h.le, fun hh => absurd hh (ne_of_lt h)⟩
  · split
    · rename_i h
      have : |((⌊x⌋ + 1 : ℤ) : ℝ) - x| = 1 - Int.fract x := by
        push_cast
        rw [abs_of_nonneg (by linarith)]; linarith
      rw [this]
      exact ⟨by linarith, fun hh => absurd hh (by linarith)⟩
    · rename_i ha hb
      have hf : Int.fract x = 1 / 2 := le_antisymm (not_lt.1 hb) (not_lt.1 ha)
      split
      · rename_i he
        have : |((⌊x⌋ : ℤ) : ℝ) - x| = 1 / 2 := by
          rw [abs_sub_comm, abs_of_nonneg (by linarith)]; linarith
        rw [this]
        exact ⟨le_refl _, fun _ => even_iff_two_dvd.2 he⟩
      · rename_i he
        have : |((⌊x⌋ + 1 : ℤ) : ℝ) - x| = 1 / 2 := by
          push_cast
          rw [abs_of_nonneg (by linarith)]; linarith
        rw [this]
        refine ⟨le_refl _, fun _ => ?_⟩
        have : Odd ⌊x⌋ := by rw [← Int.not_even_iff_odd, even_iff_two_dvd]; exact he
        exact this.add_one

/-! ### C16: the emission store -/

section
open Verif.Emission

theorem look_put_other (d : Stellar) {k k' : String × ℝ} (v : List ℝ) (h : k' ≠ k) : look (put d k v) k' = look d k' := by
  classical
  unfold look put
  rw [List.find?_cons_of_neg (by simpa using Ne.symm h)]
  congr 1
  induction d with
  | nil => rfl
  | cons p d ih =>
    by_cases hp : p.1 = k
    · rw [List.filter_cons_of_neg (by simpa using hp), ih, List.find?_cons_of_neg]
      simpa [hp] using Ne.symm h
    · rw [List.filter_cons_of_pos (by simpa using hp), List.find?_cons, List.find?_cons, ih]

theorem reallyLoad_other (o : Obj) (k k' : String × ℝ) (d : Stellar) (h : k' ≠ k) :
    look (reallyLoad o k d).2 k' = look d k' := by
  unfold reallyLoad
  split
  · rfl
  · split
    · rfl
    · split
      · rfl
      · exact look_put_other d _ h

/-- C16. A query changes no stored array but its own, whatever happens in it. -/
theorem emflux_keeps_others (segs : Py (List ℕ)) (o : Obj) (band : String) (pixelsz : ℝ) (d : Stellar) (k : String × ℝ)
    (hk : k ≠ Emission.keyOf o band pixelsz) : look (get_emflux_with segs o band pixelsz d).2 k = look d k := by
  have hl := reallyLoad_other o (Emission.keyOf o band pixelsz) k d hk
  unfold get_emflux_with
  dsimp only
  have e : (band, distance pixelsz (1 / o.atime - 1) o.hubble o.omegaM) = Emission.keyOf o band pixelsz := rfl
  rw [e]
  split
  · rename_i h
    rw [h] at hl
    split
    · exact (look_put_other _ _ hk).trans hl
    · exact hl
  · rename_i h
    rw [h] at hl
    split
    · exact hl
    · split
      · exact hl
      · exact (look_put_other _ _ hk).trans ((look_put_other _ _ hk).trans hl)
  · rename_i h
    rw [h] at hl
    exact hl

/-- The hypothesis is met: the same pixel in another band. -/
example (o : Obj) : (("U", 1) : String × ℝ) ≠ Emission.keyOf o "B" 1 := by
  intro h
  have := congrArg Prod.fst h
  simp [Emission.keyOf] at this

end

/-! ### C63: the free-free rate -/

section
open Verif.Rates

/-- C63. The Gaunt factor lies between 1.1 and 1.44, and is 1.44 at log T = 5.5 only. -/
theorem gff_range {temp : ℝ} (zz : ℝ) : 1.1 < gff temp zz ∧ gff temp zz ≤ 1.44 ∧ (gff temp zz = 1.44 ↔ Real.logb 10 temp = 5.5) := by
  unfold gff
  have h0 := Real.exp_pos (-(5.5 - Real.logb 10 temp) ^ 2 / 3)
  have hs : -(5.5 - Real.logb 10 temp) ^ 2 / 3 ≤ 0 := by
    have := sq_nonneg (5.5 - Real.logb 10 temp)
    linarith
  have h1 := Real.exp_le_one_iff.2 hs
  refine ⟨by linarith, by linarith, ?_⟩
  constructor
  · intro h
    have h2 : Real.exp (-(5.5 - Real.logb 10 temp) ^ 2 / 3) = 1 := by linarith
    rw [Real.exp_eq_one_iff] at h2
    have h3 : (5.5 - Real.logb 10 temp) ^ 2 = 0 := by linarith
    have h4 := pow_eq_zero_iff (two_ne_zero) |>.1 h3
    linarith
  · intro h
    rw [h]
    norm_num

/-- C36. At any redshift the gray opacity of the rate network is that of the gas properties up to redshift 5, and the value at
redshift 5 or 0 outside. -/
theorem graySS_spec (z : ℝ) :
    (0 ≤ z → z ≤ 5 → ∃ b, Gas.uvbAt z = .ok (some b) ∧ Interp.graySS z = b.gray_opac) ∧
    (5 < z → Interp.graySS z = 1.94e-18) ∧ (z < 0 → Interp.graySS z = 2.59e-18) := by
  refine ⟨fun h0 h5 => ?_, fun h => ?_, fun h => ?_⟩
  · obtain ⟨b, hb, _⟩ := (uvbAt_spec z).1 h0 (by linarith)
    refine ⟨b, hb, ?_⟩
    have hs : Interp.searchsorted (fun i : ℕ => (i : ℝ)) z 9 = Interp.searchsorted (fun i : ℕ => (i : ℝ)) z 6 := by
      simp only [Interp.searchsorted]
      rw [if_neg (by norm_num; linarith), if_neg (by norm_num; linarith), if_neg (by norm_num; linarith)]
    have hle : Interp.searchsorted (fun i : ℕ => (i : ℝ)) z 6 ≤ 5 := by
      simp only [Interp.searchsorted]
      rw [if_neg (by norm_num; linarith)]
      split_ifs <;> norm_num
    have hg : ∀ i < 6, Gas.grayTable.getD i 0 = ([2.59e-18, 2.37e-18, 2.27e-18, 2.15e-18, 2.02e-18, 1.94e-18] : List ℝ).getD i 0 := by
      intro i hi
      interval_cases i <;> rfl
    have hi6 : Interp.interp1d 6 (fun i : ℕ => (i : ℝ))
        (fun i => ([2.59e-18, 2.37e-18, 2.27e-18, 2.15e-18, 2.02e-18, 1.94e-18] : List ℝ).getD i 0) z =
        Interp.interp1d 9 (fun i : ℕ => (i : ℝ)) (fun i => Gas.grayTable.getD i 0) z := by
      unfold Interp.interp1d
      rw [if_neg (by norm_num; exact ⟨h0, h5⟩), if_neg (by norm_num; exact ⟨h0, by linarith⟩), hs]
      generalize Interp.searchsorted (fun i : ℕ => (i : ℝ)) z 6 = m at hle
      dsimp only
      rw [min_eq_left (by omega), min_eq_left (by omega), hg _ (by omega), hg _ (by omega)]
    unfold Interp.graySS Interp.interp1dFill
    rw [hi6]
    unfold Gas.uvbAt at hb
    rw [if_neg (by linarith)] at hb
    revert hb
    generalize Interp.interp1d 9 (fun i : ℕ => (i : ℝ)) (fun i => Gas.gammaTable.getD i 0) z = g
    generalize Interp.interp1d 9 (fun i : ℕ => (i : ℝ)) (fun i => Gas.grayTable.getD i 0) z = y
    intro hb
    cases g with
    | error _ => exact absurd hb (by intro h; cases h)
    | ok g =>
      cases y with
      | error _ => exact absurd hb (by intro h; cases h)
      | ok y => cases hb; rfl
  · unfold Interp.graySS Interp.interp1dFill
    rw [(interp1d_spec (by norm_num : 2 ≤ 6) (fun i : ℕ => (i : ℝ)) _ z).2 (Or.inr (by norm_num; exact h))]
    dsimp only
    rw [if_neg (by norm_num; linarith)]
    rfl
  · unfold Interp.graySS Interp.interp1dFill
    rw [(interp1d_spec (by norm_num : 2 ≤ 6) (fun i : ℕ => (i : ℝ)) _ z).2 (Or.inl (by norm_num; exact h))]
    dsimp only
    rw [if_pos (by norm_num; exact h)]
    rfl

/-- C36. For the same gray opacity, photo-ionization rate and fraction of baryons the rate network and the gas properties
agree on the density above which gas shields itself. -/
theorem shieldDens_agree (n : Net) (temp : ℝ) : selfShieldDens n temp = Gas.selfShieldDens ⟨n.gray, n.gH0⟩ n.f_bar temp := rfl

end

end Verif.Props.Details
