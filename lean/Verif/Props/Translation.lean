import Verif.Props.Deposit

/-!
C55: spectra follow the particles: position and velocity act through the redshift-space coordinate,
and moving a particle by whole pixels rotates its spectrum.
-/

namespace Verif.Props

open Verif Absorption Real

/-- C55: only the redshift-space position `velfac * position + velocity` matters for absorption:
moving a particle by `δ` is the same as raising its velocity by the Hubble flow over `δ`. -/
theorem redshift_space (L : LineAbsorption) (hk : L.kernel ≠ VORONOI_MESH) (a : List ℝ) (off nbins : ℕ)
    (dr2 dens ppos pvel temp h δ : ℝ) :
    add_tau_particle L a off nbins dr2 dens (ppos + δ) pvel temp h =
      add_tau_particle L a off nbins dr2 dens ppos (pvel + L.velfac * δ) temp h := by
  have e : L.velfac * (ppos + δ) + pvel = L.velfac * ppos + (pvel + L.velfac * δ) := by ring
  have et : tauPixel L nbins dr2 dens (ppos + δ) pvel temp h =
      tauPixel L nbins dr2 dens ppos (pvel + L.velfac * δ) temp h := by
    funext z
    unfold tauPixel
    simp only [e]
  unfold add_tau_particle
  simp only [hk, if_false, false_and, e, et]

theorem visited_shift (τ : ℤ → ℝ) (tautail : ℝ) (dir k : ℤ) (n : ℕ) (c : ℤ) :
    visited (fun z => τ (z - k)) tautail dir n (c + k) = (visited τ tautail dir n c).map (· + k) := by
  induction n generalizing c with
  | zero => rfl
  | succ n ih =>
    simp only [visited, List.map_cons, add_sub_cancel_right]
    congr 1
    split
    · rfl
    · rw [show c + k + dir = c + dir + k by ring, ih]

theorem pixelSum_shift {nbins : ℕ} (hn : 0 < nbins) (τ : ℤ → ℝ) (k : ℕ) (zs : List ℤ) {j : ℕ}
    (hj : j < nbins) :
    pixelSum 0 nbins (fun z => τ (z - k)) (zs.map (· + (k : ℤ))) ((j + k) % nbins) =
      pixelSum 0 nbins τ zs j := by
  unfold pixelSum
  rw [List.map_map]
  congr 1
  apply List.map_congr_left
  intro z _
  simp only [Function.comp, add_sub_cancel_right, Nat.cast_zero, zero_add]
  have : (((j + k) % nbins : ℕ) : ℤ) = (z + k) % nbins ↔ (j : ℤ) = z % nbins := by
    push_cast
    constructor
    · intro h
      have h2 : (j : ℤ) % nbins = z % nbins := by
        have := congrArg (fun x : ℤ => (x - k) % nbins) h
        simpa [Int.emod_sub_emod] using this
      rwa [Int.emod_eq_of_lt (by omega) (by omega)] at h2
    · intro h
      rw [h, Int.emod_add_emod]
  simp only [this]

/-- From elementwise shifts to a rotation of the array. -/
theorem rotate_of_shift {nbins : ℕ} (k : ℕ) {F G : ℕ → ℝ}
    (h : ∀ j < nbins, G ((j + k) % nbins) = F j) :
    (arrAdd (List.replicate nbins 0) G).rotate k = arrAdd (List.replicate nbins 0) F := by
  apply List.ext_getElem (by simp)
  intro j h1 h2
  have hj : j < nbins := by simpa using h2
  rw [List.getElem_rotate]
  have e : ∀ (H : ℕ → ℝ) (m : ℕ) (hm : m < (arrAdd (List.replicate nbins 0) H).length),
      (arrAdd (List.replicate nbins 0) H)[m] = H m := by
    intro H m hm
    simp [arrAdd]
  rw [e, e]
  simp only [arrAdd_length, List.length_replicate]
  exact h j hj

/-- C55, absorption: a particle whose velocity is higher by `k` pixel widths gives the same spectrum
rotated by `k` pixels. -/
theorem tau_pixel_shift (L : LineAbsorption) (hL : GoodAbs L) (hk : L.kernel ≠ VORONOI_MESH)
    {nbins : ℕ} (hn : 0 < nbins) (dr2 dens ppos pvel temp h : ℝ) (k : ℕ) :
    ∃ out out', add_tau_particle L (List.replicate nbins 0) 0 nbins dr2 dens ppos pvel temp h = .ok out ∧
      add_tau_particle L (List.replicate nbins 0) 0 nbins dr2 dens ppos
        (pvel + k * (L.vbox / nbins)) temp h = .ok out' ∧
      out'.rotate k = out := by
  refine ⟨_, _, add_tau_eq L hn (by simp) .., add_tau_eq L hn (by simp) .., ?_⟩
  apply rotate_of_shift
  intro j hj
  have hb : L.vbox / nbins ≠ 0 := by
    have := hL.vbox
    have : (0 : ℝ) < nbins := by exact_mod_cast hn
    positivity
  have et : tauPixel L nbins dr2 dens ppos (pvel + k * (L.vbox / nbins)) temp h =
      fun z : ℤ => tauPixel L nbins dr2 dens ppos pvel temp h (z - k) := by
    funext z
    unfold tauPixel
    have : (z : ℝ) * (L.vbox / nbins) - (L.velfac * ppos + (pvel + k * (L.vbox / nbins))) =
        ((z - k : ℤ) : ℝ) * (L.vbox / nbins) - (L.velfac * ppos + pvel) := by push_cast; ring
    simp only [this]
  have ec : ⌊(L.velfac * ppos + (pvel + k * (L.vbox / nbins))) / (L.vbox / nbins)⌋ =
      ⌊(L.velfac * ppos + pvel) / (L.vbox / nbins)⌋ + k := by
    rw [← Int.floor_add_natCast]
    congr 1
    rw [← add_assoc, add_div, mul_div_cancel_right₀ _ hb]
  unfold tauF
  simp only [hk, if_false, false_and]
  split
  · rfl
  · rw [et, ec]
    rw [show ⌊(L.velfac * ppos + pvel) / (L.vbox / nbins)⌋ + (k : ℤ) - 1 =
      (⌊(L.velfac * ppos + pvel) / (L.vbox / nbins)⌋ - 1) + k by ring, visited_shift, visited_shift,
      ← List.map_append]
    exact pixelSum_shift hn _ k _ hj

/-- C55, absorption: the spectrum is periodic in the box, so a particle leaving through one face is
the particle entering through the other. -/
theorem tau_periodic (L : LineAbsorption) (hL : GoodAbs L) (hk : L.kernel ≠ VORONOI_MESH)
    {nbins : ℕ} (hn : 0 < nbins) (dr2 dens ppos pvel temp h : ℝ) :
    add_tau_particle L (List.replicate nbins 0) 0 nbins dr2 dens (ppos + L.vbox / L.velfac) pvel temp h =
      add_tau_particle L (List.replicate nbins 0) 0 nbins dr2 dens ppos pvel temp h := by
  obtain ⟨out, out', h1, h2, h3⟩ := tau_pixel_shift L hL hk hn dr2 dens ppos pvel temp h nbins
  have e : L.velfac * (L.vbox / L.velfac) = nbins * (L.vbox / nbins) := by
    have := hL.velfac
    have : (0 : ℝ) < nbins := by exact_mod_cast hn
    field_simp
  rw [redshift_space L hk, e, h1, h2, ← h3]
  congr 1
  have hlen : out'.length = nbins := by
    rw [add_tau_eq L hn (by simp)] at h2
    simp only [Except.ok.injEq] at h2
    rw [← h2]; simp
  conv_rhs => rw [← hlen]
  rw [List.rotate_length]

/-- C55, column density: a particle moved by `k` pixel widths gives the same column densities rotated
by `k` pixels. -/
theorem colden_pixel_shift (L : LineAbsorption) (hL : GoodAbs L) (hk : L.kernel ≠ VORONOI_MESH)
    {nbins : ℕ} (hn : 0 < nbins) (dr2 dens pos h : ℝ) (k : ℕ) :
    ∃ out out', add_colden_particle L (List.replicate nbins 0) 0 nbins dr2 dens pos h = .ok out ∧
      add_colden_particle L (List.replicate nbins 0) 0 nbins dr2 dens
        (pos + k * (L.vbox / nbins / L.velfac)) h = .ok out' ∧
      out'.rotate k = out := by
  refine ⟨_, _, add_colden_eq L hn (by simp) .., add_colden_eq L hn (by simp) .., ?_⟩
  apply rotate_of_shift
  intro j hj
  have hb : 0 < L.vbox / nbins / L.velfac := by
    have := hL.vbox
    have := hL.velfac
    have : (0 : ℝ) < nbins := by exact_mod_cast hn
    positivity
  unfold coldenF
  simp only [hk, if_false, false_and]
  split
  · rfl
  · generalize L.vbox / nbins / L.velfac = d at hb
    generalize √(h * h - dr2) = zr
    have e1 : ⌊(pos + k * d - zr) / d⌋ = ⌊(pos - zr) / d⌋ + k := by
      rw [← Int.floor_add_natCast]; congr 1; field_simp; ring
    have e2 : ⌈(pos + k * d + zr) / d⌉ = ⌈(pos + zr) / d⌉ + k := by
      rw [← Int.ceil_add_natCast]; congr 1; field_simp; ring
    have e3 : ∀ lo hi : ℤ, intRange (lo + k) (hi + k) = (intRange lo hi).map (· + (k : ℤ)) := by
      intro lo hi
      unfold intRange
      rw [List.map_map, show hi + k + 1 - (lo + k) = hi + 1 - lo by ring]
      apply List.map_congr_left
      intro x _
      simp only [Function.comp]; ring
    have e4 : (fun z : ℤ => dens * get_kern_frac L.kernel (d * z - (pos + k * d))
        (d * z - (pos + k * d) + d) h dr2 zr) = fun z : ℤ => (fun y : ℤ => dens * get_kern_frac L.kernel
          (d * y - pos) (d * y - pos + d) h dr2 zr) (z - k) := by
      funext z
      have : d * z - (pos + k * d) = d * ((z - k : ℤ) : ℝ) - pos := by push_cast; ring
      simp only [this]
    rw [e1, e2, e3, e4]
    exact pixelSum_shift hn (fun y : ℤ => dens * get_kern_frac L.kernel
          (d * y - pos) (d * y - pos + d) h dr2 zr) k _ hj

/-- C55: column density is proportional to the density of the particle. -/
theorem colden_linear (L : LineAbsorption) {nbins : ℕ} (hn : 0 < nbins) (dr2 dens pos h s : ℝ) :
    ∃ out, add_colden_particle L (List.replicate nbins 0) 0 nbins dr2 dens pos h = .ok out ∧
      add_colden_particle L (List.replicate nbins 0) 0 nbins dr2 (s * dens) pos h =
        .ok (out.map (s * ·)) := by
  refine ⟨_, add_colden_eq L hn (by simp) .., ?_⟩
  rw [add_colden_eq L hn (by simp)]
  congr 1
  have key : ∀ m, coldenF L 0 nbins dr2 (s * dens) pos h m = s * coldenF L 0 nbins dr2 dens pos h m := by
    intro m
    unfold coldenF
    split_ifs
    · simp
    · simp
    all_goals
      unfold pixelSum
      rw [← List.sum_map_mul_left]
      dsimp only
      congr 1
      apply List.map_congr_left
      intro z _
      split
      · ring
      · simp
  apply List.ext_getElem?
  intro m
  rw [arrAdd_getElem?, List.getElem?_map, arrAdd_getElem?]
  by_cases hm : m < nbins
  · rw [List.getElem?_eq_getElem (by simpa using hm)]
    simp [key]
  · rw [List.getElem?_eq_none (by simpa using hm)]
    rfl

/-- Witness: four pixels in a box of 10, a particle moved by three pixels past the end of the box. -/
example : ∃ out out', add_tau_particle (exAbs 1) (List.replicate 4 0) 0 4 0 5 9.5 3 1e4 2 = .ok out ∧
    add_tau_particle (exAbs 1) (List.replicate 4 0) 0 4 0 5 9.5 (3 + (3 : ℕ) * (10 / (4 : ℕ))) 1e4 2 = .ok out' ∧
    out'.rotate 3 = out :=
  tau_pixel_shift (exAbs 1) (exAbs_good 1) (by change (1 : ℤ) ≠ 2; decide) (by norm_num) 0 5 9.5 3 1e4 2 3

example := redshift_space (exAbs 1) (by change (1 : ℤ) ≠ 2; decide) [0, 0, 0, 0] 0 4 0 5 9.5 3 1e4 2 0.25

example := tau_periodic (exAbs 1) (exAbs_good 1) (by change (1 : ℤ) ≠ 2; decide) (nbins := 4) (by norm_num) 0 5 9.5 3 1e4 2

example := colden_pixel_shift (exAbs 1) (exAbs_good 1) (by change (1 : ℤ) ≠ 2; decide) (nbins := 4) (by norm_num) 0 5 9.5 2 3

end Verif.Props
