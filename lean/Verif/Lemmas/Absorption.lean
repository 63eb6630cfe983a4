import Verif.Model.Absorption
import Verif.Lemmas.Arrays

/-! Helper lemmas on the deposition of one particle. -/

namespace Verif
namespace Absorption

open Real

theorem wrapIndex_eq {nbins : ℕ} (h : 0 < nbins) (z : ℤ) : wrapIndex z nbins = z % nbins := by
  unfold wrapIndex
  have hn : (0 : ℤ) < nbins := by exact_mod_cast h
  have key := @Int.tmod_eq_emod z (nbins : ℤ)
  simp only
  by_cases hz : 0 ≤ z ∨ (nbins : ℤ) ∣ z
  · rw [key, if_pos hz]
    have := Int.emod_nonneg z hn.ne'
    rw [Nat.cast_zero, sub_zero, if_neg (by omega)]
  · rw [key, if_neg hz]
    have := Int.emod_lt_of_pos z hn
    have h2 : ((nbins : ℤ).natAbs : ℤ) = nbins := by simp
    rw [h2]
    rw [if_pos (by omega)]
    omega

theorem wrapIndex_range {nbins : ℕ} (h : 0 < nbins) (z : ℤ) :
    0 ≤ wrapIndex z nbins ∧ wrapIndex z nbins < nbins := by
  have hn : (0 : ℤ) < nbins := by exact_mod_cast h
  rw [wrapIndex_eq h]
  exact ⟨Int.emod_nonneg _ hn.ne', Int.emod_lt_of_pos _ hn⟩

theorem mem_intRange {lo hi z : ℤ} : z ∈ intRange lo hi ↔ lo ≤ z ∧ z ≤ hi := by
  unfold intRange
  rw [List.mem_map]
  constructor
  · rintro ⟨k, hk, rfl⟩; rw [List.mem_range] at hk; omega
  · rintro ⟨h1, h2⟩
    exact ⟨(z - lo).toNat, by rw [List.mem_range]; omega, by omega⟩

/-- What a pixel-writing pass adds to array element `m`. -/
noncomputable def pixelSum (off nbins : ℕ) (val : ℤ → ℝ) (zs : List ℤ) (m : ℕ) : ℝ :=
  (zs.map (fun z => if (m : ℤ) = off + z % nbins then val z else 0)).sum

theorem addPixel_eq {nbins off : ℕ} (hn : 0 < nbins) {a : List ℝ} (ha : off + nbins ≤ a.length)
    (z : ℤ) (x : ℝ) : addAt a (off + wrapIndex z nbins) x =
      .ok (arrAdd a (fun m => if (m : ℤ) = off + z % nbins then x else 0)) := by
  have h := wrapIndex_range hn z
  rw [addAt_eq x (by omega) (by omega), wrapIndex_eq hn]

theorem pixelSum_outside {off nbins m : ℕ} (hn : 0 < nbins) (val : ℤ → ℝ) (zs : List ℤ)
    (hm : m < off ∨ off + nbins ≤ m) : pixelSum off nbins val zs m = 0 := by
  unfold pixelSum
  apply List.sum_eq_zero
  intro x hx
  obtain ⟨z, -, rfl⟩ := List.mem_map.1 hx
  have h := wrapIndex_range hn z
  rw [wrapIndex_eq hn] at h
  rw [if_neg (by omega)]

theorem pixelSum_nonneg {off nbins : ℕ} {val : ℤ → ℝ} {zs : List ℤ} (h : ∀ z ∈ zs, 0 ≤ val z) (m : ℕ) :
    0 ≤ pixelSum off nbins val zs m := by
  apply List.sum_nonneg
  intro x hx
  obtain ⟨z, hz, rfl⟩ := List.mem_map.1 hx
  split
  · exact h z hz
  · exact le_rfl

theorem pixelSum_total {off nbins n : ℕ} (hn : 0 < nbins) (ho : off + nbins ≤ n) (val : ℤ → ℝ)
    (zs : List ℤ) : ∑ m ∈ Finset.range n, pixelSum off nbins val zs m = (zs.map val).sum := by
  unfold pixelSum
  induction zs with
  | nil => simp
  | cons z zs ih =>
    simp only [List.map_cons, List.sum_cons, Finset.sum_add_distrib, ih]
    congr 1
    have h := wrapIndex_range hn z
    rw [wrapIndex_eq hn] at h
    rw [Finset.sum_eq_single (off + (z % nbins).toNat)]
    · rw [if_pos (by push_cast; omega)]
    · intro b _ hb; rw [if_neg (by omega)]
    · intro hb; rw [Finset.mem_range] at hb; omega

theorem coldenLoop_eq (kf : ℝ → ℝ → ℝ → ℝ → ℝ → ℝ) {off nbins : ℕ} (hn : 0 < nbins)
    (boxtokpc pos1 smooth dr2 zrange dens : ℝ) (zs : List ℤ) {a : List ℝ}
    (ha : off + nbins ≤ a.length) :
    coldenLoop kf off nbins boxtokpc pos1 smooth dr2 zrange dens zs a =
      .ok (arrAdd a (pixelSum off nbins
        (fun z => dens * kf (boxtokpc * z - pos1) (boxtokpc * z - pos1 + boxtokpc) smooth dr2 zrange)
        zs)) := by
  unfold coldenLoop pixelSum
  exact foldlM_arrAdd _ (fun (z : ℤ) m => if (m : ℤ) = off + z % nbins then
      dens * kf (boxtokpc * z - pos1) (boxtokpc * z - pos1 + boxtokpc) smooth dr2 zrange else 0)
    a.length zs (fun z _ b hb => addPixel_eq hn (by omega) z _) a rfl

/-- Contribution of a particle to element `m` of the column density array. -/
noncomputable def coldenF (L : LineAbsorption) (off nbins : ℕ) (dr2 dens pos smooth : ℝ) (m : ℕ) : ℝ :=
  if L.kernel = VORONOI_MESH ∧ (dr2 > 2 * L.vbox / L.velfac ∨ smooth > 2 * L.vbox / L.velfac) then 0
  else if L.kernel ≠ VORONOI_MESH ∧ smooth * smooth - dr2 ≤ 0 then 0
  else
    let pos1 := if L.kernel = VORONOI_MESH then (dr2 + smooth) / 2 else pos
    let zrange := if L.kernel = VORONOI_MESH then (smooth - dr2) / 2 else √(smooth * smooth - dr2)
    let d := L.vbox / nbins / L.velfac
    pixelSum off nbins (fun z => dens * get_kern_frac L.kernel (d * z - pos1) (d * z - pos1 + d)
      smooth dr2 zrange) (intRange ⌊(pos1 - zrange) / d⌋ ⌈(pos1 + zrange) / d⌉) m

theorem add_colden_eq (L : LineAbsorption) {off nbins : ℕ} (hn : 0 < nbins) {a : List ℝ}
    (ha : off + nbins ≤ a.length) (dr2 dens pos smooth : ℝ) :
    add_colden_particle L a off nbins dr2 dens pos smooth =
      .ok (arrAdd a (coldenF L off nbins dr2 dens pos smooth)) := by
  unfold add_colden_particle coldenF
  by_cases h1 : L.kernel = VORONOI_MESH ∧
      (dr2 > 2 * L.vbox / L.velfac ∨ smooth > 2 * L.vbox / L.velfac)
  · simp only [if_pos h1, arrAdd_zero]
  · by_cases h2 : L.kernel ≠ VORONOI_MESH ∧ smooth * smooth - dr2 ≤ 0
    · simp only [if_neg h1, if_pos h2, arrAdd_zero]
    · simp only [if_neg h1, if_neg h2]
      rw [coldenLoop_eq _ hn _ _ _ _ _ _ _ ha]

theorem coldenF_outside (L : LineAbsorption) {off nbins m : ℕ} (hn : 0 < nbins)
    (hm : m < off ∨ off + nbins ≤ m) (dr2 dens pos smooth : ℝ) :
    coldenF L off nbins dr2 dens pos smooth m = 0 := by
  unfold coldenF
  split
  · rfl
  · split
    · rfl
    · exact pixelSum_outside hn _ _ hm

/-! ### Optical depth -/

/-- The pixels visited by `tauLoop`, in order. -/
noncomputable def visited (tauAt : ℤ → ℝ) (tautail : ℝ) (dir : ℤ) : ℕ → ℤ → List ℤ
  | 0, _ => []
  | n + 1, z => z :: if tauAt z < tautail then [] else visited tauAt tautail dir n (z + dir)

theorem tauLoop_eq (tauAt : ℤ → ℝ) (tautail : ℝ) {off nbins : ℕ} (hn : 0 < nbins) (dir : ℤ) (n : ℕ)
    (z : ℤ) {a : List ℝ} (ha : off + nbins ≤ a.length) :
    tauLoop tauAt tautail off nbins dir n z a =
      .ok (arrAdd a (pixelSum off nbins tauAt (visited tauAt tautail dir n z))) := by
  induction n generalizing z a with
  | zero =>
    have : pixelSum off nbins tauAt (visited tauAt tautail dir 0 z) = fun _ => 0 := by
      funext m; simp [pixelSum, visited]
    rw [this, arrAdd_zero]; rfl
  | succ n ih =>
    simp only [tauLoop, visited]
    rw [addPixel_eq hn ha, ok_bind]
    by_cases ht : tauAt z < tautail
    · simp only [ht, if_true]
      congr 2; funext m
      simp [pixelSum]
    · simp only [ht, if_false]
      rw [ih _ (by simpa using ha), arrAdd_arrAdd]
      congr 2

theorem mem_visited {tauAt : ℤ → ℝ} {tautail : ℝ} {dir : ℤ} {n : ℕ} {z y : ℤ} :
    y ∈ visited tauAt tautail dir n z ↔
      ∃ k : ℕ, k < n ∧ y = z + dir * k ∧ ∀ k' : ℕ, k' < k → tautail ≤ tauAt (z + dir * k') := by
  induction n generalizing z with
  | zero => simp [visited]
  | succ n ih =>
    simp only [visited, List.mem_cons]
    constructor
    · rintro (rfl | h)
      · exact ⟨0, by omega, by simp, by simp⟩
      · split at h
        · simp at h
        · rename_i ht
          obtain ⟨k, h1, h2, h3⟩ := ih.1 h
          refine ⟨k + 1, by omega, by rw [h2]; push_cast; ring, ?_⟩
          intro k' hk'
          cases k' with
          | zero => simpa using ht
          | succ k' =>
            have := h3 k' (by omega)
            rwa [show z + dir + dir * (k' : ℤ) = z + dir * ((k' + 1 : ℕ) : ℤ) by push_cast; ring] at this
    · rintro ⟨k, h1, h2, h3⟩
      cases k with
      | zero => left; simpa using h2
      | succ k =>
        right
        have ht := h3 0 (by omega)
        simp only [Nat.cast_zero, mul_zero, add_zero] at ht
        rw [if_neg (not_lt.2 ht)]
        refine ih.2 ⟨k, by omega, by rw [h2]; push_cast; ring, ?_⟩
        intro k' hk'
        have := h3 (k' + 1) (by omega)
        rwa [show z + dir * ((k' + 1 : ℕ) : ℤ) = z + dir + dir * (k' : ℤ) by push_cast; ring] at this

theorem visited_nodup {tauAt : ℤ → ℝ} {tautail : ℝ} {dir : ℤ} (hd : dir = 1 ∨ dir = -1) (n : ℕ) (z : ℤ) :
    (visited tauAt tautail dir n z).Nodup := by
  induction n generalizing z with
  | zero => simp [visited]
  | succ n ih =>
    simp only [visited, List.nodup_cons]
    constructor
    · intro h
      split at h
      · simp at h
      · obtain ⟨k, -, h2, -⟩ := mem_visited.1 h
        rcases hd with rfl | rfl <;> omega
    · split
      · simp
      · exact ih _

/-- Contribution of a particle to element `m` of the optical depth array. -/
noncomputable def tauF (L : LineAbsorption) (off nbins : ℕ) (dr2 dens ppos pvel temp smooth : ℝ)
    (m : ℕ) : ℝ :=
  if L.kernel = VORONOI_MESH ∧ (dr2 > 2 * L.vbox / L.velfac ∨ smooth > 2 * L.vbox / L.velfac) then 0
  else if L.kernel ≠ VORONOI_MESH ∧ smooth * smooth - dr2 ≤ 0 then 0
  else
    let pos1 := if L.kernel = VORONOI_MESH then (dr2 + smooth) / 2 else ppos
    let vel := L.velfac * pos1 + pvel
    let bintov := L.vbox / nbins
    let zmax := ⌊vel / bintov⌋
    let tauAt := tauPixel L nbins dr2 dens pos1 pvel temp smooth
    pixelSum off nbins tauAt (visited tauAt L.tautail 1 (nbins / 2) zmax ++
      visited tauAt L.tautail (-1) (nbins / 2) (zmax - 1)) m

theorem add_tau_eq (L : LineAbsorption) {off nbins : ℕ} (hn : 0 < nbins) {a : List ℝ}
    (ha : off + nbins ≤ a.length) (dr2 dens ppos pvel temp smooth : ℝ) :
    add_tau_particle L a off nbins dr2 dens ppos pvel temp smooth =
      .ok (arrAdd a (tauF L off nbins dr2 dens ppos pvel temp smooth)) := by
  unfold add_tau_particle tauF
  by_cases h1 : L.kernel = VORONOI_MESH ∧
      (dr2 > 2 * L.vbox / L.velfac ∨ smooth > 2 * L.vbox / L.velfac)
  · simp only [if_pos h1, arrAdd_zero]
  · by_cases h2 : L.kernel ≠ VORONOI_MESH ∧ smooth * smooth - dr2 ≤ 0
    · simp only [if_neg h1, if_pos h2, arrAdd_zero]
    · simp only [if_neg h1, if_neg h2]
      rw [tauLoop_eq _ _ hn _ _ _ ha, ok_bind, tauLoop_eq _ _ hn _ _ _ (by simpa using ha),
        arrAdd_arrAdd]
      congr 2; funext m
      simp only [pixelSum, List.map_append, List.sum_append]

theorem tauF_outside (L : LineAbsorption) {off nbins m : ℕ} (hn : 0 < nbins)
    (hm : m < off ∨ off + nbins ≤ m) (dr2 dens ppos pvel temp smooth : ℝ) :
    tauF L off nbins dr2 dens ppos pvel temp smooth m = 0 := by
  unfold tauF
  split
  · rfl
  · split
    · rfl
    · exact pixelSum_outside hn _ _ hm

/-! ### Clamped telescoping sums -/

/-- `x` clamped to `[-r, r]`. -/
noncomputable def clamp (r x : ℝ) : ℝ := max (-r) (min x r)

theorem overlap_eq_clamp {r x y : ℝ} (hr : 0 ≤ r) (hxy : x ≤ y) :
    max 0 (min y r - max x (-r)) = clamp r y - clamp r x := by
  unfold clamp
  rcases le_total y r with h1 | h1 <;> rcases le_total x (-r) with h2 | h2 <;>
    rcases le_total y (-r) with h3 | h3 <;> rcases le_total x r with h4 | h4 <;>
    simp only [min_def, max_def] <;> split_ifs <;> linarith

theorem sum_intRange (lo : ℤ) (n : ℕ) (f : ℤ → ℝ) :
    ((intRange lo (lo + n)).map (fun z => f (z + 1) - f z)).sum = f (lo + n + 1) - f lo := by
  unfold intRange
  rw [show (lo + n + 1 - lo).toNat = n + 1 by omega, List.map_map]
  induction n with
  | zero => simp
  | succ n ih =>
    rw [List.range_succ, List.map_append, List.sum_append, ih]
    simp only [Function.comp, List.map_cons, List.map_nil, List.sum_cons, List.sum_nil]
    push_cast
    rw [show lo + ((n : ℤ) + 1) = lo + n + 1 by ring]
    ring

theorem sum_overlap {d p r : ℝ} (hd : 0 < d) (hr : 0 ≤ r) :
    ((intRange ⌊(p - r) / d⌋ ⌈(p + r) / d⌉).map (fun z : ℤ =>
      max 0 (min (d * z - p + d) r - max (d * z - p) (-r)))).sum = 2 * r := by
  have hle : ⌊(p - r) / d⌋ ≤ ⌈(p + r) / d⌉ := by
    have h1 : (p - r) / d ≤ (p + r) / d := by gcongr; linarith
    have := Int.floor_le ((p - r) / d)
    have := Int.le_ceil ((p + r) / d)
    exact_mod_cast (by linarith : (⌊(p - r) / d⌋ : ℝ) ≤ ⌈(p + r) / d⌉)
  obtain ⟨n, hn⟩ := Int.eq_ofNat_of_zero_le (sub_nonneg.2 hle)
  have e : ⌈(p + r) / d⌉ = ⌊(p - r) / d⌋ + n := by omega
  have hlow : d * (⌊(p - r) / d⌋ : ℝ) - p ≤ -r := by
    have := Int.floor_le ((p - r) / d)
    rw [le_div_iff₀ hd] at this; nlinarith
  have hhigh : r ≤ d * ((⌈(p + r) / d⌉ : ℝ) + 1) - p := by
    have := Int.le_ceil ((p + r) / d)
    rw [div_le_iff₀ hd] at this; nlinarith
  have hf : ∀ z : ℤ, max 0 (min (d * z - p + d) r - max (d * z - p) (-r)) =
      (fun z : ℤ => clamp r (d * z - p)) (z + 1) - (fun z : ℤ => clamp r (d * z - p)) z := by
    intro z
    rw [overlap_eq_clamp hr (by linarith)]
    simp only
    congr 2; push_cast; ring
  rw [List.map_congr_left (fun z _ => hf z), e,
    sum_intRange _ n (fun z : ℤ => clamp r (d * z - p)), ← e]
  push_cast
  have c1 : clamp r (d * ((⌈(p + r) / d⌉ : ℝ) + 1) - p) = r := by
    unfold clamp; rw [min_eq_right hhigh, max_eq_right (by linarith)]
  have c2 : clamp r (d * (⌊(p - r) / d⌋ : ℝ) - p) = -r := by
    unfold clamp; rw [min_eq_left (by linarith), max_eq_left hlow]
  rw [c1, c2]; ring

/-! ### Non-negativity -/

theorem sph_cubic_kernel_nonneg {q : ℝ} (hq : 0 ≤ q) : 0 ≤ sph_cubic_kernel q := by
  unfold sph_cubic_kernel
  have hp := pi_pos
  dsimp only
  split_ifs with h1 h2
  · exact le_rfl
  · apply mul_nonneg (by positivity)
    norm_num at h2
    nlinarith [mul_nonneg hq hq, mul_nonneg (mul_nonneg hq hq) hq]
  · have : 0 ≤ 1 - q := by linarith
    positivity

theorem sph_quintic_kernel_nonneg {q : ℝ} (hq : 0 ≤ q) : 0 ≤ sph_quintic_kernel q := by
  unfold sph_quintic_kernel
  have hp := pi_pos
  dsimp only
  split_ifs with h1 h2 h3
  · exact le_rfl
  · apply mul_nonneg (by positivity)
    have e : 0 ≤ q ^ 2 * q ^ 2 * (1 - q) := by
      have : 0 ≤ 1 - q := by linarith
      positivity
    have : q ^ 2 ≤ 1 / 9 := by nlinarith
    nlinarith
  · apply mul_nonneg (by positivity)
    have h0 : 0 ≤ 2 - 3 * q := by linarith [h3.1]
    set u := 2 - 3 * q with hu
    have e3 : 3 - 3 * q = u + 1 := by rw [hu]; ring
    have hu1 : u ≤ 1 := by rw [hu]; linarith [h3.2]
    rw [e3]
    have e : (u + 1) ^ 5 - 6 * u ^ 5 = -5 * u ^ 5 + 5 * u ^ 4 + 10 * u ^ 3 + 10 * u ^ 2 + 5 * u + 1 := by
      ring
    rw [e]
    have : 0 ≤ 5 * u ^ 4 * (1 - u) := by
      have : 0 ≤ 1 - u := by linarith
      positivity
    nlinarith [pow_nonneg h0 3, pow_nonneg h0 2]
  · have : 0 ≤ 1 - q := by linarith
    positivity

theorem foldl_add_nonneg {α : Type} (f : α → ℝ) (xs : List α) (init : ℝ) (h0 : 0 ≤ init)
    (h : ∀ x ∈ xs, 0 ≤ f x) : 0 ≤ xs.foldl (fun t x => t + f x) init := by
  induction xs generalizing init with
  | nil => exact h0
  | cons x xs ih =>
    exact ih _ (add_nonneg h0 (h x (by simp))) (fun y hy => h y (by simp [hy]))

theorem foldl_add_eq {α : Type} (f : α → ℝ) (xs : List α) (init : ℝ) :
    xs.foldl (fun t x => t + f x) init = init + (xs.map f).sum := by
  induction xs generalizing init with
  | nil => simp
  | cons x xs ih => simp only [List.foldl_cons, ih, List.map_cons, List.sum_cons]; ring

theorem sph_kern_frac_nonneg {kern : ℝ → ℝ} (hk : ∀ q, 0 ≤ q → 0 ≤ kern q) {smooth : ℝ}
    (hs : 0 ≤ smooth) (zlow zhigh dr2 zrange : ℝ) :
    0 ≤ sph_kern_frac kern zlow zhigh smooth dr2 zrange := by
  unfold sph_kern_frac
  dsimp only
  split
  · exact le_rfl
  · rename_i h
    have h' := not_lt.1 h
    apply mul_nonneg
    · apply div_nonneg (by linarith); exact Nat.cast_nonneg _
    · apply add_nonneg
      · apply foldl_add_nonneg
        · exact div_nonneg (hk _ (by positivity)) (by norm_num)
        · intro i _; exact hk _ (by positivity)
      · exact div_nonneg (hk _ (by positivity)) (by norm_num)

theorem kern_frac_nonneg (kernel : ℤ) {smooth : ℝ} (hs : 0 ≤ smooth) (zlow zhigh dr2 zrange : ℝ) :
    0 ≤ get_kern_frac kernel zlow zhigh smooth dr2 zrange := by
  have hp := pi_pos
  unfold get_kern_frac
  split_ifs
  · unfold tophat_kern_frac; positivity
  · exact sph_kern_frac_nonneg (fun _ h => sph_cubic_kernel_nonneg h) hs _ _ _ _
  · unfold arepo_kern_frac; positivity
  · exact sph_kern_frac_nonneg (fun _ h => sph_quintic_kernel_nonneg h) hs _ _ _ _
  · unfold tophat_kern_frac; positivity

theorem tau_kern_inner_nonneg (s : SingleAbsorber) (hprof : ∀ x, 0 ≤ s.profile x s.aa)
    (hs : 0 ≤ s.vsmooth) (hv : 0 ≤ s.m_vhigh) (v : ℝ) : 0 ≤ s.tau_kern_inner v := by
  have hp := pi_pos
  unfold SingleAbsorber.tau_kern_inner
  apply mul_nonneg
  · apply div_nonneg (by linarith); exact Nat.cast_nonneg _
  · apply foldl_add_nonneg _ _ _ le_rfl
    intro i _
    have hq : ∀ x, 0 ≤ √x / s.vsmooth := fun x => by positivity
    split_ifs
    · exact mul_nonneg (hprof _) (sph_cubic_kernel_nonneg (hq _))
    · exact mul_nonneg (hprof _) (sph_quintic_kernel_nonneg (hq _))
    · exact mul_nonneg (hprof _) (by positivity)
    · exact hprof _

theorem tau_kern_outer_nonneg (s : SingleAbsorber) (hprof : ∀ x, 0 ≤ s.profile x s.aa)
    (hs : 0 ≤ s.vsmooth) (hv : 0 ≤ s.m_vhigh) (hb : 0 < s.btherm) {vlow vhigh : ℝ}
    (hle : vlow ≤ vhigh) : 0 ≤ s.tau_kern_outer vlow vhigh := by
  have hi := tau_kern_inner_nonneg s hprof hs hv
  unfold SingleAbsorber.tau_kern_outer
  dsimp only
  split
  · exact hi _
  · apply div_nonneg
    · apply add_nonneg
      · apply foldl_add_nonneg
        · exact div_nonneg (hi _) (by norm_num)
        · intro i _; exact hi _
      · exact div_nonneg (hi _) (by norm_num)
    · have : 0 ≤ ⌈(vhigh - vlow) / (s.btherm / 2) / 2⌉ := by
        apply Int.ceil_nonneg
        have : 0 ≤ vhigh - vlow := by linarith
        positivity
      have h2 : (0 : ℝ) ≤ (⌈(vhigh - vlow) / (s.btherm / 2) / 2⌉ : ℝ) := by exact_mod_cast this
      push_cast
      linarith

end Absorption
end Verif
