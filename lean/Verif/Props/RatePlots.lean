import Verif.Model.RatePlots
import Verif.Props.RateNetwork
import Verif.Props.TempDens

/-!
C108: the plots of the rate network. `Balanced`, `Fractions` and `conditions` are those of C33: the ionisation balance of gas of a
hydrogen density, a temperature and a number of electrons per hydrogen atom. The mass fraction of helium is 0.24, so full ionisation
frees `full` electrons per hydrogen atom.
-/

namespace Verif.Props.RatePlots
open Verif Verif.Rates Verif.RatePlots Verif.Spec Verif.Props

/-- A UV background. -/
structure Bright (b : Background) : Prop where
  gH0 : 0 < b.gH0
  gHe0 : 0 < b.gHe0
  gHep : 0 < b.gHep
  gray : 0 < b.gray

/-- Electrons per hydrogen atom in fully ionised gas. -/
noncomputable def full : ℝ := 1 + 2 * (0.24 / (4 * (1 - 0.24)))

theorem plotNet_sane {b : Background} (hb : Bright b) (c : ℝ) (k : Bool) : Sane (plotNet b c k) :=
  ⟨⟨"C92", rfl⟩, hb.gH0, hb.gHe0, hb.gHep, hb.gray, by norm_num [plotNet], by norm_num [plotNet]⟩

theorem photofac_plot (b : Background) (c : ℝ) (k : Bool) {x : ℝ} (hx : 1e-40 < x) (nh t : ℝ) :
    photofac (plotNet b c k) x nh t = 1 / (x * nh) := by
  unfold photofac
  rw [if_pos hx]
  have : selfShieldCorr (plotNet b c k) nh t = 1 := by
    unfold selfShieldCorr
    rw [if_neg (by simp [plotNet])]
  rw [this]
  simp [plotNet]

section
variable {ι : Type}

theorem getTemp_ok {x u t : ι → ℝ} {Y : ℝ} (h : getTemp x u Y = .ok t) (i : ι) : t i = tempOf (x i) (u i) Y := by
  unfold getTemp at h
  split at h
  · rw [← Except.ok.inj h]
  · cases h

theorem neutral_ok {n : Net} {d u r : ι → ℝ} {Y : ℝ} (h : get_neutral_fraction n d u Y = .ok r) :
    ∃ ne, get_equilib_ne n d u Y = .ok ne ∧ ∀ i, r i = nH0 n (d i * (1 - Y))
      (tempOf (ne i / (d i * (1 - Y))) (u i) Y) (ne i / (d i * (1 - Y))) := by
  unfold get_neutral_fraction at h
  cases hn : get_equilib_ne n d u Y with
  | error e => rw [hn] at h; cases h
  | ok ne =>
    rw [hn] at h
    refine ⟨ne, rfl, ?_⟩
    change (getTemp (fun i => ne i / (d i * (1 - Y))) u Y >>= fun temp =>
      (Except.ok (fun i => nH0 n (d i * (1 - Y)) (temp i) (ne i / (d i * (1 - Y)))) : Py (ι → ℝ))) = _ at h
    cases ht : getTemp (fun i => ne i / (d i * (1 - Y))) u Y with
    | error e => rw [ht] at h; cases h
    | ok t =>
      rw [ht] at h
      intro i
      rw [← Except.ok.inj h, ← getTemp_ok ht i]

theorem temp_ok {n : Net} {d u t : ι → ℝ} {Y : ℝ} (h : get_temp n d u Y = .ok t) :
    ∃ ne, get_equilib_ne n d u Y = .ok ne ∧ ∀ i, t i = tempOf (ne i / (d i * (1 - Y))) (u i) Y := by
  unfold get_temp at h
  cases hn : get_equilib_ne n d u Y with
  | error e => rw [hn] at h; cases h
  | ok ne =>
    rw [hn] at h
    exact ⟨ne, rfl, getTemp_ok h⟩

variable [Fintype ι]

theorem med_pos {d : ι → ℝ} (hd : ∀ i, 0 < d i) (i : ι) : 0 < med d := by
  unfold med
  have hne : Finset.univ.toList.map d ≠ [] := by
    intro h
    have : i ∈ (Finset.univ : Finset ι).toList := by simp
    rw [List.map_eq_nil_iff] at h
    rw [h] at this
    cases this
  obtain ⟨h1, h2⟩ := median_spec (Finset.univ.toList.map d)
  cases hm : TempDens.median (Finset.univ.toList.map d) with
  | none => exact absurd (h1.1 hm) hne
  | some m =>
    change 0 < m
    by_contra hle
    obtain ⟨-, h3⟩ := h2 m hm
    have h4 : (Finset.univ.toList.map d).countP (fun x => decide (m < x)) = (Finset.univ.toList.map d).length := by
      rw [List.countP_eq_length]
      intro x hx
      obtain ⟨j, -, rfl⟩ := List.mem_map.1 hx
      simpa using lt_of_le_of_lt (not_lt.1 hle) (hd j)
    rw [h4] at h3
    have : 0 < (Finset.univ.toList.map d).length := List.length_pos_of_ne_nil hne
    omega

theorem full_pos : 0 < full := by norm_num [full]

theorem full_eq : full = 1 + 2 * (0.24 / (4 - 4 * 0.24)) := by norm_num [full]

/-- The equilibrium of C34 at one point. -/
theorem equilibrium_at {b : Background} (hb : Bright b) {c : ℝ} {k : Bool} {d u ne : ι → ℝ} (hd : ∀ i, 0 < d i)
    (hu : ∀ i, 0 < u i) (h : get_equilib_ne (plotNet b c k) d u 0.24 = .ok ne) (i : ι) :
    0 ≤ ne i / (d i * (1 - 0.24)) ∧ ne i / (d i * (1 - 0.24)) ≤ full :=
  (equilibrium (plotNet_sane hb c k) hd hu (by norm_num) (by norm_num) h i).2

theorem tempOf_close {x x' u : ℝ} (hx : 0 ≤ x) (hx1 : x ≤ full) (hx' : 0 ≤ x') (hx'1 : x' ≤ full) (hu : 0 < u) :
    tempOf x u 0.24 ≤ 2.1 * tempOf x' u 0.24 := by
  have h1 := (tempOf_mono (Y := 0.24) le_rfl hx hu.le le_rfl (by norm_num)).1
  have h2 := (tempOf_mono (Y := 0.24) hx' hx'1 hu.le le_rfl (by norm_num)).1
  have h3 : tempOf 0 u 0.24 ≤ 2.1 * tempOf full u 0.24 := by
    unfold tempOf full protonmass
    dsimp only
    norm_num
    linarith
  linarith

theorem contPlot_ok {z : (ι → ℝ) → (ι → ℝ) → Py (ι → ℝ)} {n : Net} {d u : ι → ℝ} {c : Contour ι}
    (h : contPlot z n d u = .ok c) :
    ∃ t, medianTemp n d u = .ok t ∧ z d u = .ok c.z ∧ c.x = d ∧ ∀ i, c.y i * 1e4 = t i := by
  unfold contPlot at h
  cases ht : medianTemp n d u with
  | error e => rw [ht] at h; cases h
  | ok t =>
    rw [ht] at h
    cases hz : z d u with
    | error e =>
      change (z d u >>= _) = _ at h
      rw [hz] at h; cases h
    | ok w =>
      change (z d u >>= _) = _ at h
      rw [hz] at h
      have := Except.ok.inj h
      subst this
      exact ⟨t, rfl, rfl, rfl, fun i => div_mul_cancel₀ _ (by norm_num)⟩

/-- C108, the axes: a point of the plot is at its density. Its height on the axis of temperatures is the equilibrium temperature of gas
with its energy, but at the median density of the grid. The temperature of the gas at its own density is between 1/2.1 and 2.1 times
that. -/
theorem axes {b : Background} (hb : Bright b) {conv : ℝ} {k : Bool} {z : (ι → ℝ) → (ι → ℝ) → Py (ι → ℝ)} {d u : ι → ℝ}
    (hd : ∀ i, 0 < d i) (hu : ∀ i, 0 < u i) {c : Contour ι} (h : contPlot z (plotNet b conv k) d u = .ok c) (i : ι) :
    c.x i = d i ∧
    (∃ x, 0 ≤ x ∧ x ≤ full ∧ |nebynhOf (plotNet b conv k) (med d * (1 - 0.24)) (c.y i * 1e4) x 0.24 - x| < conv ∧
      c.y i * 1e4 = tempOf x (u i) 0.24) ∧
    ∀ T, get_temp (plotNet b conv k) d u 0.24 = .ok T → c.y i * 1e4 ≤ 2.1 * T i ∧ T i ≤ 2.1 * (c.y i * 1e4) := by
  obtain ⟨t, h1, -, h3, h4⟩ := contPlot_ok h
  obtain ⟨ne, e1, e2⟩ := temp_ok h1
  have hm := med_pos hd i
  have hmd : ∀ j : ι, 0 < (fun _ : ι => med d * 1) j := fun _ => by simpa using hm
  have hx := equilibrium_at hb hmd hu e1 i
  have heq := (equilibrium (plotNet_sane hb conv k) hmd hu (by norm_num) (by norm_num) e1 i).1
  refine ⟨by rw [h3], ⟨_, hx.1, hx.2, ?_, ?_⟩, ?_⟩
  · have := e2 i
    rw [h4 i, this]
    simpa using (show _ < conv from heq)
  · rw [h4 i, e2 i]
  · intro T hT
    obtain ⟨ne', e1', e2'⟩ := temp_ok hT
    have hx' := equilibrium_at hb hd hu e1' i
    rw [h4 i, e2 i, e2' i]
    exact ⟨tempOf_close hx.1 hx.2 hx'.1 hx'.2 (hu i), tempOf_close hx'.1 hx'.2 hx.1 hx.2 (hu i)⟩

/-- C108: the electrons per hydrogen atom over those of fully ionised gas, which are never more. -/
theorem ne_ratio {b : Background} (hb : Bright b) {conv : ℝ} {k : Bool} {d u r : ι → ℝ} (hd : ∀ i, 0 < d i) (hu : ∀ i, 0 < u i)
    (h : neRatio (plotNet b conv k) 0.24 d u = .ok r) (i : ι) :
    0 ≤ r i ∧ r i ≤ 1 ∧ ∃ T x, x = r i * full ∧ T = tempOf x (u i) 0.24 ∧
      |nebynhOf (plotNet b conv k) (d i * (1 - 0.24)) T x 0.24 - x| < conv := by
  unfold neRatio get_ne_by_nh at h
  cases hn : get_equilib_ne (plotNet b conv k) d u 0.24 with
  | error e => rw [hn] at h; cases h
  | ok ne =>
    rw [hn] at h
    have hr : r i = ne i / (d i * (1 - 0.24)) / full := by
      rw [full_eq]
      exact (congrFun (Except.ok.inj h) i).symm
    obtain ⟨h1, h2⟩ := equilibrium_at hb hd hu hn i
    have heq := (equilibrium (plotNet_sane hb conv k) hd hu (by norm_num) (by norm_num) hn i).1
    have hf := full_pos
    rw [hr]
    refine ⟨by positivity, by rw [div_le_one hf]; exact h2, _, ne i / (d i * (1 - 0.24)), ?_, rfl, heq⟩
    field_simp

/-- C108: the neutral fraction in balance with collisions over the one in balance without, each with its own electrons and
temperature. With the same electrons it is below one, and otherwise it exceeds one by no more than recombinations do. -/
theorem collis_ratio {b : Background} (hb : Bright b) {conv : ℝ} {d u ne nep r : ι → ℝ} (hd : ∀ i, 0 < d i) (hu : ∀ i, 0 < u i)
    (h : collisRatio (plotNet b conv true) (plotNet b conv false) d u = .ok r)
    (h1 : get_equilib_ne (plotNet b conv true) d u 0.24 = .ok ne) (h2 : get_equilib_ne (plotNet b conv false) d u 0.24 = .ok nep)
    (i : ι) :
    let nh := d i * (1 - 0.24)
    let x := ne i / nh
    let xp := nep i / nh
    1e-40 < x → 1e-40 < xp →
    ∃ f fp : Fractions, Balanced (conditions (plotNet b conv true) nh (tempOf x (u i) 0.24) x) f ∧
      Balanced (conditions (plotNet b conv false) nh (tempOf xp (u i) 0.24) xp) fp ∧ f.Physical ∧ fp.Physical ∧
      0 < f.h0 ∧ 0 < fp.h0 ∧ r i = f.h0 / fp.h0 ∧ (x = xp → r i < 1) ∧
      r i ≤ max 1 ((Cen92.alphaHp (tempOf x (u i) 0.24) * x) / (Cen92.alphaHp (tempOf xp (u i) 0.24) * xp)) := by
  intro nh x xp hx hxp
  have hnh : 0 < nh := mul_pos (hd i) (by norm_num)
  have hx0 : 0 < x := lt_trans (by norm_num) hx
  have hxp0 : 0 < xp := lt_trans (by norm_num) hxp
  have hT : 0 < tempOf x (u i) 0.24 := tempOf_pos hx0.le (hu i) (by norm_num)
  have hTp : 0 < tempOf xp (u i) 0.24 := tempOf_pos hxp0.le (hu i) (by norm_num)
  have s1 := plotNet_sane hb conv true
  have s2 := plotNet_sane hb conv false
  obtain ⟨f, f1, f2, -⟩ := fractions_physical_partial s1 hT hnh x (.inl rfl)
  obtain ⟨fp, g1, g2, -⟩ := fractions_physical_partial s2 hTp hnh xp (.inr ⟨by norm_num [plotNet], hxp⟩)
  have hr : r i = nH0 (plotNet b conv true) nh (tempOf x (u i) 0.24) x / nH0 (plotNet b conv false) nh (tempOf xp (u i) 0.24) xp := by
    unfold collisRatio at h
    cases ha : get_neutral_fraction (plotNet b conv true) d u 0.24 with
    | error e => rw [ha] at h; cases h
    | ok a =>
      rw [ha] at h
      cases hb' : get_neutral_fraction (plotNet b conv false) d u 0.24 with
      | error e =>
        change (get_neutral_fraction (plotNet b conv false) d u 0.24 >>= _) = _ at h
        rw [hb'] at h; cases h
      | ok a' =>
        change (get_neutral_fraction (plotNet b conv false) d u 0.24 >>= _) = _ at h
        rw [hb'] at h
        obtain ⟨n1, p1, p2⟩ := neutral_ok ha
        obtain ⟨n2, q1, q2⟩ := neutral_ok hb'
        rw [h1] at p1
        rw [h2] at q1
        obtain rfl := Except.ok.inj p1
        obtain rfl := Except.ok.inj q1
        rw [← p2 i, ← q2 i]
        exact (congrFun (Except.ok.inj h) i).symm
  have b1 := nH0_bounds s1 hT hnh x
  have b2 := nH0_bounds s2 hTp hnh xp
  have hr1 : PositiveRates Cen92 (tempOf x (u i) 0.24) := s1.pos hT
  have hr2 : PositiveRates Cen92 (tempOf xp (u i) 0.24) := s2.pos hTp
  have v1 : nH0 (plotNet b conv true) nh (tempOf x (u i) 0.24) x = Cen92.alphaHp (tempOf x (u i) 0.24) /
      (Cen92.alphaHp (tempOf x (u i) 0.24) + Cen92.GammaeH0 (tempOf x (u i) 0.24) + b.gH0 * (1 / (x * nh))) := by
    unfold nH0
    rw [photofac_plot b conv true hx]
    rfl
  have v2 : nH0 (plotNet b conv false) nh (tempOf xp (u i) 0.24) xp = Cen92.alphaHp (tempOf xp (u i) 0.24) /
      (Cen92.alphaHp (tempOf xp (u i) 0.24) + b.gH0 * (1 / (xp * nh))) := by
    unfold nH0
    rw [photofac_plot b conv false hxp]
    change _ / (_ + 0 + _) = _
    rw [add_zero]
    rfl
  refine ⟨f, fp, fractions_balanced s1 hT hnh hx f1, fractions_balanced s2 hTp hnh hxp g1, f2, g2, by rw [f1.1]; exact b1.1,
    by rw [g1.1]; exact b2.1, by rw [f1.1, g1.1]; exact hr, ?_, ?_⟩
  · intro he
    rw [hr, div_lt_one b2.1, v1, v2, ← he]
    have := hr1.hp
    have := hr1.eH0
    have := hb.gH0
    apply div_lt_div_of_pos_left <;> first | positivity | linarith
  · rw [hr, v1, v2]
    have a1 := hr1.hp
    have a2 := hr2.hp
    have a3 := hr1.eH0
    have a4 := hb.gH0
    generalize Cen92.alphaHp (tempOf x (u i) 0.24) = A at *
    generalize Cen92.alphaHp (tempOf xp (u i) 0.24) = B at *
    generalize Cen92.GammaeH0 (tempOf x (u i) 0.24) = G at *
    have e1 : A / (A + G + b.gH0 * (1 / (x * nh))) / (B / (B + b.gH0 * (1 / (xp * nh)))) ≤
        (A * (B + b.gH0 * (1 / (xp * nh)))) / (B * (A + b.gH0 * (1 / (x * nh)))) := by
      rw [div_div_div_eq, mul_comm (A + G + _) B]
      apply div_le_div_of_nonneg_left (by positivity) (by positivity)
      gcongr
      linarith
    refine e1.trans ?_
    set q := max 1 ((A * x) / (B * xp)) with hq
    have q1 : 1 ≤ q := le_max_left _ _
    have q2 : A * x ≤ q * (B * xp) := by
      rw [← div_le_iff₀ (by positivity)]; exact le_max_right _ _
    rw [div_le_iff₀ (by positivity)]
    have e2 : A * (b.gH0 * (1 / (xp * nh))) ≤ q * (B * (b.gH0 * (1 / (x * nh)))) := by
      have : A * (b.gH0 * (1 / (xp * nh))) = (A * x) * (b.gH0 / (x * xp * nh)) := by field_simp
      rw [this]
      have : q * (B * (b.gH0 * (1 / (x * nh)))) = (q * (B * xp)) * (b.gH0 / (x * xp * nh)) := by field_simp
      rw [this]
      exact mul_le_mul_of_nonneg_right q2 (by positivity)
    have e3 : A * B ≤ q * (A * B) := by nlinarith [mul_pos a1 a2]
    nlinarith

/-- C108: what the comparison with the simple formula shows. `x` is the number of electrons per hydrogen atom, `T` the temperature, and
`t` the temperature the plot and the formula use, that at the median density. -/
theorem simple_ratio {b : Background} (hb : Bright b) {conv : ℝ} {d u ne t r : ι → ℝ} (hd : ∀ i, 0 < d i) (hu : ∀ i, 0 < u i)
    (h : simpleRatio (plotNet b conv true) d u = .ok r) (h1 : get_equilib_ne (plotNet b conv true) d u 0.24 = .ok ne)
    (h2 : medianTemp (plotNet b conv true) d u = .ok t) (i : ι) :
    let nh := d i * (1 - 0.24)
    let x := ne i / nh
    let T := tempOf x (u i) 0.24
    1e-40 < x →
    r i = Cen92.alphaHp T / Cen92.alphaHp (t i) * (x / full) *
      (b.gH0 / (b.gH0 + (Cen92.alphaHp T + Cen92.GammaeH0 T) * (x * nh))) ∧
    0 < r i ∧ r i < Cen92.alphaHp T / Cen92.alphaHp (t i) ∧ (t i ≤ T → r i < 1) := by
  intro nh x T hx
  have hnh : 0 < nh := mul_pos (hd i) (by norm_num)
  have hx0 : 0 < x := lt_trans (by norm_num) hx
  have hT : 0 < T := tempOf_pos hx0.le (hu i) (by norm_num)
  have s1 := plotNet_sane hb conv true
  have hx1 : x ≤ full := (equilibrium_at hb hd hu h1 i).2
  obtain ⟨nt, t1, t2⟩ := temp_ok h2
  have ht : 0 < t i := by
    rw [t2 i]
    have hm := med_pos hd i
    have hmd : ∀ j : ι, 0 < (fun _ : ι => med d * 1) j := fun _ => by simpa using hm
    exact tempOf_pos (equilibrium_at hb hmd hu t1 i).1 (hu i) (by norm_num)
  have hr : r i = nH0 (plotNet b conv true) nh T x / ((1 - 0.24) * d i * (Cen92.alphaHp (t i) / b.gH0 * full)) := by
    unfold simpleRatio at h
    cases ha : get_neutral_fraction (plotNet b conv true) d u 0.24 with
    | error e => rw [ha] at h; cases h
    | ok a =>
      rw [ha] at h
      change (simplenh0frac d u (plotNet b conv true) 0.24 >>= _) = _ at h
      unfold simplenh0frac at h
      rw [h2] at h
      obtain ⟨n1, p1, p2⟩ := neutral_ok ha
      rw [h1] at p1
      obtain rfl := Except.ok.inj p1
      change _ = nH0 (plotNet b conv true) (d i * (1 - 0.24)) (tempOf (ne i / (d i * (1 - 0.24))) (u i) 0.24)
        (ne i / (d i * (1 - 0.24))) / _
      rw [← p2 i, full_eq]
      exact (congrFun (Except.ok.inj h) i).symm
  have hr1 : PositiveRates Cen92 T := s1.pos hT
  have hr2 : PositiveRates Cen92 (t i) := s1.pos ht
  have v1 : nH0 (plotNet b conv true) nh T x = Cen92.alphaHp T /
      (Cen92.alphaHp T + Cen92.GammaeH0 T + b.gH0 * (1 / (x * nh))) := by
    unfold nH0
    rw [photofac_plot b conv true hx]
    rfl
  have hmono : t i ≤ T → Cen92.alphaHp T ≤ Cen92.alphaHp (t i) := fun hle => alphaHp_antitone "C92" ht hle
  have a1 := hr1.hp
  have a2 := hr2.hp
  have a3 := hr1.eH0
  have a4 := hb.gH0
  have a5 := full_pos
  have key : r i = Cen92.alphaHp T / Cen92.alphaHp (t i) * (x / full) *
      (b.gH0 / (b.gH0 + (Cen92.alphaHp T + Cen92.GammaeH0 T) * (x * nh))) := by
    rw [hr, v1, show (1 - 0.24) * d i = nh from mul_comm _ _]
    have hd1 := (by positivity : 0 < Cen92.alphaHp T + Cen92.GammaeH0 T + b.gH0 * (1 / (x * nh))).ne'
    have hd2 := (by positivity : 0 < b.gH0 + (Cen92.alphaHp T + Cen92.GammaeH0 T) * (x * nh)).ne'
    have : Cen92.alphaHp T + Cen92.GammaeH0 T + b.gH0 * (1 / (x * nh)) =
        (b.gH0 + (Cen92.alphaHp T + Cen92.GammaeH0 T) * (x * nh)) / (x * nh) := by
      field_simp
      ring
    rw [this]
    field_simp
  have hlt : r i < Cen92.alphaHp T / Cen92.alphaHp (t i) := by
    rw [key, mul_assoc]
    apply mul_lt_of_lt_one_right (by positivity)
    have l1 : x / full ≤ 1 := by rw [div_le_one a5]; exact hx1
    have l2 : b.gH0 / (b.gH0 + (Cen92.alphaHp T + Cen92.GammaeH0 T) * (x * nh)) < 1 := by
      rw [div_lt_one (by positivity)]
      have : 0 < (Cen92.alphaHp T + Cen92.GammaeH0 T) * (x * nh) := by positivity
      linarith
    have l3 : 0 < b.gH0 / (b.gH0 + (Cen92.alphaHp T + Cen92.GammaeH0 T) * (x * nh)) := by positivity
    nlinarith
  refine ⟨key, by rw [key]; positivity, hlt, fun hle => lt_of_lt_of_le hlt ?_⟩
  rw [div_le_one a2]
  exact hmono hle

/-- Disagreement: `hfracplot` is titled nH0/nH+ and shows nH0/nH, which is smaller. -/
theorem hfrac_title {b : Background} (hb : Bright b) {conv : ℝ} {d u r : ι → ℝ} (hd : ∀ i, 0 < d i) (hu : ∀ i, 0 < u i)
    (h : hFrac (plotNet b conv true) d u = .ok r) (i : ι) :
    ∃ x T f, 0 ≤ x ∧ x ≤ full ∧ T = tempOf x (u i) 0.24 ∧ NetFractions (plotNet b conv true) (d i * (1 - 0.24)) T x f ∧ f.Physical ∧
      0 < f.h1 ∧ r i = f.h0 / (f.h0 + f.h1) ∧ r i < f.h0 / f.h1 := by
  obtain ⟨ne, p1, p2⟩ := neutral_ok h
  obtain ⟨hx, hx1⟩ := equilibrium_at hb hd hu p1 i
  have hnh : 0 < d i * (1 - 0.24) := mul_pos (hd i) (by norm_num)
  have hT : 0 < tempOf (ne i / (d i * (1 - 0.24))) (u i) 0.24 := tempOf_pos hx (hu i) (by norm_num)
  have s1 := plotNet_sane hb conv true
  obtain ⟨f, f1, f2, -⟩ := fractions_physical_partial s1 hT hnh (ne i / (d i * (1 - 0.24))) (.inl rfl)
  have hr1 : PositiveRates Cen92 _ := s1.pos hT
  have hpf := photofac_nonneg s1 hT hnh (x := ne i / (d i * (1 - 0.24)))
  have hlt : nH0 (plotNet b conv true) (d i * (1 - 0.24)) (tempOf (ne i / (d i * (1 - 0.24))) (u i) 0.24)
      (ne i / (d i * (1 - 0.24))) < 1 := by
    unfold nH0
    dsimp only
    change Cen92.alphaHp _ / (Cen92.alphaHp _ + Cen92.GammaeH0 _ + b.gH0 * _) < 1
    have a1 := hr1.hp
    have a3 := hr1.eH0
    have a4 := hb.gH0
    rw [div_lt_one (by positivity)]
    have : 0 ≤ b.gH0 * photofac (plotNet b conv true) (ne i / (d i * (1 - 0.24))) (d i * (1 - 0.24))
      (tempOf (ne i / (d i * (1 - 0.24))) (u i) 0.24) := by positivity
    linarith
  have h0 := (nH0_bounds s1 hT hnh (ne i / (d i * (1 - 0.24)))).1
  rw [← f1.1] at hlt h0
  have hs := f2.sumH
  have hp : 0 < f.h1 := by linarith
  refine ⟨_, _, f, hx, hx1, rfl, f1, f2, hp, ?_, ?_⟩
  · rw [hs, div_one, p2 i, f1.1]
  · rw [p2 i, ← f1.1, lt_div_iff₀ hp]
    nlinarith

/-- Disagreement: `hefracplot` hands the electron density to functions that want the electrons per hydrogen atom. At every density of
hydrogen below one per cubic centimetre the ratio of singly to doubly ionised helium is smaller than the one in balance, by up to a factor
of that density. -/
theorem he_ratio_wrong {b : Background} (hb : Bright b) {conv : ℝ} {d u ne t r : ι → ℝ} (hd : ∀ i, 0 < d i) (hu : ∀ i, 0 < u i)
    (h : heRatio (plotNet b conv true) 0.24 d u = .ok r) (h1 : get_equilib_ne (plotNet b conv true) d u 0.24 = .ok ne)
    (h2 : medianTemp (plotNet b conv true) d u = .ok t) (i : ι) :
    let nh := d i * (1 - 0.24)
    let x := ne i / nh
    nh < 1 → 1e-40 < ne i →
    ∃ f : Fractions, Balanced (conditions (plotNet b conv true) nh (t i) x) f ∧ f.Physical ∧ 0 < f.he2 ∧
      r i < f.he1 / f.he2 ∧ nh * (f.he1 / f.he2) < r i ∧
      r i = Cen92.alphaHepp (t i) / (Cen92.GammaeHep (t i) + b.gHep / (ne i * nh)) ∧
      f.he1 / f.he2 = Cen92.alphaHepp (t i) / (Cen92.GammaeHep (t i) + b.gHep / ne i) := by
  intro nh x hn1 hne
  have hnh : 0 < nh := mul_pos (hd i) (by norm_num)
  have hne0 : 0 < ne i := lt_trans (by norm_num) hne
  have hx : 1e-40 < x := by
    refine lt_of_lt_of_le hne ?_
    rw [le_div_iff₀ hnh]
    nlinarith
  have hx0 : 0 < x := lt_trans (by norm_num) hx
  have s1 := plotNet_sane hb conv true
  obtain ⟨nt, t1, t2⟩ := temp_ok h2
  have ht : 0 < t i := by
    rw [t2 i]
    have hm := med_pos hd i
    have hmd : ∀ j : ι, 0 < (fun _ : ι => med d * 1) j := fun _ => by simpa using hm
    exact tempOf_pos (equilibrium_at hb hmd hu t1 i).1 (hu i) (by norm_num)
  have hr2 : PositiveRates Cen92 (t i) := s1.pos ht
  obtain ⟨f, f1, f2, -⟩ := fractions_physical_partial s1 ht hnh x (.inl rfl)
  have hr : r i = nHep (plotNet b conv true) nh (t i) (ne i) / nHepp (plotNet b conv true) nh (t i) (ne i) := by
    unfold heRatio at h
    rw [h1] at h
    change (medianTemp (plotNet b conv true) d u >>= _) = _ at h
    rw [h2] at h
    rw [show nh = (1 - 0.24) * d i from mul_comm _ _]
    exact (congrFun (Except.ok.inj h) i).symm
  -- the ratio of the network
  have ratio : ∀ y, 1e-40 < y → 0 < nHepp (plotNet b conv true) nh (t i) y ∧
      nHep (plotNet b conv true) nh (t i) y / nHepp (plotNet b conv true) nh (t i) y =
      Cen92.alphaHepp (t i) / (Cen92.GammaeHep (t i) + b.gHep / (y * nh)) := by
    intro y hy
    have hy0 : 0 < y := lt_trans (by norm_num) hy
    have g0 : GammaHe0 (plotNet b conv true) nh (t i) y = Cen92.GammaeHe0 (t i) + b.gHe0 * (1 / (y * nh)) := by
      unfold GammaHe0
      rw [photofac_plot b conv true hy]
      rfl
    have g1 : GammaHep (plotNet b conv true) nh (t i) y = Cen92.GammaeHep (t i) + b.gHep / (y * nh) := by
      unfold GammaHep
      rw [photofac_plot b conv true hy, mul_one_div]
      rfl
    have a0 := hr2.eHe0
    have a1 := hr2.eHep
    have a2 := hr2.hepp
    have a3 := hb.gHe0
    have a4 := hb.gHep
    have a5 := hr2.hep
    have p0 : 0 < GammaHe0 (plotNet b conv true) nh (t i) y := by rw [g0]; positivity
    have p1 : 0 < GammaHep (plotNet b conv true) nh (t i) y := by rw [g1]; positivity
    have p2 : 0 < nHep (plotNet b conv true) nh (t i) y := by
      unfold nHep
      dsimp only
      rw [if_neg p0.ne']
      change 0 < 1 / (1 + (Cen92.alphaHep (t i) + Cen92.alphad (t i)) / _ + _ / Cen92.alphaHepp (t i))
      positivity
    have p3 : nHepp (plotNet b conv true) nh (t i) y = nHep (plotNet b conv true) nh (t i) y *
        GammaHep (plotNet b conv true) nh (t i) y / Cen92.alphaHepp (t i) := rfl
    refine ⟨by rw [p3]; positivity, ?_⟩
    rw [p3, ← g1]
    field_simp
  obtain ⟨r1, r2⟩ := ratio x hx
  obtain ⟨-, r3⟩ := ratio (ne i) hne
  have hbal := fractions_balanced s1 ht hnh hx f1
  obtain ⟨-, -, -, e3, e4⟩ := f1
  have hxn : x * nh = ne i := div_mul_cancel₀ _ hnh.ne'
  rw [hxn] at r2
  rw [← e3, ← e4] at r2
  have a1 := hr2.eHep
  have a2 := hr2.hepp
  have a4 := hb.gHep
  refine ⟨f, hbal, f2, by rw [e4]; exact r1, ?_, ?_, by rw [hr, r3], r2⟩
  · rw [hr, r3, r2]
    apply div_lt_div_of_pos_left a2 (by positivity)
    have : b.gHep / ne i < b.gHep / (ne i * nh) := by
      apply div_lt_div_of_pos_left a4 (by positivity)
      nlinarith
    linarith
  · rw [hr, r3, r2, ← mul_div_assoc, div_lt_div_iff₀ (by positivity) (by positivity)]
    have : nh * (Cen92.GammaeHep (t i) + b.gHep / (ne i * nh)) < Cen92.GammaeHep (t i) + b.gHep / ne i := by
      rw [mul_add, show nh * (b.gHep / (ne i * nh)) = b.gHep / ne i by field_simp]
      nlinarith
    nlinarith

end

/-! The plots themselves. -/

theorem gridd_pos (i : Grid) : 0 < gridd i := Real.rpow_pos_of_pos (by norm_num) _

theorem gridt_pos (i : Grid) : 0 < gridt i := by
  unfold gridt; positivity

theorem gridd_range (i : Grid) : 1e-6 ≤ gridd i ∧ gridd i ≤ 1e-2 := by
  have h1 : (i.2 : ℝ) ≤ 99 := by
    have := i.2.isLt
    exact_mod_cast Nat.le_of_lt_succ this
  have h0 : (0 : ℝ) ≤ (i.2 : ℝ) := by positivity
  unfold gridd
  constructor
  · rw [show (1e-6 : ℝ) = (10 : ℝ) ^ (-6 : ℝ) by rw [Real.rpow_neg (by norm_num)]; norm_num]
    exact Real.rpow_le_rpow_of_exponent_le (by norm_num) (by have : 0 ≤ 4 * (i.2 : ℝ) / 99 := by positivity
                                                             linarith)
  · rw [show (1e-2 : ℝ) = (10 : ℝ) ^ (-2 : ℝ) by rw [Real.rpow_neg (by norm_num)]; norm_num]
    refine Real.rpow_le_rpow_of_exponent_le (by norm_num) ?_
    have : 4 * (i.2 : ℝ) / 99 ≤ 4 := by rw [div_le_iff₀ (by norm_num)]; linarith
    linarith

/-- Disagreement: nowhere on the plot of helium is the ratio shown the one in balance, at any redshift: it is at least fifty times
too small where radiation doubly ionises more helium than collisions. -/
theorem hefracplot_wrong {b : Background} (hb : Bright b) {conv : ℝ} {c : Contour Grid} (h : hefracplot b conv = .ok c)
    {ne : Grid → ℝ} (h1 : get_equilib_ne (plotNet b conv true) gridd gridt 0.24 = .ok ne) (i : Grid) (hne : 1e-40 < ne i) :
    ∃ f : Fractions, Balanced (conditions (plotNet b conv true) (gridd i * (1 - 0.24)) (c.y i * 1e4) (ne i / (gridd i * (1 - 0.24)))) f ∧
      f.Physical ∧ 0 < f.he2 ∧ c.z i < f.he1 / f.he2 ∧
      (Cen92.GammaeHep (c.y i * 1e4) * ne i ≤ b.gHep → c.z i < f.he1 / f.he2 / 50) := by
  obtain ⟨t, t1, t2, t3, t4⟩ := contPlot_ok h
  obtain ⟨h2, h3⟩ := gridd_range i
  obtain ⟨f, f1, f2, f3, f4, f5, f6, f7⟩ := he_ratio_wrong hb gridd_pos gridt_pos t2 h1 t1 i (by nlinarith) hne
  refine ⟨f, by rw [t4 i]; exact f1, f2, f3, f4, ?_⟩
  intro hc
  rw [t4 i] at hc
  have hne0 : 0 < ne i := lt_trans (by norm_num) hne
  have ht : 0 < t i := by
    obtain ⟨nt, s1, s2⟩ := temp_ok t1
    rw [s2 i]
    have hm := med_pos gridd_pos i
    have hmd : ∀ j : Grid, 0 < (fun _ : Grid => med gridd * 1) j := fun _ => by simpa using hm
    exact tempOf_pos (equilibrium_at hb hmd gridt_pos s1 i).1 (gridt_pos i) (by norm_num)
  have hr2 : PositiveRates Cen92 (t i) := (plotNet_sane hb conv true).pos ht
  have a1 := hr2.eHep
  have a2 := hr2.hepp
  have a4 := hb.gHep
  have hnh : 0 < gridd i * (1 - 0.24) := by positivity
  rw [f6, f7, div_div]
  apply div_lt_div_of_pos_left a2 (by positivity)
  have e1 : Cen92.GammaeHep (t i) ≤ b.gHep / ne i := by rw [le_div_iff₀ hne0]; exact hc
  have e2 : 131 * (b.gHep / ne i) ≤ b.gHep / (ne i * (gridd i * (1 - 0.24))) := by
    rw [← div_div, le_div_iff₀ hnh]
    have : 0 < b.gHep / ne i := by positivity
    nlinarith
  have : 0 < b.gHep / ne i := by positivity
  linarith

/-! Witnesses: with a strong background and a loose tolerance the five plots are drawn, and there are electrons everywhere. -/

/-- A strong background. -/
noncomputable def sunny : Background := ⟨1, 1, 1, 1e-18⟩

theorem sunny_bright : Bright sunny := ⟨by norm_num [sunny], by norm_num [sunny], by norm_num [sunny], by norm_num [sunny]⟩

section
variable {ι : Type}

theorem loose {b : Background} (hb : Bright b) (k : Bool) {d u : ι → ℝ} (hd : ∀ i, 0 < d i ∧ d i ≤ 1) (hu : ∀ i, 0 < u i) :
    ∃ ne, get_equilib_ne (plotNet b 10 k) d u 0.24 = .ok ne ∧ ∀ i, ne i / (d i * (1 - 0.24)) =
      nebynhOf (plotNet b 10 k) (d i * (1 - 0.24)) (tempOf (d i * (1 - 0.24)) (u i) 0.24) (d i * (1 - 0.24)) 0.24 := by
  have hs := plotNet_sane hb 10 k
  have hn : ∀ i, (0 : ℝ) < (fun i => d i * (1 - 0.24)) i := fun i => mul_pos (hd i).1 (by norm_num)
  obtain ⟨h1, h2⟩ := rooted_ok hs hn hu (Y := 0.24) (by norm_num) (by norm_num)
    (p := fun i => d i * (1 - 0.24)) (fun i => (hn i).le)
  obtain ⟨h3, h4⟩ := rooted_ok hs hn hu (Y := 0.24) (by norm_num) (by norm_num)
    (p := _) (fun j => (h2 j).1)
  unfold get_equilib_ne fixed_point
  dsimp only
  rw [show (500 : ℕ) = 499 + 1 from rfl, fixedLoop]
  simp only [bind, Except.bind, pure, Except.pure]
  rw [h1]
  dsimp only
  rw [if_pos]
  · dsimp only
    rw [h3]
    dsimp only
    rw [if_pos]
    · refine ⟨_, rfl, fun i => ?_⟩
      have := (hn i).ne'
      rw [mul_div_assoc, div_self this, mul_one]
    · intro i
      have a := h2 i
      have b := h4 i
      rw [abs_lt]
      norm_num [plotNet] at a b ⊢
      constructor <;> linarith [a.1, a.2, b.1, b.2]
  · intro j
    have a := h2 j
    have b1 := hn j
    have b2 := (hd j).2
    dsimp only at b1
    rw [abs_lt]
    norm_num [plotNet] at a b1 ⊢
    constructor <;> linarith [a.1, a.2]

theorem cenHp_small {T : ℝ} (hT : 1000 ≤ T) : cenHp T ≤ 1 := by
  unfold cenHp
  have h1 : (1 : ℝ) ≤ √T := by rw [Real.one_le_sqrt]; linarith
  have h2 : (1 : ℝ) ≤ (T / 1000) ^ (0.2 : ℝ) := Real.one_le_rpow (by rw [le_div_iff₀ (by norm_num)]; linarith) (by norm_num)
  have h3 : (1 : ℝ) ≤ 1 + (T / 1e6) ^ (0.7 : ℝ) := by
    have : 0 ≤ (T / 1e6) ^ (0.7 : ℝ) := Real.rpow_nonneg (by positivity) _
    linarith
  calc 8.4e-11 / √T / (T / 1000) ^ (0.2 : ℝ) / (1 + (T / 1e6) ^ (0.7 : ℝ)) ≤ 8.4e-11 / √T / (T / 1000) ^ (0.2 : ℝ) :=
        div_le_self (by positivity) h3
    _ ≤ 8.4e-11 / √T := div_le_self (by positivity) h2
    _ ≤ 8.4e-11 := div_le_self (by norm_num) h1
    _ ≤ 1 := by norm_num

/-- At least half of the hydrogen is ionised. -/
theorem loose_electrons (k : Bool) {nh u : ℝ} (hn : 1e-7 ≤ nh) (hn1 : nh ≤ 1) (hu : 100 ≤ u) :
    1 / 2 ≤ nebynhOf (plotNet sunny 10 k) nh (tempOf nh u 0.24) nh 0.24 := by
  have hs := plotNet_sane sunny_bright 10 k
  have hn0 : 0 < nh := lt_of_lt_of_le (by norm_num) hn
  have hT : 1000 ≤ tempOf nh u 0.24 := by
    have h1 := (tempOf_mono (Y := 0.24) hn0.le hn1 (by linarith : 0 ≤ u) le_rfl (by norm_num)).1
    have h2 := (tempOf_mono (Y := 0.24) (x := 1) (x' := 1) (u := 100) (by norm_num) le_rfl (by norm_num) hu (by norm_num)).2
    have h3 : (1000 : ℝ) ≤ tempOf 1 100 0.24 := by
      unfold tempOf protonmass
      norm_num
    linarith
  have ht0 : 0 < tempOf nh u 0.24 := by linarith
  have ha := cenHp_small hT
  have hr : PositiveRates Cen92 (tempOf nh u 0.24) := hs.pos ht0
  have hp : 0 < cenHp (tempOf nh u 0.24) := hr.hp
  have hc := collis_nonneg (plotNet sunny 10 k) hr.eH0.le
  obtain ⟨b1, b2, -⟩ := nHep_bounds hs ht0 hn0 nh
  have hP : (1 : ℝ) ≤ 1 / (nh * nh) := by
    rw [le_div_iff₀ (by positivity)]; nlinarith
  have h0 : nH0 (plotNet sunny 10 k) nh (tempOf nh u 0.24) nh ≤ 1 / 2 := by
    unfold nH0
    rw [photofac_plot _ _ _ (lt_of_lt_of_le (by norm_num) hn)]
    change cenHp _ / (cenHp _ + collis (plotNet sunny 10 k) (Cen92.GammaeH0 _) + 1 * _) ≤ _
    rw [div_le_iff₀ (by positivity)]
    linarith
  have hy : 0 ≤ yy 0.24 := by norm_num [yy]
  unfold nebynhOf nHp
  have e1 := mul_nonneg hy b1
  have e2 := mul_nonneg hy b2
  nlinarith

theorem med_le [Fintype ι] {d : ι → ℝ} (hd : ∀ i, d i ≤ 1) (i : ι) : med d ≤ 1 := by
  unfold med
  have hne : Finset.univ.toList.map d ≠ [] := by
    intro h
    have : i ∈ (Finset.univ : Finset ι).toList := by simp
    rw [List.map_eq_nil_iff] at h
    rw [h] at this
    cases this
  obtain ⟨h1, h2⟩ := median_spec (Finset.univ.toList.map d)
  cases hm : TempDens.median (Finset.univ.toList.map d) with
  | none => exact absurd (h1.1 hm) hne
  | some m =>
    change m ≤ 1
    by_contra hle
    obtain ⟨h3, -⟩ := h2 m hm
    have h4 : (Finset.univ.toList.map d).countP (fun x => decide (x < m)) = (Finset.univ.toList.map d).length := by
      rw [List.countP_eq_length]
      intro x hx
      obtain ⟨j, -, rfl⟩ := List.mem_map.1 hx
      simpa using lt_of_le_of_lt (hd j) (not_le.1 hle)
    rw [h4] at h3
    have : 0 < (Finset.univ.toList.map d).length := List.length_pos_of_ne_nil hne
    omega

theorem getTemp_runs {x u : ι → ℝ} (hx : ∀ i, 0 ≤ x i) (hu : ∀ i, 0 < u i) :
    getTemp x u 0.24 = .ok (fun i => tempOf (x i) (u i) 0.24) := by
  unfold getTemp
  rw [if_pos (fun i => (tempOf_pos (hx i) (hu i) (by norm_num)).le)]

theorem temp_runs {b : Background} (hb : Bright b) (k : Bool) {d u : ι → ℝ} (hd : ∀ i, 0 < d i ∧ d i ≤ 1) (hu : ∀ i, 0 < u i) :
    ∃ t, get_temp (plotNet b 10 k) d u 0.24 = .ok t := by
  obtain ⟨ne, h1, h2⟩ := loose hb k hd hu
  refine ⟨fun i => tempOf (ne i / (d i * (1 - 0.24))) (u i) 0.24, ?_⟩
  · unfold get_temp
    rw [h1]
    exact getTemp_runs (fun i => (equilibrium (plotNet_sane hb 10 k) (fun i => (hd i).1) hu (by norm_num) (by norm_num) h1 i).2.1) hu

theorem neutral_runs {b : Background} (hb : Bright b) (k : Bool) {d u : ι → ℝ} (hd : ∀ i, 0 < d i ∧ d i ≤ 1) (hu : ∀ i, 0 < u i) :
    ∃ r, get_neutral_fraction (plotNet b 10 k) d u 0.24 = .ok r := by
  obtain ⟨ne, h1, h2⟩ := loose hb k hd hu
  have := getTemp_runs (fun i => (equilibrium (plotNet_sane hb 10 k) (fun i => (hd i).1) hu (by norm_num) (by norm_num) h1 i).2.1) hu
  unfold get_neutral_fraction
  rw [h1]
  change ∃ r, (getTemp (fun i => ne i / (d i * (1 - 0.24))) u 0.24 >>= _) = _
  rw [this]
  exact ⟨_, rfl⟩

end

theorem grid_ok (i : Grid) : 0 < gridd i ∧ gridd i ≤ 1 := ⟨gridd_pos i, (gridd_range i).2.trans (by norm_num)⟩

theorem median_runs (k : Bool) : ∃ t, medianTemp (plotNet sunny 10 k) gridd gridt = .ok t := by
  have h1 := med_pos gridd_pos (0, 0)
  have h2 := med_le (fun i => (grid_ok i).2) (0, 0)
  exact temp_runs sunny_bright k (fun _ => by simpa using ⟨h1, h2⟩) gridt_pos

theorem grid_electrons (k : Bool) : ∃ ne, get_equilib_ne (plotNet sunny 10 k) gridd gridt 0.24 = .ok ne ∧
    ∀ i, 1 / 2 ≤ ne i / (gridd i * (1 - 0.24)) ∧ 1e-40 < ne i := by
  obtain ⟨ne, h1, h2⟩ := loose sunny_bright k grid_ok gridt_pos
  refine ⟨ne, h1, fun i => ?_⟩
  obtain ⟨g1, g2⟩ := gridd_range i
  have hu : 100 ≤ gridt i := by
    unfold gridt
    have : 0 ≤ 600 * (i.1 : ℝ) / 99 := by positivity
    linarith
  have h3 : 1 / 2 ≤ ne i / (gridd i * (1 - 0.24)) := by
    rw [h2 i]
    exact loose_electrons k (by linarith) (by linarith) hu
  refine ⟨h3, ?_⟩
  rw [le_div_iff₀ (mul_pos (gridd_pos i) (by norm_num))] at h3
  have : (1e-40 : ℝ) < 1 / 2 * (gridd i * (1 - 0.24)) := by
    have : (1 : ℝ) / 2 * (1e-6 * (1 - 0.24)) ≤ 1 / 2 * (gridd i * (1 - 0.24)) := by linarith
    refine lt_of_lt_of_le ?_ this
    norm_num
  linarith

/-- Witness: the plots are drawn. -/
theorem plots_drawn : (∃ c, hefracplot sunny 10 = .ok c) ∧ (∃ c, hfracplot sunny 10 = .ok c) ∧ (∃ c, neplot sunny 10 = .ok c) ∧
    (∃ c, collisplot sunny 10 = .ok c) ∧ ∃ c, simpleplot sunny 10 = .ok c := by
  obtain ⟨t, ht⟩ := median_runs true
  obtain ⟨ne, hne, -⟩ := grid_electrons true
  obtain ⟨r, hr⟩ := neutral_runs sunny_bright true grid_ok gridt_pos
  obtain ⟨r', hr'⟩ := neutral_runs sunny_bright false grid_ok gridt_pos
  have C : ∀ z : (Grid → ℝ) → (Grid → ℝ) → Py (Grid → ℝ), (∃ w, z gridd gridt = .ok w) →
      ∃ c, contPlot z (plotNet sunny 10 true) gridd gridt = .ok c := by
    rintro z ⟨w, hw⟩
    unfold contPlot
    rw [ht]
    change ∃ c, (z gridd gridt >>= _) = _
    rw [hw]
    exact ⟨_, rfl⟩
  refine ⟨C _ ?_, C (hFrac _) ⟨r, hr⟩, C _ ?_, C _ ?_, C _ ?_⟩
  · unfold heRatio
    rw [hne]
    change ∃ w, (medianTemp _ _ _ >>= _) = _
    rw [ht]
    exact ⟨_, rfl⟩
  · unfold neRatio get_ne_by_nh
    rw [hne]
    exact ⟨_, rfl⟩
  · unfold collisRatio
    rw [hr]
    change ∃ w, (get_neutral_fraction _ _ _ _ >>= _) = _
    rw [hr']
    exact ⟨_, rfl⟩
  · unfold simpleRatio
    rw [hr]
    change ∃ w, (simplenh0frac _ _ _ _ >>= _) = _
    unfold simplenh0frac
    rw [ht]
    exact ⟨_, rfl⟩

/-- Witness: the plot of helium is wrong at its first point. -/
example : ∃ (c : Contour Grid) (f : Fractions), hefracplot sunny 10 = .ok c ∧ f.Physical ∧ c.z (0, 0) < f.he1 / f.he2 := by
  obtain ⟨⟨c, hc⟩, -⟩ := plots_drawn
  obtain ⟨ne, h1, h2⟩ := grid_electrons true
  obtain ⟨f, -, f2, -, f4, -⟩ := hefracplot_wrong sunny_bright hc h1 (0, 0) (h2 _).2
  exact ⟨c, f, hc, f2, f4⟩

/-- Witness: the comparison with the simple formula, which is positive at every point. -/
example : ∃ c, simpleplot sunny 10 = .ok c ∧ ∀ i, 0 < c.z i := by
  obtain ⟨-, -, -, -, c, hc⟩ := plots_drawn
  obtain ⟨ne, h1, h2⟩ := grid_electrons true
  obtain ⟨t, t1, t2, -, -⟩ := contPlot_ok hc
  refine ⟨c, hc, fun i => ?_⟩
  exact (simple_ratio sunny_bright gridd_pos gridt_pos t2 h1 t1 i (lt_of_lt_of_le (by norm_num) (h2 i).1)).2.1

/-- Witness: the effect of collisions, in balance at every point. -/
example : ∃ c, collisplot sunny 10 = .ok c ∧ ∀ i, ∃ f fp : Fractions, f.Physical ∧ fp.Physical ∧ c.z i = f.h0 / fp.h0 := by
  obtain ⟨-, -, -, ⟨c, hc⟩, -⟩ := plots_drawn
  obtain ⟨ne, h1, h2⟩ := grid_electrons true
  obtain ⟨nep, h3, h4⟩ := grid_electrons false
  obtain ⟨t, t1, t2, -, -⟩ := contPlot_ok hc
  refine ⟨c, hc, fun i => ?_⟩
  obtain ⟨f, fp, -, -, f1, f2, -, -, f3, -⟩ := collis_ratio sunny_bright gridd_pos gridt_pos t2 h1 h3 i
    (lt_of_lt_of_le (by norm_num) (h2 i).1) (lt_of_lt_of_le (by norm_num) (h4 i).1)
  exact ⟨f, fp, f1, f2, f3⟩

/-- Witness: the axes and heights of the other two. -/
example : (∃ c, neplot sunny 10 = .ok c ∧ ∀ i, c.x i = gridd i ∧ 0 ≤ c.z i ∧ c.z i ≤ 1) ∧
    ∃ c, hfracplot sunny 10 = .ok c ∧ ∀ i, ∃ f : Fractions, f.Physical ∧ c.z i < f.h0 / f.h1 := by
  obtain ⟨-, ⟨c', hc'⟩, ⟨c, hc⟩, -⟩ := plots_drawn
  obtain ⟨t, t1, t2, -, -⟩ := contPlot_ok hc
  obtain ⟨t', t1', t2', -, -⟩ := contPlot_ok hc'
  refine ⟨⟨c, hc, fun i => ?_⟩, c', hc', fun i => ?_⟩
  · obtain ⟨r1, r2, -⟩ := ne_ratio sunny_bright gridd_pos gridt_pos t2 i
    exact ⟨(axes sunny_bright gridd_pos gridt_pos hc i).1, r1, r2⟩
  · obtain ⟨x, T, f, -, -, -, -, f2, -, -, f3⟩ := hfrac_title sunny_bright gridd_pos gridt_pos t2' i
    exact ⟨f, f2, f3⟩

/-- C108: the grid has a hundred energies and a hundred densities; the energies go from 100 to 700 in equal steps, the densities from
`1e-6` to `1e-2` in equal ratios. -/
theorem grid_points : Fintype.card Grid = 100 * 100 ∧
    (∀ j, gridt (0, j) = 100 ∧ gridt (99, j) = 700) ∧ (∀ i, gridd (i, 0) = 1e-6 ∧ gridd (i, 99) = 1e-2) ∧
    (∃ d, ∀ (i : Fin 99) j, gridt (i.succ, j) = gridt (i.castSucc, j) + d) ∧
    ∃ q, ∀ i (j : Fin 99), gridd (i, j.succ) = gridd (i, j.castSucc) * q := by
  refine ⟨by simp [Grid], fun j => ⟨?_, ?_⟩, fun i => ⟨?_, ?_⟩, ⟨600 / 99, fun i j => ?_⟩, ⟨(10 : ℝ) ^ ((4 : ℝ) / 99), fun i j => ?_⟩⟩
  · unfold gridt; norm_num
  · unfold gridt
    have : (((99 : Fin 100) : ℕ) : ℝ) = 99 := by norm_num
    dsimp only
    rw [this]
    norm_num
  · unfold gridd
    have h6 : (10 : ℝ) ^ ((-6 : ℤ) : ℝ) = (10 : ℝ) ^ (-6 : ℤ) := Real.rpow_intCast 10 (-6)
    norm_num at h6 ⊢
  · unfold gridd
    have : (((99 : Fin 100) : ℕ) : ℝ) = 99 := by norm_num
    have h2 : (10 : ℝ) ^ ((-2 : ℤ) : ℝ) = (10 : ℝ) ^ (-2 : ℤ) := Real.rpow_intCast 10 (-2)
    dsimp only
    rw [this]
    norm_num at h2 ⊢
  · unfold gridt
    dsimp only
    rw [Fin.val_succ, Fin.val_castSucc]
    push_cast
    ring
  · unfold gridd
    dsimp only
    rw [Fin.val_succ, Fin.val_castSucc, ← Real.rpow_add (by norm_num)]
    congr 1
    push_cast
    ring

end Verif.Props.RatePlots
