import Verif.Props.Rates
import Verif.Spec.Ionisation

/-!
C33, C34: ionisation fractions and the equilibrium solver of the rate network. C52: temperature.
-/

namespace Verif.Props
open Verif Verif.Rates Verif.Spec

/-- A network as the constructor makes it: one of the tables of rates, a UV background and an amplitude that are not
negative, a positive opacity and baryon fraction. -/
structure Sane (n : Net) : Prop where
  table : ∃ name, n.recomb = recombOf name
  gH0 : 0 < n.gH0
  gHe0 : 0 < n.gHe0
  gHep : 0 < n.gHep
  gray : 0 < n.gray
  factor : 0 ≤ n.photo_factor
  fbar : 0 < n.f_bar

theorem Sane.pos {n : Net} (h : Sane n) {temp : ℝ} (ht : 0 < temp) : PositiveRates n.recomb temp := by
  obtain ⟨name, e⟩ := h.table
  rw [e]
  exact rates_positive_partial name ht

theorem selfShieldDens_pos {n : Net} (h : Sane n) {temp : ℝ} (ht : 0 < temp) : 0 < selfShieldDens n temp := by
  unfold selfShieldDens
  have := h.gray
  have := h.gH0
  have := h.fbar
  have p1 : 0 < (n.gray / 2.49e-18) ^ (-2 / 3 : ℝ) := Real.rpow_pos_of_pos (by positivity) _
  have p2 : 0 < (temp / 1e4) ^ (0.17 : ℝ) := Real.rpow_pos_of_pos (by positivity) _
  have p3 : 0 < (n.gH0 / 1e-12) ^ (2 / 3 : ℝ) := Real.rpow_pos_of_pos (by positivity) _
  have p4 : 0 < (n.f_bar / 0.17) ^ (-1 / 3 : ℝ) := Real.rpow_pos_of_pos (by positivity) _
  positivity

/-- Self-shielding only weakens the UV background and never removes it. -/
theorem selfShieldCorr_bounds {n : Net} (h : Sane n) {nh temp : ℝ} (ht : 0 < temp) (hn : 0 < nh) :
    0 < selfShieldCorr n nh temp ∧ selfShieldCorr n nh temp ≤ 1 := by
  unfold selfShieldCorr
  split
  · dsimp only
    have hd := selfShieldDens_pos h ht
    have hr : 0 < nh / (1.003 * selfShieldDens n temp) := by positivity
    set r := nh / (1.003 * selfShieldDens n temp) with hrdef
    have p : 0 < r ^ (1.64 : ℝ) := Real.rpow_pos_of_pos hr _
    have q1 : 0 < (1 + r ^ (1.64 : ℝ)) ^ (-2.28 : ℝ) := Real.rpow_pos_of_pos (by positivity) _
    have q2 : 0 < (1 + r) ^ (-0.84 : ℝ) := Real.rpow_pos_of_pos (by positivity) _
    have l1 : (1 + r ^ (1.64 : ℝ)) ^ (-2.28 : ℝ) ≤ 1 := Real.rpow_le_one_of_one_le_of_nonpos (by linarith) (by norm_num)
    have l2 : (1 + r) ^ (-0.84 : ℝ) ≤ 1 := Real.rpow_le_one_of_one_le_of_nonpos (by linarith) (by norm_num)
    constructor
    · positivity
    · linarith
  · norm_num

theorem photofac_nonneg {n : Net} (h : Sane n) {nh temp x : ℝ} (ht : 0 < temp) (hn : 0 < nh) : 0 ≤ photofac n x nh temp := by
  unfold photofac
  split
  · next hx =>
    have hx0 : 0 < x := lt_trans (by norm_num) hx
    have := (selfShieldCorr_bounds h ht hn).1
    have := h.factor
    positivity
  · exact le_rfl

theorem collis_nonneg (n : Net) {x : ℝ} (hx : 0 ≤ x) : 0 ≤ collis n x := by
  unfold collis; split
  · exact hx
  · exact le_rfl

/-- C33: the neutral fraction of hydrogen is in (0,1], for every density, temperature and electron abundance. -/
theorem nH0_bounds {n : Net} (h : Sane n) {nh temp : ℝ} (ht : 0 < temp) (hn : 0 < nh) (x : ℝ) :
    0 < nH0 n nh temp x ∧ nH0 n nh temp x ≤ 1 := by
  have hr := h.pos ht
  have hpf := photofac_nonneg h ht hn (x := x)
  have hc := collis_nonneg n hr.eH0.le
  have hg := h.gH0
  have hp := hr.hp
  unfold nH0
  dsimp only
  have : 0 ≤ n.gH0 * photofac n x nh temp := by positivity
  refine ⟨by positivity, ?_⟩
  rw [div_le_one (by positivity)]
  linarith

theorem GammaHe0_nonneg {n : Net} (h : Sane n) {nh temp : ℝ} (ht : 0 < temp) (hn : 0 < nh) (x : ℝ) :
    0 ≤ GammaHe0 n nh temp x :=
  add_nonneg (collis_nonneg n (h.pos ht).eHe0.le) (mul_nonneg h.gHe0.le (photofac_nonneg h ht hn))

theorem GammaHep_nonneg {n : Net} (h : Sane n) {nh temp : ℝ} (ht : 0 < temp) (hn : 0 < nh) (x : ℝ) :
    0 ≤ GammaHep n nh temp x :=
  add_nonneg (collis_nonneg n (h.pos ht).eHep.le) (mul_nonneg h.gHep.le (photofac_nonneg h ht hn))

theorem nHep_bounds {n : Net} (h : Sane n) {nh temp : ℝ} (ht : 0 < temp) (hn : 0 < nh) (x : ℝ) :
    0 ≤ nHep n nh temp x ∧ 0 ≤ nHepp n nh temp x ∧ nHep n nh temp x + nHepp n nh temp x ≤ 1 := by
  have hr := h.pos ht
  have h0 := GammaHe0_nonneg h ht hn x
  have h1 := GammaHep_nonneg h ht hn x
  have a1 := hr.hep
  have a2 := hr.hepp
  have hnn : 0 ≤ nHep n nh temp x := by
    unfold nHep
    dsimp only
    split
    · exact le_rfl
    · positivity
  refine ⟨hnn, ?_, ?_⟩
  · unfold nHepp
    positivity
  · unfold nHepp
    rw [mul_div_assoc, show nHep n nh temp x + nHep n nh temp x * (GammaHep n nh temp x / n.recomb.alphaHepp temp) =
      nHep n nh temp x * (1 + GammaHep n nh temp x / n.recomb.alphaHepp temp) by ring]
    unfold nHep
    dsimp only
    split
    · rw [zero_mul]; norm_num
    · next hne =>
      have : 0 < GammaHe0 n nh temp x := lt_of_le_of_ne h0 (Ne.symm hne)
      rw [one_div, inv_mul_le_iff₀ (by positivity)]
      have : 0 ≤ (n.recomb.alphaHep temp + n.recomb.alphad temp) / GammaHe0 n nh temp x := by positivity
      linarith

/-- The fractions the network computes at density `nh`, temperature `temp` and `x` electrons per hydrogen atom. -/
def NetFractions (n : Net) (nh temp x : ℝ) (f : Fractions) : Prop :=
  f.h0 = nH0 n nh temp x ∧ f.h1 = nHp n nh temp x ∧ some f.he0 = nHe0 n nh temp x ∧ f.he1 = nHep n nh temp x ∧
    f.he2 = nHepp n nh temp x

/-- The conditions these stand for: `x nh` electrons, the rates of the tables, and the UV background weakened by
self-shielding. Collisions count if they are switched on. -/
noncomputable def conditions (n : Net) (nh temp x : ℝ) : Conditions where
  ne := x * nh
  recH := n.recomb.alphaHp temp
  recHe1 := n.recomb.alphaHep temp + n.recomb.alphad temp
  recHe2 := n.recomb.alphaHepp temp
  collH := if n.collisional then n.recomb.GammaeH0 temp else 0
  collHe0 := if n.collisional then n.recomb.GammaeHe0 temp else 0
  collHe1 := if n.collisional then n.recomb.GammaeHep temp else 0
  photoH := n.gH0 * (n.photo_factor * selfShieldCorr n nh temp)
  photoHe0 := n.gHe0 * (n.photo_factor * selfShieldCorr n nh temp)
  photoHe1 := n.gHep * (n.photo_factor * selfShieldCorr n nh temp)

/-- C33: whenever helium can be ionised at all, the fractions exist, are physical, and the electron abundance is
between zero and that of fully ionised gas. -/
theorem fractions_physical_partial {n : Net} (h : Sane n) {nh temp : ℝ} (ht : 0 < temp) (hn : 0 < nh) (x : ℝ)
    (hion : n.collisional = true ∨ (0 < n.photo_factor ∧ 1e-40 < x)) :
    ∃ f : Fractions, NetFractions n nh temp x f ∧ f.Physical ∧
      ∀ Y : ℝ, 0 ≤ Y → Y < 1 → nebynhOf n nh temp x Y = f.electrons Y ∧ 0 ≤ f.electrons Y ∧
        f.electrons Y ≤ 1 + 2 * (Y / (4 * (1 - Y))) := by
  have hr := h.pos ht
  have hpos : 0 < GammaHe0 n nh temp x := by
    unfold GammaHe0
    rcases hion with hc | ⟨hf, hx⟩
    · have : 0 < collis n (n.recomb.GammaeHe0 temp) := by unfold collis; rw [if_pos hc]; exact hr.eHe0
      have := mul_nonneg h.gHe0.le (photofac_nonneg h ht hn (x := x))
      linarith
    · have hx0 : 0 < x := lt_trans (by norm_num) hx
      have : 0 < photofac n x nh temp := by
        unfold photofac
        rw [if_pos hx]
        have := (selfShieldCorr_bounds h ht hn).1
        positivity
      have := mul_pos h.gHe0 this
      have := collis_nonneg n hr.eHe0.le
      linarith
  obtain ⟨b1, b2, b3⟩ := nHep_bounds h ht hn x
  obtain ⟨c1, c2⟩ := nH0_bounds h ht hn x
  have a1 := hr.hep
  have hHe0 : nHe0 n nh temp x = some (1 - nHep n nh temp x - nHepp n nh temp x) := by
    unfold nHe0
    dsimp only
    rw [if_neg hpos.ne']
    congr 1
    have a2 := hr.hepp
    have h1 := GammaHep_nonneg h ht hn x
    unfold nHepp nHep
    dsimp only
    rw [if_neg hpos.ne']
    have : 0 < 1 + (n.recomb.alphaHep temp + n.recomb.alphad temp) / GammaHe0 n nh temp x +
        GammaHep n nh temp x / n.recomb.alphaHepp temp := by positivity
    field_simp
    ring
  refine ⟨⟨nH0 n nh temp x, nHp n nh temp x, 1 - nHep n nh temp x - nHepp n nh temp x, nHep n nh temp x,
    nHepp n nh temp x⟩, ⟨rfl, rfl, hHe0.symm, rfl, rfl⟩, ⟨c1.le, ?_, ?_, b1, b2, ?_, ?_⟩, ?_⟩
  · unfold nHp; linarith
  · dsimp only; linarith
  · unfold nHp; ring
  · ring
  · intro Y hY hY1
    have hyy : 0 ≤ Y / (4 * (1 - Y)) := div_nonneg hY (by linarith)
    have hye : yy Y = Y / (4 * (1 - Y)) := by unfold yy; rw [div_div]
    refine ⟨?_, ?_, ?_⟩
    · unfold nebynhOf Fractions.electrons
      rw [hye]
      ring
    · unfold Fractions.electrons nHp
      dsimp only
      have : 0 ≤ Y / (4 * (1 - Y)) * (nHep n nh temp x + 2 * nHepp n nh temp x) := by positivity
      linarith
    · unfold Fractions.electrons nHp
      dsimp only
      have h2 : nHep n nh temp x + 2 * nHepp n nh temp x ≤ 2 := by linarith
      have := mul_le_mul_of_nonneg_left h2 hyy
      linarith

/-- C33: for more than 1e-40 electrons per hydrogen atom, the fractions balance ionisations and recombinations. -/
theorem fractions_balanced {n : Net} (h : Sane n) {nh temp x : ℝ} (ht : 0 < temp) (hn : 0 < nh) (hx : 1e-40 < x)
    {f : Fractions} (hf : NetFractions n nh temp x f) : Balanced (conditions n nh temp x) f := by
  have hr := h.pos ht
  have hx0 : 0 < x := lt_trans (by norm_num) hx
  obtain ⟨e0, e1, e2, e3, e4⟩ := hf
  have hs := (selfShieldCorr_bounds h ht hn).1
  have hfac := h.factor
  have hpf : photofac n x nh temp = n.photo_factor * selfShieldCorr n nh temp / (x * nh) := by
    unfold photofac; rw [if_pos hx]
  have hg := h.gH0
  have hp := hr.hp
  have hpp := hr.hepp
  have hne : x * nh ≠ 0 := by positivity
  refine ⟨?_, ?_, ?_⟩
  · rw [e0, e1]
    unfold nHp nH0 conditions
    dsimp only
    have hc := collis_nonneg n hr.eH0.le
    rw [show (if n.collisional = true then n.recomb.GammaeH0 temp else 0) = collis n (n.recomb.GammaeH0 temp) from rfl, hpf]
    have : 0 < n.recomb.alphaHp temp + collis n (n.recomb.GammaeH0 temp) +
        n.gH0 * (n.photo_factor * selfShieldCorr n nh temp / (x * nh)) := by positivity
    have hd := this.ne'
    set D := n.recomb.alphaHp temp + collis n (n.recomb.GammaeH0 temp) +
      n.gH0 * (n.photo_factor * selfShieldCorr n nh temp / (x * nh)) with hD
    have hDx : D * (x * nh) = n.recomb.alphaHp temp * (x * nh) + collis n (n.recomb.GammaeH0 temp) * (x * nh) +
        n.gH0 * (n.photo_factor * selfShieldCorr n nh temp) := by
      rw [hD]; field_simp
    rw [show collis n (n.recomb.GammaeH0 temp) * (x * nh) + n.gH0 * (n.photo_factor * selfShieldCorr n nh temp) =
      D * (x * nh) - n.recomb.alphaHp temp * (x * nh) by rw [hDx]; ring]
    field_simp
  · have hG : (if n.collisional = true then n.recomb.GammaeHe0 temp else 0) * (x * nh) +
        n.gHe0 * (n.photo_factor * selfShieldCorr n nh temp) = GammaHe0 n nh temp x * (x * nh) := by
      unfold GammaHe0
      rw [hpf, show (if n.collisional = true then n.recomb.GammaeHe0 temp else 0) = collis n (n.recomb.GammaeHe0 temp) from rfl]
      field_simp
    unfold conditions
    dsimp only
    rw [hG]
    unfold nHe0 at e2
    dsimp only at e2
    split at e2
    · simp at e2
    · next hne0 =>
      rw [Option.some.inj e2, e3]
      field_simp
  · have hG : (if n.collisional = true then n.recomb.GammaeHep temp else 0) * (x * nh) +
        n.gHep * (n.photo_factor * selfShieldCorr n nh temp) = GammaHep n nh temp x * (x * nh) := by
      unfold GammaHep
      rw [hpf, show (if n.collisional = true then n.recomb.GammaeHep temp else 0) = collis n (n.recomb.GammaeHep temp) from rfl]
      field_simp
    unfold conditions
    dsimp only
    rw [hG, e4]
    unfold nHepp
    rw [e3]
    field_simp

/-- C33 (finding): with collisions switched off and no electrons the neutral helium fraction is not a number. -/
theorem no_electrons_nan {n : Net} (hc : n.collisional = false) (nh temp : ℝ) {x : ℝ} (hx : x ≤ 1e-40) :
    nHe0 n nh temp x = none := by
  have : GammaHe0 n nh temp x = 0 := by
    unfold GammaHe0 collis photofac
    rw [if_neg (by rw [hc]; simp), if_neg (by linarith)]
    ring
  unfold nHe0
  dsimp only
  rw [if_pos this]

/-- C33: self-shielding weakens the background more in denser gas. -/
theorem selfShieldCorr_antitone {n : Net} (h : Sane n) {nh nh' temp : ℝ} (ht : 0 < temp) (hn : 0 < nh) (hle : nh ≤ nh') :
    selfShieldCorr n nh' temp ≤ selfShieldCorr n nh temp := by
  unfold selfShieldCorr
  split
  · dsimp only
    have hd := selfShieldDens_pos h ht
    have hr : 0 < nh / (1.003 * selfShieldDens n temp) := by positivity
    have hrr : nh / (1.003 * selfShieldDens n temp) ≤ nh' / (1.003 * selfShieldDens n temp) := by gcongr
    set r := nh / (1.003 * selfShieldDens n temp)
    set r' := nh' / (1.003 * selfShieldDens n temp)
    have p : r ^ (1.64 : ℝ) ≤ r' ^ (1.64 : ℝ) := Real.rpow_le_rpow hr.le hrr (by norm_num)
    have p0 : 0 < r ^ (1.64 : ℝ) := Real.rpow_pos_of_pos hr _
    have l1 : (1 + r' ^ (1.64 : ℝ)) ^ (-2.28 : ℝ) ≤ (1 + r ^ (1.64 : ℝ)) ^ (-2.28 : ℝ) :=
      Real.rpow_le_rpow_of_nonpos (by positivity) (by linarith) (by norm_num)
    have l2 : (1 + r') ^ (-0.84 : ℝ) ≤ (1 + r) ^ (-0.84 : ℝ) :=
      Real.rpow_le_rpow_of_nonpos (by positivity) (by linarith) (by norm_num)
    linarith
  · exact le_rfl

/-- C33: at given temperature, denser gas with at least as many electrons per atom is at least as neutral. -/
theorem nH0_monotone {n : Net} (h : Sane n) {nh nh' temp x x' : ℝ} (ht : 0 < temp) (hn : 0 < nh) (hle : nh ≤ nh')
    (hx : 1e-40 < x) (hxx : x ≤ x') : nH0 n nh temp x ≤ nH0 n nh' temp x' := by
  have hr := h.pos ht
  have hx0 : 0 < x := lt_trans (by norm_num) hx
  have hc := collis_nonneg n hr.eH0.le
  have hg := h.gH0
  have hp := hr.hp
  have hf := h.factor
  have hs' := (selfShieldCorr_bounds h ht (hn.trans_le hle)).1
  have hs := (selfShieldCorr_bounds h ht hn).1
  have hpf : photofac n x' nh' temp ≤ photofac n x nh temp := by
    unfold photofac
    rw [if_pos hx, if_pos (by linarith)]
    have hle' := selfShieldCorr_antitone h ht hn hle
    have : 0 ≤ x' := by linarith
    gcongr
  have hpf0 := photofac_nonneg h ht (hn.trans_le hle) (x := x')
  unfold nH0
  dsimp only
  gcongr

/-! The temperature. -/

/-- C52: the temperature is the ideal gas temperature: energy per mass is 3/2 k T over the mean particle mass. The
unit of energy is 1e10 erg/g. -/
theorem temp_ideal_gas {x u Y : ℝ} (hx : 0 ≤ x) (hY : 0 ≤ Y) (hY1 : Y < 1) :
    u * 1e10 = 3 / 2 * 1.38066e-16 * tempOf x u Y / (meanMass x Y * 1.67262178e-24) := by
  unfold tempOf meanMass protonmass
  dsimp only
  have h1 : 0 < 1 - Y := by linarith
  have h2 : 0 < 1 + (3 + 4 * x) * (1 - Y) := by positivity
  have h3 : 0 < 1 + Y / (4 * (1 - Y)) + x := by positivity
  have h4 : (1 + 4 * (Y / (4 * (1 - Y)))) / (1 + Y / (4 * (1 - Y)) + x) = 4 / (1 + (3 + 4 * x) * (1 - Y)) := by
    rw [div_eq_div_iff h3.ne' h2.ne']
    field_simp
    ring
  rw [h4]
  field_simp
  norm_num

/-- C52: positive. -/
theorem tempOf_pos {x u Y : ℝ} (hx : 0 ≤ x) (hu : 0 < u) (hY1 : Y < 1) : 0 < tempOf x u Y := by
  unfold tempOf protonmass
  dsimp only
  have h1 : 0 < 1 - Y := by linarith
  have h2 : 0 < 1 + (3 + 4 * x) * (1 - Y) := by positivity
  have h3 : (0 : ℝ) < 5 / 3 - 1 := by norm_num
  positivity

/-- C52: increases with the energy and decreases with the number of electrons. -/
theorem tempOf_mono {x x' u u' Y : ℝ} (hx : 0 ≤ x) (hxx : x ≤ x') (hu : 0 ≤ u) (huu : u ≤ u') (hY1 : Y < 1) :
    tempOf x' u Y ≤ tempOf x u Y ∧ tempOf x u Y ≤ tempOf x u' Y := by
  unfold tempOf protonmass
  dsimp only
  have h1 : 0 < 1 - Y := by linarith
  have h2 : 0 < 1 + (3 + 4 * x) * (1 - Y) := by positivity
  have h3 : (0 : ℝ) < 5 / 3 - 1 := by norm_num
  constructor <;> gcongr

/-! The solver. -/

section Solver
variable {ι : Type}

/-- C34: a value returned by the solver is the image of a value closer to it than half the tolerance; and if the
function keeps a set of arrays and the acceleration cannot leave it, both are in it. -/
theorem fixedLoop_sound {func : (ι → ℝ) → Py (ι → ℝ)} {xtol : ℝ} {maxiter : ℕ} {acc : Bool} {S : (ι → ℝ) → Prop}
    (hS : ∀ p q, S p → func p = .ok q → S q)
    (hA : ∀ p0 p1 p2, S p0 → S p1 → S p2 → S (accel p0 p1 p2)) :
    ∀ left i p0 r, S p0 → fixedLoop func xtol maxiter acc left i p0 = .ok r →
      ∃ p, S p ∧ func p = .ok r ∧ ∀ j, |r j - p j| < xtol / 2 := by
  intro left
  induction left with
  | zero => intro i p0 r _ h; simp [fixedLoop] at h
  | succ left ih =>
    intro i p0 r hp h
    rw [fixedLoop] at h
    cases hf : func p0 with
    | error e => rw [hf] at h; simp [bind, Except.bind] at h
    | ok p1 =>
      rw [hf] at h
      simp only [bind, Except.bind] at h
      split at h
      · next hc =>
        have : p1 = r := Except.ok.inj h
        subst this
        exact ⟨p0, hp, hf, hc⟩
      · split at h
        · cases hf2 : func p1 with
          | error e => rw [hf2] at h; simp at h
          | ok p2 =>
            rw [hf2] at h
            dsimp only at h
            have h1 := hS _ _ hp hf
            exact ih _ _ _ (hA _ _ _ hp h1 (hS _ _ h1 hf2)) h
        · exact ih _ _ _ (hS _ _ hp hf) h

/-- C34: a function that does not raise on the arrays reached can only fail to converge. -/
theorem fixedLoop_errors {func : (ι → ℝ) → Py (ι → ℝ)} {xtol : ℝ} {maxiter : ℕ} {acc : Bool} {S : (ι → ℝ) → Prop}
    (hS : ∀ p, S p → ∃ q, S q ∧ func p = .ok q)
    (hA : ∀ p0 p1 p2, S p0 → S p1 → S p2 → S (accel p0 p1 p2)) :
    ∀ left i p0 e, S p0 → fixedLoop func xtol maxiter acc left i p0 = .error e → e = .runtimeError := by
  intro left
  induction left with
  | zero => intro i p0 e _ h; rw [fixedLoop] at h; exact (Except.error.inj h).symm
  | succ left ih =>
    intro i p0 e hp h
    rw [fixedLoop] at h
    obtain ⟨p1, h1, hf⟩ := hS p0 hp
    obtain ⟨p2, h2, hf2⟩ := hS p1 h1
    rw [hf] at h
    simp only [bind, Except.bind] at h
    split at h
    · simp [pure, Except.pure] at h
    · split at h
      · rw [hf2] at h
        exact ih _ _ _ (hA _ _ _ hp h1 h2) h
      · exact ih _ _ _ h1 h

theorem accel_nonneg {p0 p1 p2 : ι → ℝ} (h2 : ∀ j, 0 ≤ p2 j) (j : ι) : 0 ≤ accel p0 p1 p2 j := by
  unfold accel del2
  dsimp only
  split
  · exact le_max_right _ _
  · exact h2 j

/-- With positive energies the temperatures of abundances that are not negative are never refused. -/
theorem rooted_ok {n : Net} (h : Sane n) {nh u : ι → ℝ} (hn : ∀ i, 0 < nh i) (hu : ∀ i, 0 < u i) {Y : ℝ} (hY : 0 ≤ Y)
    (hY1 : Y < 1) {p : ι → ℝ} (hp : ∀ j, 0 ≤ p j) :
    rooted n nh u Y p = .ok (fun i => nebynhOf n (nh i) (tempOf (p i) (u i) Y) (p i) Y) ∧
    ∀ i, 0 ≤ nebynhOf n (nh i) (tempOf (p i) (u i) Y) (p i) Y ∧
      nebynhOf n (nh i) (tempOf (p i) (u i) Y) (p i) Y ≤ 1 + 2 * (Y / (4 * (1 - Y))) := by
  constructor
  · unfold rooted getTemp
    rw [if_pos (fun i => (tempOf_pos (hp i) (hu i) hY1).le)]
    rfl
  · intro i
    have ht := tempOf_pos (hp i) (hu i) hY1
    obtain ⟨b1, b2, b3⟩ := nHep_bounds h ht (hn i) (p i)
    obtain ⟨c1, c2⟩ := nH0_bounds h ht (hn i) (p i)
    have hye : yy Y = Y / (4 * (1 - Y)) := by unfold yy; rw [div_div]
    have hyy : 0 ≤ Y / (4 * (1 - Y)) := div_nonneg hY (by linarith)
    unfold nebynhOf nHp
    rw [hye]
    have e1 : 0 ≤ Y / (4 * (1 - Y)) * nHep n (nh i) (tempOf (p i) (u i) Y) (p i) := by positivity
    have e2 : 0 ≤ 2 * (Y / (4 * (1 - Y))) * nHepp n (nh i) (tempOf (p i) (u i) Y) (p i) := by positivity
    constructor
    · linarith
    · have h2 : nHep n (nh i) (tempOf (p i) (u i) Y) (p i) + 2 * nHepp n (nh i) (tempOf (p i) (u i) Y) (p i) ≤ 2 := by
        linarith
      have := mul_le_mul_of_nonneg_left h2 hyy
      linarith

/-- C34: the electron densities returned are in equilibrium: per hydrogen atom, each differs by less than the
tolerance from the electrons freed by the ionisation balance it leads to, at the temperature it implies. They are
between zero and full ionisation, up to the tolerance. -/
theorem equilibrium {n : Net} (h : Sane n) {density u : ι → ℝ} (hd : ∀ i, 0 < density i) (hu : ∀ i, 0 < u i) {Y : ℝ}
    (hY : 0 ≤ Y) (hY1 : Y < 1) {ne : ι → ℝ} (hr : get_equilib_ne n density u Y = .ok ne) (i : ι) :
    let nh := density i * (1 - Y)
    let x := ne i / nh
    |nebynhOf n nh (tempOf x (u i) Y) x Y - x| < n.converge ∧ 0 ≤ x ∧ x ≤ 1 + 2 * (Y / (4 * (1 - Y))) := by
  have hnh : ∀ i, 0 < density i * (1 - Y) := fun i => mul_pos (hd i) (by linarith)
  unfold get_equilib_ne at hr
  simp only [bind, Except.bind] at hr
  cases hf : fixed_point (rooted n (fun i => density i * (1 - Y)) u Y) (fun i => density i * (1 - Y)) n.converge 500 true with
  | error e => rw [hf] at hr; simp at hr
  | ok x =>
    rw [hf] at hr
    dsimp only at hr
    have hsound := fixedLoop_sound (S := fun p => ∀ j, 0 ≤ p j)
      (fun p q hp hq => by
        obtain ⟨h1, h2⟩ := rooted_ok h hnh hu hY hY1 hp
        rw [h1] at hq
        have := Except.ok.inj hq
        intro j
        rw [← this]
        exact (h2 j).1)
      (fun p0 p1 p2 _ _ h2 => accel_nonneg h2) 500 0 _ x (fun j => (hnh j).le) hf
    obtain ⟨p, hp, hpx, -⟩ := hsound
    have hx0 : ∀ j, 0 ≤ x j ∧ x j ≤ 1 + 2 * (Y / (4 * (1 - Y))) := by
      obtain ⟨h1, h2⟩ := rooted_ok h hnh hu hY hY1 hp
      rw [h1] at hpx
      have := Except.ok.inj hpx
      intro j
      rw [← this]
      exact h2 j
    obtain ⟨h1, h2⟩ := rooted_ok h hnh hu hY hY1 (fun j => (hx0 j).1)
    rw [h1] at hr
    dsimp only at hr
    split at hr
    · next hc =>
      have hne := Except.ok.inj hr
      have hxi : ne i / (density i * (1 - Y)) = x i := by
        rw [← hne]
        dsimp only
        rw [mul_div_assoc, div_self (hnh i).ne', mul_one]
      dsimp only
      rw [hxi]
      exact ⟨hc i, hx0 i⟩
    · simp at hr

/-- C34: otherwise the call raises RuntimeError or AssertionError; nothing else can happen. -/
theorem equilibrium_errors {n : Net} (h : Sane n) {density u : ι → ℝ} (hd : ∀ i, 0 < density i) (hu : ∀ i, 0 < u i) {Y : ℝ}
    (hY : 0 ≤ Y) (hY1 : Y < 1) {e : PyErr} (hr : get_equilib_ne n density u Y = .error e) :
    e = .runtimeError ∨ e = .assertionError := by
  have hnh : ∀ i, 0 < density i * (1 - Y) := fun i => mul_pos (hd i) (by linarith)
  unfold get_equilib_ne at hr
  simp only [bind, Except.bind] at hr
  cases hf : fixed_point (rooted n (fun i => density i * (1 - Y)) u Y) (fun i => density i * (1 - Y)) n.converge 500 true with
  | error e' =>
    rw [hf] at hr
    have : e' = e := Except.error.inj hr
    subst this
    left
    exact fixedLoop_errors (S := fun p => ∀ j, 0 ≤ p j)
      (fun p hp => by
        obtain ⟨h1, h2⟩ := rooted_ok h hnh hu hY hY1 hp
        exact ⟨_, fun j => (h2 j).1, h1⟩)
      (fun p0 p1 p2 _ _ h2 => accel_nonneg h2) 500 0 _ e' (fun j => (hnh j).le) hf
  | ok x =>
    rw [hf] at hr
    dsimp only at hr
    have hsound := fixedLoop_sound (S := fun p => ∀ j, 0 ≤ p j)
      (fun p q hp hq => by
        obtain ⟨h1, h2⟩ := rooted_ok h hnh hu hY hY1 hp
        rw [h1] at hq
        have := Except.ok.inj hq
        intro j
        rw [← this]
        exact (h2 j).1)
      (fun p0 p1 p2 _ _ h2 => accel_nonneg h2) 500 0 _ x (fun j => (hnh j).le) hf
    obtain ⟨p, hp, hpx, -⟩ := hsound
    have hx0 : ∀ j, 0 ≤ x j := by
      obtain ⟨h1, h2⟩ := rooted_ok h hnh hu hY hY1 hp
      rw [h1] at hpx
      have := Except.ok.inj hpx
      intro j
      rw [← this]
      exact (h2 j).1
    obtain ⟨h1, -⟩ := rooted_ok h hnh hu hY hY1 hx0
    rw [h1] at hr
    dsimp only at hr
    split at hr
    · simp [pure, Except.pure] at hr
    · right; exact (Except.error.inj hr).symm

/-- C34: the second half of the passes is plain iteration, so for a function that maps the arrays reached into
`[0, M]` and brings arrays closer by a factor `L`, the solver returns whatever the accelerated first half does,
provided `L ^ k * M` is below half the tolerance after at most `maxiter - maxiter / 2 - 2` steps. -/
theorem fixed_point_converges {f : (ι → ℝ) → (ι → ℝ)} {xtol L M : ℝ} {maxiter k : ℕ} {acc : Bool} {S : (ι → ℝ) → Prop}
    (hS : ∀ p, S p → S (f p)) (hA : acc = true → ∀ p, S p → S (accel p (f p) (f (f p))))
    (hM : ∀ p, S p → ∀ j, 0 ≤ f p j ∧ f p j ≤ M)
    (hL : ∀ p q D, S p → S q → (∀ j, |p j - q j| ≤ D) → ∀ j, |f p j - f q j| ≤ L * D)
    (hk : L ^ k * M < xtol / 2) (hmax : k + 2 ≤ maxiter - maxiter / 2) {x0 : ι → ℝ} (h0 : S x0) :
    ∃ r, fixed_point (fun p => .ok (f p)) x0 xtol maxiter acc = .ok r := by
  -- plain iteration from two neighbouring values
  have plain : ∀ (m left i : ℕ) (p0 : ι → ℝ), S p0 → maxiter / 2 ≤ i → m ≤ k → k - m + 1 ≤ left →
      (∀ j, |f p0 j - p0 j| ≤ L ^ m * M) → ∃ r, fixedLoop (fun p => .ok (f p)) xtol maxiter acc left i p0 = .ok r := by
    intro m left
    induction left generalizing m with
    | zero => intro i p0 _ _ _ h _; omega
    | succ left ih =>
      intro i p0 hp hi hmk hleft hd
      rw [fixedLoop]
      simp only [bind, Except.bind]
      split
      · exact ⟨_, rfl⟩
      · next hc =>
        rw [if_neg (by rintro ⟨-, h⟩; omega)]
        have hmk' : m < k := by
          by_contra hcon
          have : m = k := by omega
          subst this
          exact hc (fun j => lt_of_le_of_lt (hd j) hk)
        apply ih (m + 1) (i + 1) (f p0) (hS _ hp) (by omega) (by omega) (by omega)
        intro j
        have := hL (f p0) p0 _ (hS _ hp) hp hd j
        rw [pow_succ]
        calc |f (f p0) j - f p0 j| ≤ L * (L ^ m * M) := this
          _ = L ^ m * L * M := by ring
  have start : ∀ (left i : ℕ) (p0 : ι → ℝ), S p0 → left + i = maxiter → k + 2 ≤ left →
      ∃ r, fixedLoop (fun p => .ok (f p)) xtol maxiter acc left i p0 = .ok r := by
    intro left
    induction left with
    | zero => intro i p0 _ _ h; omega
    | succ left ih =>
      intro i p0 hp hsum hleft
      by_cases hi : i < maxiter / 2
      · rw [fixedLoop]
        simp only [bind, Except.bind]
        split
        · exact ⟨_, rfl⟩
        · split
          · next hc => exact ih (i + 1) _ (hA hc.1 _ hp) (by omega) (by omega)
          · exact ih (i + 1) _ (hS _ hp) (by omega) (by omega)
      · rw [fixedLoop]
        simp only [bind, Except.bind]
        split
        · exact ⟨_, rfl⟩
        · rw [if_neg (by rintro ⟨-, h⟩; omega)]
          apply plain 0 left (i + 1) (f p0) (hS _ hp) (by omega) (by omega) (by omega)
          intro j
          have a := hM (f p0) (hS _ hp) j
          have b := hM p0 hp j
          rw [abs_le, pow_zero, one_mul]
          constructor <;> linarith [a.1, a.2, b.1, b.2]
  exact start maxiter 0 x0 h0 (by omega) (by omega)

/-- Witness: halving, from a start in [0,1], with acceleration. -/
example : ∃ r : Unit → ℝ, fixed_point (fun p => .ok (fun j => p j / 2)) (fun _ => 0.7) 1e-7 500 true = .ok r := by
  refine fixed_point_converges (f := fun p j => p j / 2) (S := fun p => ∀ j, 0 ≤ p j ∧ p j ≤ 1)
    (L := 1 / 2) (M := 1) (k := 30) ?_ ?_ ?_ ?_ ?_ ?_ ?_
  · intro p h j
    have := h j
    dsimp only
    constructor <;> linarith
  · intro _ p h j
    unfold accel del2
    dsimp only
    split
    · next hd =>
      have hp : p j ≠ 0 := by intro h0; apply hd; rw [h0]; norm_num
      have : p j - (p j / 2 - p j) ^ 2 / (p j / 2 / 2 - 2 * (p j / 2) + p j) = 0 := by
        rw [show p j / 2 / 2 - 2 * (p j / 2) + p j = p j / 4 by ring]
        field_simp
        ring
      rw [this]
      norm_num
    · have := h j
      constructor <;> linarith
  · intro p h j
    have := h j
    constructor <;> linarith
  · rintro p q D - - h j
    rw [← sub_div, abs_div, abs_of_pos (by norm_num : (0 : ℝ) < 2)]
    linarith [h j]
  · norm_num
  · norm_num
  · intro j; norm_num

end Solver

/-! The equilibrium at a given temperature. -/

theorem photofac_antitone {n : Net} (h : Sane n) {nh temp x x' : ℝ} (ht : 0 < temp) (hn : 0 < nh) (hx : 1e-40 < x)
    (hxx : x ≤ x') : photofac n x' nh temp ≤ photofac n x nh temp := by
  have hx0 : 0 < x := lt_trans (by norm_num) hx
  have hf := h.factor
  have hs := (selfShieldCorr_bounds h ht hn).1
  unfold photofac
  rw [if_pos hx, if_pos (by linarith)]
  gcongr

/-- More electrons per atom lead to less ionisation. -/
theorem nebynhOf_antitone {n : Net} (h : Sane n) {nh temp x x' Y : ℝ} (ht : 0 < temp) (hn : 0 < nh) (hx : 1e-40 < x)
    (hxx : x ≤ x') (hY : 0 ≤ Y) (hY1 : Y < 1) : nebynhOf n nh temp x' Y ≤ nebynhOf n nh temp x Y := by
  have hr := h.pos ht
  have hpf := photofac_antitone h ht hn hx hxx
  have hpf' := photofac_nonneg h ht hn (x := x')
  have hye : yy Y = Y / (4 * (1 - Y)) := by unfold yy; rw [div_div]
  have hyy : 0 ≤ yy Y := by rw [hye]; exact div_nonneg hY (by linarith)
  have hH := nH0_monotone h ht hn le_rfl hx hxx
  have a1 := hr.hep
  have a2 := hr.hepp
  have g0 : GammaHe0 n nh temp x' ≤ GammaHe0 n nh temp x := by
    unfold GammaHe0; have := h.gHe0; gcongr
  have g1 : GammaHep n nh temp x' ≤ GammaHep n nh temp x := by
    unfold GammaHep; have := h.gHep; gcongr
  have n0 := GammaHe0_nonneg h ht hn x'
  have n1 := GammaHep_nonneg h ht hn x'
  have key : nHep n nh temp x' + 2 * nHepp n nh temp x' ≤ nHep n nh temp x + 2 * nHepp n nh temp x := by
    by_cases hz : GammaHe0 n nh temp x' = 0
    · have e : nHep n nh temp x' = 0 := by unfold nHep; dsimp only; rw [if_pos hz]
      have e' : nHepp n nh temp x' = 0 := by unfold nHepp; rw [e]; ring
      rw [e, e']
      obtain ⟨b1, b2, -⟩ := nHep_bounds h ht hn x
      linarith
    · have p0 : 0 < GammaHe0 n nh temp x' := lt_of_le_of_ne n0 (Ne.symm hz)
      have p0' : 0 < GammaHe0 n nh temp x := p0.trans_le g0
      have form : ∀ z, 0 < GammaHe0 n nh temp z → 0 ≤ GammaHep n nh temp z →
          nHep n nh temp z + 2 * nHepp n nh temp z =
            2 - (1 + 2 * ((n.recomb.alphaHep temp + n.recomb.alphad temp) / GammaHe0 n nh temp z)) /
              (1 + (n.recomb.alphaHep temp + n.recomb.alphad temp) / GammaHe0 n nh temp z +
                GammaHep n nh temp z / n.recomb.alphaHepp temp) := by
        intro z hz0 hz1
        unfold nHepp nHep
        dsimp only
        rw [if_neg hz0.ne']
        have : 0 < 1 + (n.recomb.alphaHep temp + n.recomb.alphad temp) / GammaHe0 n nh temp z +
          GammaHep n nh temp z / n.recomb.alphaHepp temp := by positivity
        field_simp
        ring
      rw [form x' p0 n1, form x p0' (n1.trans g1)]
      set A := (n.recomb.alphaHep temp + n.recomb.alphad temp) / GammaHe0 n nh temp x'
      set A0 := (n.recomb.alphaHep temp + n.recomb.alphad temp) / GammaHe0 n nh temp x
      set R := GammaHep n nh temp x' / n.recomb.alphaHepp temp
      set R0 := GammaHep n nh temp x / n.recomb.alphaHepp temp
      have hA : A0 ≤ A := by simp only [A, A0]; gcongr
      have hA0 : 0 ≤ A0 := by simp only [A0]; positivity
      have hR : R ≤ R0 := by simp only [R, R0]; gcongr
      have hR0 : 0 ≤ R := by simp only [R]; positivity
      have : (1 + 2 * A0) / (1 + A0 + R0) ≤ (1 + 2 * A) / (1 + A + R) := by
        rw [div_le_div_iff₀ (by linarith) (by linarith)]
        nlinarith [mul_nonneg (sub_nonneg.2 hA) (hR0.trans hR), mul_nonneg (by linarith : (0:ℝ) ≤ A) (sub_nonneg.2 hR),
          mul_nonneg hA0 (sub_nonneg.2 hR), mul_nonneg (sub_nonneg.2 hA) hR0]
      linarith
  have := mul_le_mul_of_nonneg_left key hyy
  unfold nebynhOf nHp
  linarith

/-- C34: at a given temperature there is at most one equilibrium, and any abundance that maps to itself within
`tol` is within `tol` of it. -/
theorem isothermal_unique {n : Net} (h : Sane n) {nh temp x y Y tol : ℝ} (ht : 0 < temp) (hn : 0 < nh) (hx : 1e-40 < x)
    (hy : 1e-40 < y) (hY : 0 ≤ Y) (hY1 : Y < 1) (hfix : nebynhOf n nh temp x Y = x)
    (happrox : |nebynhOf n nh temp y Y - y| ≤ tol) : |y - x| ≤ tol := by
  rw [abs_le] at happrox ⊢
  rcases le_total x y with hxy | hxy
  · have := nebynhOf_antitone h ht hn hx hxy hY hY1
    constructor <;> linarith [happrox.1, happrox.2]
  · have := nebynhOf_antitone h ht hn hy hxy hY hY1
    constructor <;> linarith [happrox.1, happrox.2]


/-- A network with the default settings and a UV background of the order of that at redshift 3. -/
noncomputable def exampleNet (converge : ℝ) : Net where
  recomb := Verner96
  gH0 := 1e-12
  gHe0 := 5e-13
  gHep := 1e-15
  gray := 2.15e-18
  photo_factor := 1
  f_bar := 0.17
  converge := converge
  selfshield := true
  collisional := true

/-- Witness: it is sane. -/
theorem exampleNet_sane (converge : ℝ) : Sane (exampleNet converge) :=
  ⟨⟨"V96", rfl⟩, by norm_num [exampleNet], by norm_num [exampleNet], by norm_num [exampleNet], by norm_num [exampleNet],
    by norm_num [exampleNet], by norm_num [exampleNet]⟩

/-- Witness: the solver returns, here for a tolerance of 10 after one pass. -/
example : ∃ ne : Fin 2 → ℝ, get_equilib_ne (exampleNet 10) (fun _ => 1e-4) (fun _ => 100) 0.24 = .ok ne := by
  have hs := exampleNet_sane 10
  have hn : ∀ i : Fin 2, (0 : ℝ) < (fun _ => 1e-4 * (1 - 0.24)) i := fun _ => by norm_num
  have hu : ∀ i : Fin 2, (0 : ℝ) < (fun _ => (100 : ℝ)) i := fun _ => by norm_num
  obtain ⟨h1, h2⟩ := rooted_ok hs hn hu (Y := 0.24) (by norm_num) (by norm_num)
    (p := fun _ => 1e-4 * (1 - 0.24)) (fun _ => by norm_num)
  obtain ⟨h3, h4⟩ := rooted_ok hs hn hu (Y := 0.24) (by norm_num) (by norm_num)
    (p := _) (fun j => (h2 j).1)
  unfold get_equilib_ne fixed_point
  dsimp only
  rw [show (500 : ℕ) = 499 + 1 from rfl, fixedLoop]
  simp only [bind, Except.bind, pure, Except.pure]
  rw [h1]
  dsimp only
  rw [if_pos]
  · dsimp only
    rw [h3]
    dsimp only
    rw [if_pos]
    · exact ⟨_, rfl⟩
    · intro i
      have a := h2 i
      have b := h4 i
      rw [abs_lt]
      norm_num [exampleNet] at a b ⊢
      constructor <;> linarith [a.1, a.2, b.1, b.2]
  · intro j
    have a := h2 j
    rw [abs_lt]
    norm_num [exampleNet] at a ⊢
    constructor <;> linarith [a.1, a.2]

/-! The theorems at work on the network of the example, with gas of ten thousand degrees. -/

example := nH0_bounds (exampleNet_sane 10) (nh := 1e-4) (temp := 1e4) (by norm_num) (by norm_num) 1.1

example := fractions_physical_partial (exampleNet_sane 10) (nh := 1e-4) (temp := 1e4) (by norm_num) (by norm_num) 1.1 (Or.inl rfl)

/-- The fractions of `fractions_physical_partial` are in balance. -/
example : ∃ f : Fractions, f.Physical ∧ Balanced (conditions (exampleNet 10) 1e-4 1e4 1.1) f := by
  obtain ⟨f, hf, hp, -⟩ := fractions_physical_partial (exampleNet_sane 10) (nh := 1e-4) (temp := 1e4) (by norm_num) (by norm_num) 1.1 (Or.inl rfl)
  exact ⟨f, hp, fractions_balanced (exampleNet_sane 10) (by norm_num) (by norm_num) (by norm_num) hf⟩

example := no_electrons_nan (n := { exampleNet 10 with collisional := false }) rfl 1e-4 1e4 (x := 0) (by norm_num)

example := nH0_monotone (exampleNet_sane 10) (nh := 1e-4) (nh' := 1e-3) (temp := 1e4) (x := 1) (x' := 1.1) (by norm_num) (by norm_num) (by norm_num)
  (by norm_num) (by norm_num)

example := temp_ideal_gas (x := 1.1) (u := 100) (Y := 0.24) (by norm_num) (by norm_num) (by norm_num)

example := tempOf_pos (x := 1.1) (u := 100) (Y := 0.24) (by norm_num) (by norm_num) (by norm_num)

example := tempOf_mono (x := 1) (x' := 1.1) (u := 100) (u' := 200) (Y := 0.24) (by norm_num) (by norm_num) (by norm_num) (by norm_num) (by norm_num)

example (ne : Fin 2 → ℝ) := equilibrium (exampleNet_sane 10) (density := fun _ => 1e-4) (u := fun _ => 100) (by norm_num) (by norm_num) (Y := 0.24)
  (by norm_num) (by norm_num) (ne := ne)

example (e : PyErr) := equilibrium_errors (exampleNet_sane 10) (density := fun _ : Fin 2 => 1e-4) (u := fun _ => 100) (by norm_num) (by norm_num)
  (Y := 0.24) (by norm_num) (by norm_num) (e := e)

end Verif.Props
