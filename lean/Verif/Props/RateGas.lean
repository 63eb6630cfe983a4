import Verif.Model.RateGas
import Verif.Props.Cooling
import Verif.Props.Interp
import Verif.Props.GasProps
import Verif.Props.Metallicity

/-!
C82: gas properties from the rate network.
-/

namespace Verif.Props
open Verif Verif.Rates Verif.RateGas Verif.Units Verif.Gas

/-! What the statements speak of. -/

/-- Gas of `density` protons per cubic centimetre and internal energy `u` (in 10¹⁰ erg per gram) with a quarter, nearly, of its
mass in helium: with `x` electrons per hydrogen atom it has the temperature `T` and neutral fraction `H`, and the ionisation
balance frees `x` electrons, up to the tolerance of the solver. -/
def Equilibrium (n : Net) (density u x T H : ℝ) : Prop :=
  0 ≤ x ∧ T = tempOf x u 0.24 ∧ H = nH0 n (density * (1 - 0.24)) T x ∧
    |nebynhOf n (density * (1 - 0.24)) T x 0.24 - x| < n.converge

/-- The density of a particle, in protons per cubic centimetre, from the snapshot's. -/
noncomputable def protons (g : RateGas.Obj) (b : ℝ × ℝ) : ℝ := b.1 * g.gas.conv

/-- The internal energy of a particle, in 10¹⁰ erg per gram, from the snapshot's, with the temperature and the slope of the
equation of state changed as asked for. -/
noncomputable def energy (g : RateGas.Obj) (b : ℝ × ℝ) : ℝ :=
  g.rescaled (protons g b) (b.2 * g.gas.units.UnitInternalEnergy_in_cgs / 1e10)

/-- An interpolation which has the values of the table at its nodes, where the table has `nx` numbers in each row. -/
def Interpolates (bicubic : Bicubic) : Prop :=
  ∀ (nx ny : ℕ) (xa ya za : ℕ → ℝ), (∀ i, i + 1 < nx → xa i < xa (i + 1)) → (∀ j, j + 1 < ny → ya j < ya (j + 1)) →
    ∀ i j, i < nx → j < ny → bicubic nx ny xa ya za (xa i) (ya j) = za (j * nx + i)

/-! The constructor. -/

theorem rateGas_init {mkNet : ℝ → ℝ → Py Net} {z h fbar : ℝ} {u : UnitSystem} {sf : Bool} {tf gf : ℝ} {g : RateGas.Obj}
    (hg : RateGas.Obj.init mkNet z h fbar u sf tf gf = .ok g) :
    ∃ uvb, uvbAt z = .ok uvb ∧ g.gas = ⟨u, fbar, z, sf, uvb, h, rhoThresh u h h⟩ ∧ mkNet z fbar = .ok g.net ∧
      build_interp g.net (limits z (rhoThresh u h h) sf) 500 (if sf then 500 else 1000) = .ok g.table ∧
      g.temp_factor = tf ∧ g.gamma_factor = gf := by
  unfold RateGas.Obj.init Gas.Obj.init at hg
  simp only [bind, Except.bind, pure, Except.pure] at hg
  cases h1 : uvbAt z with
  | error e => rw [h1] at hg; simp at hg
  | ok uvb =>
    rw [h1] at hg
    dsimp only at hg
    cases h2 : mkNet z fbar with
    | error e => rw [h2] at hg; simp at hg
    | ok net =>
      rw [h2] at hg
      dsimp only at hg
      cases h3 : build_interp net (limits z (rhoThresh u h h) sf) 500 (if sf then 500 else 1000) with
      | error e => rw [h3] at hg; simp at hg
      | ok t =>
        rw [h3] at hg
        have := Except.ok.inj hg
        subst this
        exact ⟨uvb, rfl, rfl, rfl, h3, rfl, rfl⟩

theorem build_lim {n : Net} {lim : Interp.Grid} {tsz dsz : ℕ} {t : Table} (h : build_interp n lim tsz dsz = .ok t) :
    t.lim = lim ∧ t.tsz = tsz ∧ t.dsz = dsz := by
  unfold build_interp at h
  simp only [bind, Except.bind, pure, Except.pure] at h
  split at h
  · simp at h
  · have := Except.ok.inj h
    subst this
    exact ⟨rfl, rfl, rfl⟩

theorem mapM_elem {α β : Type} {f : α → Py β} : ∀ {l : List α} {bs : List β}, l.mapM f = .ok bs → ∀ i (hi : i < l.length),
    ∃ b, bs[i]? = some b ∧ f l[i] = .ok b := by
  intro l
  induction l with
  | nil => intro bs _ i hi; simp at hi
  | cons a l ih =>
    intro bs h i hi
    rw [List.mapM_cons] at h
    simp only [bind, Except.bind, pure, Except.pure] at h
    cases h1 : f a with
    | error e => rw [h1] at h; simp at h
    | ok b =>
      rw [h1] at h
      dsimp only at h
      cases h2 : l.mapM f with
      | error e => rw [h2] at h; simp at h
      | ok bs' =>
        rw [h2] at h
        have := Except.ok.inj h
        subst this
        cases i with
        | zero => exact ⟨b, by simp, by simpa using h1⟩
        | succ i =>
          obtain ⟨c, hc1, hc2⟩ := ih h2 i (by simpa using hi)
          exact ⟨c, by simpa using hc1, by simpa using hc2⟩

/-- The network's answers for an array of particles are those of an equilibrium for each of them. -/
theorem network_equilibrium {ι : Type} {n : Net} (h : Sane n) {density u : ι → ℝ} (hd : ∀ i, 0 < density i) (hu : ∀ i, 0 < u i) :
    (∀ H, get_neutral_fraction n density u 0.24 = .ok H → ∀ i, 0 < H i ∧ H i ≤ 1 ∧ ∃ x T, Equilibrium n (density i) (u i) x T (H i)) ∧
    (∀ T, Rates.get_temp n density u 0.24 = .ok T → ∀ i, 0 < T i ∧ ∃ x H, Equilibrium n (density i) (u i) x (T i) H) ∧
    (∀ e, get_neutral_fraction n density u 0.24 = .error e → e = .runtimeError ∨ e = .assertionError) ∧
    ∀ e, Rates.get_temp n density u 0.24 = .error e → e = .runtimeError ∨ e = .assertionError := by
  have hY : (0 : ℝ) ≤ 0.24 := by norm_num
  have hY1 : (0.24 : ℝ) < 1 := by norm_num
  cases hne : get_equilib_ne n density u 0.24 with
  | error e =>
    obtain ⟨-, h2, h3⟩ := (queries h hd hu hY hY1).1 e hne
    have he := equilibrium_errors h hd hu hY hY1 hne
    refine ⟨?_, ?_, ?_, ?_⟩
    · intro H hH; rw [h3] at hH; simp at hH
    · intro T hT; rw [h2] at hT; simp at hT
    · intro e' he'; rw [h3] at he'; rw [← Except.error.inj he']; exact he
    · intro e' he'; rw [h2] at he'; rw [← Except.error.inj he']; exact he
  | ok ne =>
    obtain ⟨ht, hpos⟩ := temp_at_solution h hd hu hY hY1 hne
    have hT : Rates.get_temp n density u 0.24 = .ok (fun i => tempOf (ne i / (density i * (1 - 0.24))) (u i) 0.24) := by
      unfold Rates.get_temp; rw [hne]; exact ht
    have hH : get_neutral_fraction n density u 0.24 = .ok (fun i => nH0 n (density i * (1 - 0.24))
        (tempOf (ne i / (density i * (1 - 0.24))) (u i) 0.24) (ne i / (density i * (1 - 0.24)))) := by
      unfold get_neutral_fraction
      rw [hne]
      simp only [bind, Except.bind]
      rw [ht]
      rfl
    have hnh : ∀ i, 0 < density i * (1 - 0.24) := fun i => mul_pos (hd i) (by norm_num)
    have heq := equilibrium h hd hu hY hY1 hne
    refine ⟨?_, ?_, ?_, ?_⟩
    · intro H hH' i
      rw [hH] at hH'
      have := Except.ok.inj hH'
      subst this
      have hb := nH0_bounds h (hpos i) (hnh i) (ne i / (density i * (1 - 0.24)))
      exact ⟨hb.1, hb.2, _, _, (heq i).2.1, rfl, rfl, (heq i).1⟩
    · intro T hT' i
      rw [hT] at hT'
      have := Except.ok.inj hT'
      subst this
      exact ⟨hpos i, _, _, (heq i).2.1, rfl, rfl, (heq i).1⟩
    · intro e he; rw [hH] at he; simp at he
    · intro e he; rw [hT] at he; simp at he

/-! The table. -/

/-- C82: every entry of the two tables is the logarithm of an equilibrium value at the density and energy of its node. -/
theorem table_entries {n : Net} (h : Sane n) {lim : Interp.Grid} {tsz dsz : ℕ} {t : Table}
    (ht : build_interp n lim tsz dsz = .ok t) {i j : ℕ} (hi : i < dsz) (hj : j < tsz) :
    (∃ x T H, 0 < H ∧ H ≤ 1 ∧ t.lh0grid j i = Real.log H ∧
      Equilibrium n (Real.exp (node lim.dmin lim.dmax dsz i)) (Real.exp (node lim.emin lim.emax tsz j)) x T H) ∧
    ∃ x T H, 0 < T ∧ t.tempgrid j i = Real.log T ∧
      Equilibrium n (Real.exp (node lim.dmin lim.dmax dsz i)) (Real.exp (node lim.emin lim.emax tsz j)) x T H := by
  unfold build_interp at ht
  simp only [bind, Except.bind, pure, Except.pure] at ht
  cases hc : (List.range dsz).mapM (fun (i : ℕ) => column n lim tsz dsz i) with
  | error e => rw [hc] at ht; simp at ht
  | ok cols =>
    rw [hc] at ht
    have := Except.ok.inj ht
    subst this
    dsimp only
    obtain ⟨c, hc1, hc2⟩ := mapM_elem hc i (by simpa using hi)
    rw [List.getElem_range] at hc2
    rw [hc1]
    simp only [Option.map_some, Option.getD_some, entry, hj, dif_pos]
    unfold column at hc2
    simp only [bind, Except.bind, pure, Except.pure] at hc2
    obtain ⟨n1, n2, -, -⟩ := network_equilibrium h
      (density := fun (_ : Fin tsz) => Real.exp (node lim.dmin lim.dmax dsz i))
      (u := fun (j : Fin tsz) => Real.exp (node lim.emin lim.emax tsz j)) (fun _ => Real.exp_pos _) (fun _ => Real.exp_pos _)
    cases h1 : get_neutral_fraction n (fun (_ : Fin tsz) => Real.exp (node lim.dmin lim.dmax dsz i))
        (fun (j : Fin tsz) => Real.exp (node lim.emin lim.emax tsz j)) 0.24 with
    | error e => rw [h1] at hc2; simp at hc2
    | ok H =>
      rw [h1] at hc2
      dsimp only at hc2
      cases h2 : Rates.get_temp n (fun (_ : Fin tsz) => Real.exp (node lim.dmin lim.dmax dsz i))
          (fun (j : Fin tsz) => Real.exp (node lim.emin lim.emax tsz j)) 0.24 with
      | error e => rw [h2] at hc2; simp at hc2
      | ok T =>
        rw [h2] at hc2
        have := Except.ok.inj hc2
        subst this
        obtain ⟨a1, a2, x, T', a3⟩ := n1 H h1 ⟨j, hj⟩
        obtain ⟨b1, x', H', b2⟩ := n2 T h2 ⟨j, hj⟩
        exact ⟨⟨x, T', H ⟨j, hj⟩, a1, a2, rfl, a3⟩, ⟨x', T ⟨j, hj⟩, H', b1, rfl, b2⟩⟩

/-- C82: building the table fails only as the solver of the network does. -/
theorem table_errors {n : Net} (h : Sane n) {lim : Interp.Grid} {tsz dsz : ℕ} {e : PyErr}
    (ht : build_interp n lim tsz dsz = .error e) : e = .runtimeError ∨ e = .assertionError := by
  unfold build_interp at ht
  simp only [bind, Except.bind, pure, Except.pure] at ht
  have key : ∀ (l : List ℕ) (e : PyErr), l.mapM (fun (i : ℕ) => column n lim tsz dsz i) = .error e →
      e = .runtimeError ∨ e = .assertionError := by
    intro l
    induction l with
    | nil => intro e he; simp [pure, Except.pure] at he
    | cons i l ih =>
      intro e he
      rw [List.mapM_cons] at he
      simp only [bind, Except.bind, pure, Except.pure] at he
      obtain ⟨-, -, n3, n4⟩ := network_equilibrium h
        (density := fun (_ : Fin tsz) => Real.exp (node lim.dmin lim.dmax dsz i))
        (u := fun (j : Fin tsz) => Real.exp (node lim.emin lim.emax tsz j)) (fun _ => Real.exp_pos _) (fun _ => Real.exp_pos _)
      cases h1 : column n lim tsz dsz i with
      | error e' =>
        rw [h1] at he
        have := Except.error.inj he
        subst this
        unfold column at h1
        simp only [bind, Except.bind, pure, Except.pure] at h1
        split at h1
        · next e1 he1 => exact (Except.error.inj h1) ▸ n3 e1 he1
        · split at h1
          · next e1 he1 => exact (Except.error.inj h1) ▸ n4 e1 he1
          · simp at h1
      | ok c =>
        rw [h1] at he
        dsimp only at he
        cases h2 : l.mapM (fun (i : ℕ) => column n lim tsz dsz i) with
        | error e' => rw [h2] at he; rw [← Except.error.inj he]; exact ih e' h2
        | ok cs => rw [h2] at he; simp at he
  cases hc : (List.range dsz).mapM (fun (i : ℕ) => column n lim tsz dsz i) with
  | error e' => rw [hc] at ht; rw [← Except.error.inj ht]; exact key _ e' hc
  | ok cols => rw [hc] at ht; simp at ht

/-! The particles. -/

theorem fill_map {α : Type} (c : α → Prop) [DecidablePred c] (a f : α → ℝ) (l : List α) :
    fill (l.map (fun p => if c p then some (a p) else none)) ((l.filter (fun p => decide (¬c p))).map f) =
      l.map (fun p => if c p then a p else f p) := by
  induction l with
  | nil => rfl
  | cons p l ih =>
    by_cases hp : c p
    · rw [List.map_cons, if_pos hp, List.filter_cons_of_neg (by simpa using hp), fill, ih, List.map_cons, if_pos hp]
    · rw [List.map_cons, if_neg hp, List.filter_cons_of_pos (by simpa using hp), List.map_cons, fill, ih, List.map_cons, if_neg hp]

/-- What `_get_interp` calls the particles. -/
noncomputable def particles (g : RateGas.Obj) (blocks : List (ℝ × ℝ)) : List (ℝ × ℝ) := blocks.map (fun b => (protons g b, energy g b))

/-- The table's value for a particle. -/
noncomputable def tableValue (g : RateGas.Obj) (bicubic : Bicubic) (nhi : Bool) (b : ℝ × ℝ) : ℝ :=
  Real.exp (g.eval bicubic nhi (Real.log (protons g b)) (Interp.clampE g.table.lim (Real.log (energy g b))))

theorem zipWith_replace {α : Type} (l : List α) (f : α → ℝ) (k : α → ℝ × ℝ) :
    List.zipWith (fun (p : ℝ × ℝ) u => (p.1, u)) (l.map k) (l.map f) = l.map (fun a => ((k a).1, f a)) := by
  induction l with
  | nil => rfl
  | cons a l ih => rw [List.map_cons, List.map_cons, List.zipWith_cons_cons, ih]; rfl

/-- The conditions on a segment under which the look-up works: energies are positive and remain so, no gas is less dense than
the table, and some gas is less dense than its upper end. -/
structure Covered (g : RateGas.Obj) (blocks : List (ℝ × ℝ)) : Prop where
  energy : ∀ b ∈ blocks, 0 < energy g b
  low : ∀ b ∈ blocks, g.table.lim.dmin ≤ Real.log (protons g b)
  some : ∃ b ∈ blocks, Real.log (protons g b) < g.table.lim.dmax

theorem get_interp_ok {g : RateGas.Obj} (he : g.table.lim.emin = 2) (he' : g.table.lim.emax = 21) (bicubic : Bicubic) (nhi : Bool)
    {blocks : List (ℝ × ℝ)} (h : Covered g blocks) :
    g.get_interp bicubic nhi blocks = .ok (blocks.map (fun b =>
      if Real.log (protons g b) < g.table.lim.dmax then some (tableValue g bicubic nhi b) else none), particles g blocks) := by
  unfold RateGas.Obj.get_interp RateGas.Obj.get_ienergy_rescaled
  simp only [bind, Except.bind, pure, Except.pure]
  have e1 : (blocks.map (fun b => (b.1 * g.gas.conv, b.2 * g.gas.units.UnitInternalEnergy_in_cgs / 1e10))).map
      (fun p => g.rescaled p.1 p.2) = blocks.map (energy g) := by
    rw [List.map_map]; rfl
  rw [e1, if_pos (by
    intro u hu
    obtain ⟨b, hb, rfl⟩ := List.mem_map.1 hu
    exact h.energy b hb)]
  dsimp only
  rw [zipWith_replace]
  dsimp only
  have e2 : (blocks.map (fun a => (a.1 * g.gas.conv, energy g a))) = particles g blocks := rfl
  rw [e2]
  rw [getInterp_partial (by rw [he]; norm_num) (by rw [he, he']; norm_num) (by rw [he, he']; norm_num) (g.eval bicubic nhi)]
  · dsimp only
    congr 2
    unfold particles
    rw [List.map_map, List.map_map]
    rfl
  · obtain ⟨b, hb, hlt⟩ := h.some
    exact ⟨_, List.mem_map.2 ⟨_, List.mem_map.2 ⟨b, hb, rfl⟩, rfl⟩, hlt⟩
  · intro p hp
    obtain ⟨q, hq, rfl⟩ := List.mem_map.1 hp
    obtain ⟨b, hb, rfl⟩ := List.mem_map.1 hq
    exact h.low b hb

theorem dense_particles (g : RateGas.Obj) (blocks : List (ℝ × ℝ)) :
    g.dense (particles g blocks) = (blocks.filter (fun b => decide (¬Real.log (protons g b) < g.table.lim.dmax))).map
      (fun b => (protons g b, energy g b)) := by
  unfold RateGas.Obj.dense particles
  rw [List.filter_map]
  congr 1
  apply List.filter_congr
  intro b _
  simp [not_lt]

/-- Both look-ups: what is filled in for the dense gas, and that it is filled in for the particle it is for. -/
theorem fill_dense (g : RateGas.Obj) (bicubic : Bicubic) (nhi : Bool) (blocks : List (ℝ × ℝ)) (f : ℝ × ℝ → ℝ) :
    fill (blocks.map (fun b => if Real.log (protons g b) < g.table.lim.dmax then some (tableValue g bicubic nhi b) else none))
      ((g.dense (particles g blocks)).map f) =
    blocks.map (fun b => if Real.log (protons g b) < g.table.lim.dmax then tableValue g bicubic nhi b
      else f (protons g b, energy g b)) := by
  rw [dense_particles, List.map_map]
  exact fill_map (fun b => Real.log (protons g b) < g.table.lim.dmax) (tableValue g bicubic nhi)
    (f ∘ fun b => (protons g b, energy g b)) blocks

theorem fill_none_dense (g : RateGas.Obj) (bicubic : Bicubic) (nhi : Bool) (blocks : List (ℝ × ℝ)) (f : ℝ × ℝ → ℝ)
    (h : ¬0 < (g.dense (particles g blocks)).length) :
    fill (blocks.map (fun b => if Real.log (protons g b) < g.table.lim.dmax then some (tableValue g bicubic nhi b) else none)) [] =
    blocks.map (fun b => if Real.log (protons g b) < g.table.lim.dmax then tableValue g bicubic nhi b
      else f (protons g b, energy g b)) := by
  rw [← fill_dense]
  have : g.dense (particles g blocks) = [] := by
    cases hd : g.dense (particles g blocks) with
    | nil => rfl
    | cons a l => rw [hd] at h; simp at h
  rw [this]; rfl

/-- C82: with `sf_neutral`, temperatures and neutral fractions exist for every segment the table covers. They are the table's
for gas below the density of star formation; the rest has 10⁴ K and the neutral fraction of cold shielded gas, or all its
hydrogen neutral above redshift 8. Each value depends on the particle's own density and energy only. -/
theorem rate_gas_sf_partial {mkNet : ℝ → ℝ → Py Net} {z h fbar : ℝ} {u : UnitSystem} {tf gf : ℝ} {g : RateGas.Obj}
    (hu : ValidUnits u) (hh : 0 < h) (hz : 0 ≤ z) (hg : RateGas.Obj.init mkNet z h fbar u true tf gf = .ok g)
    (bicubic : Bicubic) {blocks : List (ℝ × ℝ)} (hpos : ∀ b ∈ blocks, 0 < b.1) (hcov : Covered g blocks) :
    g.get_temp bicubic blocks = .ok (blocks.map (fun b =>
      if 0.76 * protons g b < rhoThresh u h h then tableValue g bicubic false b else 1e4)) ∧
    (8 < z → g.get_reproc_HI bicubic blocks = .ok (blocks.map (fun b =>
      if 0.76 * protons g b < rhoThresh u h h then tableValue g bicubic true b else 1))) ∧
    (z ≤ 8 → ∃ b0, uvbAt z = .ok (some b0) ∧ g.get_reproc_HI bicubic blocks = .ok (blocks.map (fun b =>
      if 0.76 * protons g b < rhoThresh u h h then tableValue g bicubic true b
      else neutralFraction b0 fbar (protons g b) 1e4))) := by
  obtain ⟨uvb, huvb, hgas, hnet, htab, -, -⟩ := rateGas_init hg
  obtain ⟨hlim, -, -⟩ := build_lim htab
  have he : g.table.lim.emin = 2 := by rw [hlim]; rfl
  have he' : g.table.lim.emax = 21 := by rw [hlim]; rfl
  have hd : g.table.lim.dmax = Real.log (rhoThresh u h h / 0.76) := by rw [hlim]; rfl
  have hsf : g.gas.sf_neutral = true := by rw [hgas]
  have hthr := (rhoThresh_eq hu hh).2
  have hconv : 0 < g.gas.conv := by
    rw [hgas]
    obtain ⟨hm, hl, hv⟩ := hu
    unfold Gas.Obj.conv UnitSystem.UnitDensity_in_cgs Units.protonmass
    positivity
  have hcond : ∀ b ∈ blocks, (Real.log (protons g b) < g.table.lim.dmax ↔ 0.76 * protons g b < rhoThresh u h h) := by
    intro b hb
    have hp : 0 < protons g b := mul_pos (hpos b hb) hconv
    rw [hd, Real.log_lt_log_iff hp (by positivity), lt_div_iff₀ (by norm_num), mul_comm]
  have hmap : ∀ (nhi : Bool) (f : ℝ × ℝ → ℝ), blocks.map (fun b => if Real.log (protons g b) < g.table.lim.dmax then
      tableValue g bicubic nhi b else f (protons g b, energy g b)) = blocks.map (fun b =>
      if 0.76 * protons g b < rhoThresh u h h then tableValue g bicubic nhi b else f (protons g b, energy g b)) := by
    intro nhi f
    apply List.map_congr_left
    intro b hb
    by_cases hc : Real.log (protons g b) < g.table.lim.dmax
    · rw [if_pos hc, if_pos ((hcond b hb).1 hc)]
    · rw [if_neg hc, if_neg (fun h' => hc ((hcond b hb).2 h'))]
  refine ⟨?_, ?_, ?_⟩
  · unfold RateGas.Obj.get_temp
    rw [get_interp_ok he he' bicubic false hcov]
    simp only [bind, Except.bind, pure, Except.pure]
    rw [← hmap false (fun _ => 1e4)]
    split
    · rw [fill_dense]
    · next h0 => rw [fill_none_dense g bicubic false blocks (fun _ => 1e4) h0]
  · intro h8
    have hn : g.gas.uvb = none := by
      rw [hgas]; have := (uvbAt_spec z).2.1 h8; rw [this] at huvb; exact (Except.ok.inj huvb).symm
    unfold RateGas.Obj.get_reproc_HI
    rw [get_interp_ok he he' bicubic true hcov]
    simp only [bind, Except.bind, pure, Except.pure]
    rw [← hmap true (fun _ => 1)]
    split
    · rw [hn]
      dsimp only
      rw [fill_dense]
    · next h0 => rw [fill_none_dense g bicubic true blocks (fun _ => 1) h0]
  · intro h8
    obtain ⟨b0, hb0, -⟩ := (uvbAt_spec z).1 hz h8
    have hn : g.gas.uvb = some b0 := by
      rw [hgas]; rw [hb0] at huvb; exact (Except.ok.inj huvb).symm
    have hf : g.gas.f_bar = fbar := by rw [hgas]
    refine ⟨b0, hb0, ?_⟩
    unfold RateGas.Obj.get_reproc_HI
    rw [get_interp_ok he he' bicubic true hcov]
    simp only [bind, Except.bind, pure, Except.pure]
    rw [← hmap true (fun p => neutralFraction b0 fbar p.1 1e4)]
    split
    · rw [hn, hf]
      dsimp only
      rw [fill_dense]
    · next h0 => rw [fill_none_dense g bicubic true blocks (fun p => neutralFraction b0 fbar p.1 1e4) h0]

/-- C82: for dense gas the two kinds of gas properties agree: with `sf_neutral` the neutral fraction of gas above the density of
star formation is that of `GasProperties` with the same arguments, whatever the snapshot's own neutral fraction. -/
theorem rate_gas_agrees {mkNet : ℝ → ℝ → Py Net} {z h fbar : ℝ} {u : UnitSystem} {tf gf : ℝ} {g : RateGas.Obj} {g' : Gas.Obj}
    (hu : ValidUnits u) (hh : 0 < h) (hz : 0 ≤ z) (hg : RateGas.Obj.init mkNet z h fbar u true tf gf = .ok g)
    (hg' : Gas.Obj.init z h fbar u true = .ok g') (bicubic : Bicubic) {blocks : List (ℝ × ℝ)} (hpos : ∀ b ∈ blocks, 0 < b.1)
    (hcov : Covered g blocks) (nH0 : ℕ → ℝ) :
    ∃ out, g.get_reproc_HI bicubic blocks = .ok out ∧ out.length = blocks.length ∧
      ∀ i (hi : i < blocks.length), rhoThresh u h h < 0.76 * protons g blocks[i] →
        out[i]? = some (g'.get_reproc_HI (fun k => (blocks.getD k (0, 0)).1) nH0 i) := by
  obtain ⟨uvb, huvb, hgas, -, -, -, -⟩ := rateGas_init hg
  have hgg : g' = g.gas := by
    unfold Gas.Obj.init at hg'
    rw [huvb] at hg'
    simp only [bind, Except.bind] at hg'
    rw [hgas]
    exact (Except.ok.inj hg').symm
  subst hgg
  obtain ⟨-, h1, h2⟩ := rate_gas_sf_partial hu hh hz hg bicubic hpos hcov
  have hconv : 0 < g.gas.conv := by
    rw [hgas]
    obtain ⟨hm, hl, hv⟩ := hu
    unfold Gas.Obj.conv UnitSystem.UnitDensity_in_cgs Units.protonmass
    positivity
  have hval : ∀ i (hi : i < blocks.length), rhoThresh u h h < 0.76 * protons g blocks[i] →
      (blocks.getD i (0, 0)).1 > g.gas.PhysDensThresh / 0.76 / g.gas.conv := by
    intro i hi hlt
    rw [List.getD_eq_getElem?_getD, List.getElem?_eq_getElem hi, Option.getD_some, gt_iff_lt, div_lt_iff₀ hconv,
      div_lt_iff₀ (by norm_num), mul_comm _ (0.76 : ℝ)]
    have : g.gas.PhysDensThresh = rhoThresh u h h := by rw [hgas]
    rw [this]
    exact hlt
  have hsf : g.gas.sf_neutral = true := by rw [hgas]
  by_cases h8 : z ≤ 8
  · obtain ⟨b0, hb0, hout⟩ := h2 h8
    refine ⟨_, hout, by simp, ?_⟩
    intro i hi hlt
    have hn : g.gas.uvb = some b0 := by rw [hgas]; rw [hb0] at huvb; exact (Except.ok.inj huvb).symm
    have hf : g.gas.f_bar = fbar := by rw [hgas]
    rw [List.getElem?_map, List.getElem?_eq_getElem hi, Option.map_some, if_neg (not_lt.2 hlt.le)]
    unfold Gas.Obj.get_reproc_HI
    rw [if_pos hsf]
    dsimp only
    rw [if_pos (hval i hi hlt), hn, hf, List.getD_eq_getElem?_getD, List.getElem?_eq_getElem hi, Option.getD_some]
    rfl
  · refine ⟨_, h1 (not_le.1 h8), by simp, ?_⟩
    intro i hi hlt
    have hn : g.gas.uvb = none := by
      rw [hgas]; have := (uvbAt_spec z).2.1 (not_le.1 h8); rw [this] at huvb; exact (Except.ok.inj huvb).symm
    rw [List.getElem?_map, List.getElem?_eq_getElem hi, Option.map_some, if_neg (not_lt.2 hlt.le)]
    unfold Gas.Obj.get_reproc_HI
    rw [if_pos hsf]
    dsimp only
    rw [if_pos (hval i hi hlt), hn]

theorem fill_forall {α : Type} (c : α → Prop) [DecidablePred c] (a : α → ℝ) (P : α → ℝ → Prop) : ∀ (l : List α) (vals : List ℝ),
    List.Forall₂ P (l.filter (fun p => decide (¬c p))) vals →
    List.Forall₂ (fun p y => (c p → y = a p) ∧ (¬c p → P p y)) l (fill (l.map (fun p => if c p then some (a p) else none)) vals) := by
  intro l
  induction l with
  | nil => intro vals _; exact List.Forall₂.nil
  | cons p l ih =>
    intro vals h
    by_cases hp : c p
    · rw [List.filter_cons_of_neg (by simpa using hp)] at h
      rw [List.map_cons, if_pos hp, fill]
      exact List.Forall₂.cons ⟨fun _ => rfl, fun hc => absurd hp hc⟩ (ih vals h)
    · rw [List.filter_cons_of_pos (by simpa using hp)] at h
      cases h with
      | cons h1 h2 =>
        rw [List.map_cons, if_neg hp, fill]
        exact List.Forall₂.cons ⟨fun hc => absurd hc hp, fun _ => h1⟩ (ih _ h2)

theorem forall₂_ofFn {α : Type} {P : α → ℝ → Prop} : ∀ (l : List α) (r : Fin l.length → ℝ), (∀ i : Fin l.length, P l[i] (r i)) →
    List.Forall₂ P l (List.ofFn r) := by
  intro l
  induction l with
  | nil => intro r _; simp
  | cons a l ih =>
    intro r h
    have hofn : List.ofFn r = r 0 :: List.ofFn (fun i : Fin l.length => r i.succ) := List.ofFn_succ
    rw [hofn]
    exact List.Forall₂.cons (h 0) (ih _ (fun i => h i.succ))

/-- C82: without `sf_neutral` the answer for a segment, if there is one, has a value for each particle: gas of less than `e⁵`
protons per cubic centimetre has the table's, denser gas that of an equilibrium at its own density and energy. -/
theorem rate_gas_network_partial {mkNet : ℝ → ℝ → Py Net} {z h fbar : ℝ} {u : UnitSystem} {tf gf : ℝ} {g : RateGas.Obj}
    (hu : ValidUnits u) (hh : 0 < h) (hz : 0 ≤ z) (hg : RateGas.Obj.init mkNet z h fbar u false tf gf = .ok g)
    (hnet : Sane g.net) (bicubic : Bicubic) {blocks : List (ℝ × ℝ)} (hpos : ∀ b ∈ blocks, 0 < b.1) (hcov : Covered g blocks) :
    (∀ out, g.get_reproc_HI bicubic blocks = .ok out → List.Forall₂ (fun b H =>
      (protons g b < Real.exp 5 → H = tableValue g bicubic true b) ∧
      (Real.exp 5 ≤ protons g b → 0 < H ∧ H ≤ 1 ∧ ∃ x T, Equilibrium g.net (protons g b) (energy g b) x T H)) blocks out) ∧
    (∀ out, g.get_temp bicubic blocks = .ok out → List.Forall₂ (fun b T =>
      (protons g b < Real.exp 5 → T = tableValue g bicubic false b) ∧
      (Real.exp 5 ≤ protons g b → 0 < T ∧ ∃ x H, Equilibrium g.net (protons g b) (energy g b) x T H)) blocks out) ∧
    ∀ e, g.get_reproc_HI bicubic blocks = .error e ∨ g.get_temp bicubic blocks = .error e →
      e = .runtimeError ∨ e = .assertionError := by
  obtain ⟨uvb, huvb, hgas, -, htab, -, -⟩ := rateGas_init hg
  obtain ⟨hlim, -, -⟩ := build_lim htab
  have he : g.table.lim.emin = 2 := by rw [hlim]; rfl
  have he' : g.table.lim.emax = 21 := by rw [hlim]; rfl
  have hd : g.table.lim.dmax = 5 := by rw [hlim]; rfl
  have hsf : g.gas.sf_neutral = false := by rw [hgas]
  have hconv : 0 < g.gas.conv := by
    rw [hgas]
    obtain ⟨hm, hl, hv⟩ := hu
    unfold Gas.Obj.conv UnitSystem.UnitDensity_in_cgs Units.protonmass
    positivity
  have hcond : ∀ b ∈ blocks, (Real.log (protons g b) < g.table.lim.dmax ↔ protons g b < Real.exp 5) := by
    intro b hb
    have hp : 0 < protons g b := mul_pos (hpos b hb) hconv
    rw [hd, ← Real.log_exp 5, Real.log_lt_log_iff hp (Real.exp_pos _), Real.log_exp]
  have hdense : ∀ p ∈ g.dense (particles g blocks), 0 < p.1 ∧ 0 < p.2 := by
    intro p hp
    rw [dense_particles] at hp
    obtain ⟨b, hb, rfl⟩ := List.mem_map.1 hp
    have hb' := (List.mem_filter.1 hb).1
    exact ⟨mul_pos (hpos b hb') hconv, hcov.energy b hb'⟩
  obtain ⟨n1, n2, n3, n4⟩ := network_equilibrium hnet
    (density := fun (i : Fin (g.dense (particles g blocks)).length) => ((g.dense (particles g blocks))[i]).1)
    (u := fun (i : Fin (g.dense (particles g blocks)).length) => ((g.dense (particles g blocks))[i]).2)
    (fun i => (hdense _ (List.getElem_mem _)).1) (fun i => (hdense _ (List.getElem_mem _)).2)
  -- what both answers have in common
  have common : ∀ (nhi : Bool) (P : ℝ × ℝ → ℝ → Prop) (vals : List ℝ),
      List.Forall₂ P (g.dense (particles g blocks)) vals →
      List.Forall₂ (fun b y => (protons g b < Real.exp 5 → y = tableValue g bicubic nhi b) ∧
        (Real.exp 5 ≤ protons g b → P (protons g b, energy g b) y)) blocks
        (fill (blocks.map (fun b => if Real.log (protons g b) < g.table.lim.dmax then some (tableValue g bicubic nhi b)
          else none)) vals) := by
    intro nhi P vals hP
    rw [dense_particles, List.forall₂_map_left_iff] at hP
    have := fill_forall (fun b => Real.log (protons g b) < g.table.lim.dmax) (tableValue g bicubic nhi)
      (fun b y => P (protons g b, energy g b) y) blocks vals hP
    have hall : ∀ b ∈ blocks, ∀ y, ((Real.log (protons g b) < g.table.lim.dmax → y = tableValue g bicubic nhi b) ∧
        (¬Real.log (protons g b) < g.table.lim.dmax → P (protons g b, energy g b) y)) →
        ((protons g b < Real.exp 5 → y = tableValue g bicubic nhi b) ∧
        (Real.exp 5 ≤ protons g b → P (protons g b, energy g b) y)) := by
      intro b hb y hy
      exact ⟨fun hlt => hy.1 ((hcond b hb).2 hlt), fun hge => hy.2 (fun hc => absurd ((hcond b hb).1 hc) (not_lt.2 hge))⟩
    clear hP
    revert this hall
    generalize fill (blocks.map (fun b => if Real.log (protons g b) < g.table.lim.dmax then some (tableValue g bicubic nhi b)
          else none)) vals = out
    intro this hall
    clear hcond hdense n1 n2 n3 n4 hpos hcov
    induction this with
    | nil => exact List.Forall₂.nil
    | cons h1 _ ih => exact List.Forall₂.cons (hall _ (by simp) _ h1) (ih (fun b hb => hall b (by simp [hb])))
  have hnone : ¬0 < (g.dense (particles g blocks)).length → ∀ P : ℝ × ℝ → ℝ → Prop,
      List.Forall₂ P (g.dense (particles g blocks)) [] := by
    intro h0 P
    have : g.dense (particles g blocks) = [] := by
      cases hd : g.dense (particles g blocks) with
      | nil => rfl
      | cons a l => rw [hd] at h0; simp at h0
    rw [this]; exact List.Forall₂.nil
  refine ⟨?_, ?_, ?_⟩
  · intro out ho
    unfold RateGas.Obj.get_reproc_HI at ho
    rw [get_interp_ok he he' bicubic true hcov] at ho
    simp only [bind, Except.bind, pure, Except.pure, hsf, Bool.false_eq_true, if_false] at ho
    split at ho
    · unfold onList at ho
      simp only [bind, Except.bind, pure, Except.pure] at ho
      split at ho
      · simp at ho
      · next v hv =>
        split at hv
        · simp at hv
        · next r hr =>
          rw [← Except.ok.inj ho, ← Except.ok.inj hv]
          exact common true (fun p H => 0 < H ∧ H ≤ 1 ∧ ∃ x T, Equilibrium g.net p.1 p.2 x T H) _
            (forall₂_ofFn _ r (fun i => n1 r hr i))
    · next h0 =>
      rw [← Except.ok.inj ho]
      exact common true (fun p H => 0 < H ∧ H ≤ 1 ∧ ∃ x T, Equilibrium g.net p.1 p.2 x T H) _ (hnone h0 _)
  · intro out ho
    unfold RateGas.Obj.get_temp at ho
    rw [get_interp_ok he he' bicubic false hcov] at ho
    simp only [bind, Except.bind, pure, Except.pure, hsf, Bool.false_eq_true, if_false] at ho
    split at ho
    · unfold onList at ho
      simp only [bind, Except.bind, pure, Except.pure] at ho
      split at ho
      · simp at ho
      · next v hv =>
        split at hv
        · simp at hv
        · next r hr =>
          rw [← Except.ok.inj ho, ← Except.ok.inj hv]
          exact common false (fun p T => 0 < T ∧ ∃ x H, Equilibrium g.net p.1 p.2 x T H) _
            (forall₂_ofFn _ r (fun i => n2 r hr i))
    · next h0 =>
      rw [← Except.ok.inj ho]
      exact common false (fun p T => 0 < T ∧ ∃ x H, Equilibrium g.net p.1 p.2 x T H) _ (hnone h0 _)
  · rintro e (ho | ho)
    · unfold RateGas.Obj.get_reproc_HI at ho
      rw [get_interp_ok he he' bicubic true hcov] at ho
      simp only [bind, Except.bind, pure, Except.pure, hsf, Bool.false_eq_true, if_false] at ho
      split at ho
      · unfold onList at ho
        simp only [bind, Except.bind, pure, Except.pure] at ho
        split at ho
        · next v hv =>
          split at hv
          · next e' hr => rw [← Except.error.inj ho, ← Except.error.inj hv]; exact n3 e' hr
          · simp at hv
        · simp at ho
      · simp at ho
    · unfold RateGas.Obj.get_temp at ho
      rw [get_interp_ok he he' bicubic false hcov] at ho
      simp only [bind, Except.bind, pure, Except.pure, hsf, Bool.false_eq_true, if_false] at ho
      split at ho
      · unfold onList at ho
        simp only [bind, Except.bind, pure, Except.pure] at ho
        split at ho
        · next v hv =>
          split at hv
          · next e' hr => rw [← Except.error.inj ho, ← Except.error.inj hv]; exact n4 e' hr
          · simp at hv
        · simp at ho
      · simp at ho

theorem node_mono {a b : ℝ} (hab : a < b) {n i j : ℕ} (hn : 2 ≤ n) (hij : i < j) : node a b n i < node a b n j := by
  unfold node
  have h1 : (1 : ℝ) < n := by exact_mod_cast hn
  have h2 : 0 < (b - a) / ((n : ℝ) - 1) := div_pos (by linarith) (by linarith)
  have h3 : (i : ℝ) < j := by exact_mod_cast hij
  have := mul_lt_mul_of_pos_right h3 h2
  linarith

theorem node_last {a b : ℝ} {n : ℕ} (hn : 2 ≤ n) : node a b n (n - 1) = b := by
  unfold node
  have h1 : (1 : ℝ) < n := by exact_mod_cast hn
  rw [Nat.cast_sub (by omega), Nat.cast_one, mul_div_cancel₀ _ (by linarith)]
  ring

/-- C82: at a node of the table (its ends apart) the values are those of an equilibrium at the particle's density and energy. -/
theorem rate_gas_node {mkNet : ℝ → ℝ → Py Net} {z h fbar : ℝ} {u : UnitSystem} {sf : Bool} {tf gf : ℝ} {g : RateGas.Obj}
    (hg : RateGas.Obj.init mkNet z h fbar u sf tf gf = .ok g) (hnet : Sane g.net)
    (hord : (limits z (rhoThresh u h h) sf).dmin < (limits z (rhoThresh u h h) sf).dmax) {bicubic : Bicubic}
    (hb : Interpolates bicubic) {b : ℝ × ℝ} (hp : 0 < protons g b) (hen : 0 < energy g b) {i j : ℕ}
    (hi : i < if sf then 500 else 1000) (hj0 : 0 < j) (hj : j + 1 < 500)
    (hdi : Real.log (protons g b) = node (limits z (rhoThresh u h h) sf).dmin (limits z (rhoThresh u h h) sf).dmax
      (if sf then 500 else 1000) i)
    (hej : Real.log (energy g b) = node 2 21 500 j) :
    (0 < tableValue g bicubic true b ∧ tableValue g bicubic true b ≤ 1 ∧
      ∃ x T, Equilibrium g.net (protons g b) (energy g b) x T (tableValue g bicubic true b)) ∧
    0 < tableValue g bicubic false b ∧
      ∃ x H, Equilibrium g.net (protons g b) (energy g b) x (tableValue g bicubic false b) H := by
  obtain ⟨uvb, huvb, hgas, -, htab, -, -⟩ := rateGas_init hg
  obtain ⟨hlim, htsz, hdsz⟩ := build_lim htab
  have hN : 2 ≤ (if sf then 500 else 1000 : ℕ) := by split <;> norm_num
  set L := limits z (rhoThresh u h h) sf with hL
  have hLe : L.emin = 2 := rfl
  have hLe' : L.emax = 21 := rfl
  obtain ⟨t1, t2⟩ := table_entries hnet htab hi (show j < 500 by omega)
  have hclamp : Interp.clampE g.table.lim (Real.log (energy g b)) = Real.log (energy g b) := by
    rw [hlim]
    refine (clampE_in_range (g := L) (by rw [hLe]; norm_num) (by rw [hLe, hLe']; norm_num) (by rw [hLe, hLe']; norm_num) _).2.2 ?_ ?_
    · rw [hej, hLe]
      have := node_mono (a := 2) (b := 21) (by norm_num) (n := 500) (by norm_num) hj0
      have h0 : node 2 21 500 0 = 2 := by unfold node; norm_num
      linarith
    · rw [hej, hLe']
      have := node_mono (a := 2) (b := 21) (by norm_num) (n := 500) (by norm_num) (show j < 500 - 1 by omega)
      rw [node_last (by norm_num)] at this
      exact this
  have heval : ∀ nhi, g.eval bicubic nhi (Real.log (protons g b)) (Real.log (energy g b)) =
      (if nhi then g.table.lh0grid else g.table.tempgrid) j i := by
    intro nhi
    unfold RateGas.Obj.eval
    rw [hlim, htsz, hdsz, hdi, hej, hLe, hLe']
    rw [hb _ _ _ _ _ (fun i _ => node_mono hord hN (Nat.lt_succ_self i))
      (fun i _ => node_mono (by norm_num) (by norm_num) (Nat.lt_succ_self i)) i j hi (by omega)]
    unfold flat
    have hpos : 0 < (if sf then 500 else 1000 : ℕ) := by omega
    rw [Nat.add_comm, Nat.add_mul_div_right _ _ hpos, Nat.div_eq_of_lt hi, Nat.zero_add, Nat.add_mul_mod_self_right,
      Nat.mod_eq_of_lt hi]
  have hx1 : Real.exp (node L.dmin L.dmax (if sf then 500 else 1000) i) = protons g b := by rw [← hdi, Real.exp_log hp]
  have hx2 : Real.exp (node L.emin L.emax 500 j) = energy g b := by rw [hLe, hLe', ← hej, Real.exp_log hen]
  rw [hx1, hx2] at t1 t2
  unfold tableValue
  rw [hclamp, heval, heval]
  simp only [if_true, Bool.false_eq_true, if_false]
  obtain ⟨x, T, H, p1, p2, p3, p4⟩ := t1
  obtain ⟨x', T', H', q1, q2, q3⟩ := t2
  rw [p3, q2, Real.exp_log p1, Real.exp_log q1]
  exact ⟨⟨p1, p2, x, T, p4⟩, q1, x', H', q3⟩

/-! The equation of state. -/

/-- C82: rescaling changes an equation of state `u = u₀ Δ^(γ-1)` into one with `temp_factor` times the energy at mean density and
with `gamma_factor - 1` added to the slope; a particle off the relation by a factor is off the new one by the same. -/
theorem equation_of_state (g : RateGas.Obj) {density u0 γ off : ℝ} (hd : 0 < g.overden density) :
    g.rescaled density (off * (u0 * g.overden density ^ (γ - 1))) =
      off * (g.temp_factor * u0 * g.overden density ^ (γ + (g.gamma_factor - 1) - 1)) := by
  unfold RateGas.Obj.rescaled
  dsimp only
  have e : γ + (g.gamma_factor - 1) - 1 = (γ - 1) + (g.gamma_factor - 1) := by ring
  rw [e, Real.rpow_add hd]
  by_cases h1 : g.gamma_factor = 1
  · rw [if_neg (by simpa using h1), h1]
    simp
    ring
  · rw [if_pos h1]
    ring

/-- C82: the overdensity is positive and is one at the mean density of baryons, a fraction 0.0445 of the critical density. -/
theorem overden_spec {g : RateGas.Obj} (hh : 0 < g.gas.hubble) (hz : 0 ≤ g.gas.redshift) {density : ℝ} (hd : 0 < density) :
    0 < g.overden density ∧
    (g.overden density = 1 ↔ Units.protonmass * density = 0.0445 * rho_crit g.gas.hubble * (1 + g.gas.redshift) ^ 3) := by
  have hc : 0 < rho_crit g.gas.hubble := by
    unfold rho_crit h100 gravcgs
    have := Real.pi_pos
    positivity
  have hm : 0 < Units.protonmass := by unfold Units.protonmass; norm_num
  unfold RateGas.Obj.overden
  dsimp only
  refine ⟨by positivity, ?_⟩
  rw [div_eq_one_iff_eq (by positivity), mul_assoc]

/-- C82: the assertions on the energies hold exactly when `temp_factor` is positive, for positive energies. -/
theorem rescaled_accepts {g : RateGas.Obj} (hh : 0 < g.gas.hubble) (hz : 0 ≤ g.gas.redshift) {parts : List (ℝ × ℝ)}
    (hne : parts ≠ []) (hp : ∀ p ∈ parts, 0 < p.1 ∧ 0 < p.2) :
    (0 < g.temp_factor → g.get_ienergy_rescaled parts = .ok (parts.map (fun p => g.rescaled p.1 p.2))) ∧
    (g.temp_factor ≤ 0 → g.get_ienergy_rescaled parts = .error .assertionError) := by
  have key : ∀ p ∈ parts, ∃ k, 0 < k ∧ g.rescaled p.1 p.2 = g.temp_factor * k := by
    intro p hp'
    obtain ⟨h1, h2⟩ := hp p hp'
    have ho := (overden_spec hh hz h1).1
    unfold RateGas.Obj.rescaled
    dsimp only
    split
    · exact ⟨p.2 * g.overden p.1 ^ (g.gamma_factor - 1), by positivity, by ring⟩
    · exact ⟨p.2, h2, by ring⟩
  constructor
  · intro ht
    unfold RateGas.Obj.get_ienergy_rescaled
    dsimp only
    rw [if_pos]
    intro x hx
    obtain ⟨p, hp', rfl⟩ := List.mem_map.1 hx
    obtain ⟨k, hk, e⟩ := key p hp'
    rw [e]; positivity
  · intro ht
    unfold RateGas.Obj.get_ienergy_rescaled
    dsimp only
    rw [if_neg]
    intro hall
    obtain ⟨p, hp'⟩ := List.exists_mem_of_ne_nil parts hne
    obtain ⟨k, hk, e⟩ := key p hp'
    have := hall _ (List.mem_map.2 ⟨p, hp', rfl⟩)
    rw [e] at this
    nlinarith

/-! What goes wrong. -/

/-- C82 (finding): `RateNetworkSpectra` replaces the Hubble parameter of the snapshot by its own default 0.71: for a snapshot
with another one all densities are wrong, by the square of the ratio. -/
theorem rate_spectra_density {mkNet : ℝ → ℝ → Py Net} {z fbar h0 : ℝ} {u : UnitSystem} {sf : Bool} {tf gf : ℝ}
    {g g' : RateGas.Obj} (h0pos : 0 < h0)
    (hg : RateGas.Obj.init mkNet z (rateSpectraHubble h0) fbar u sf tf gf = .ok g)
    (hg' : RateGas.Obj.init mkNet z h0 fbar u sf tf gf = .ok g') (b : ℝ × ℝ) :
    protons g b = (0.71 / h0) ^ 2 * protons g' b := by
  obtain ⟨_, -, hgas, -⟩ := rateGas_init hg
  obtain ⟨_, -, hgas', -⟩ := rateGas_init hg'
  unfold protons Gas.Obj.conv
  rw [hgas, hgas']
  dsimp only
  have : rateSpectraHubble h0 = 0.71 := rfl
  rw [this]
  field_simp

/-- C82 (finding): for a snapshot with lengths in Mpc the density of star formation is so low that the table with `sf_neutral`
has its limits the wrong way round. (gsl then ends the process: py_module.cpp:327 is before the error handler is set.) -/
theorem table_inverted (z : ℝ) :
    (limits z (rhoThresh { gadget with UnitLength_in_cm := 1000 * gadget.UnitLength_in_cm } 0.7 0.7) true).dmax <
    (limits z (rhoThresh { gadget with UnitLength_in_cm := 1000 * gadget.UnitLength_in_cm } 0.7 0.7) true).dmin := by
  have hd := threshold_default
  have e := threshold_depends_on_units gadget_valid (h := 0.7) (by norm_num)
  show Real.log (rhoThresh { gadget with UnitLength_in_cm := 1000 * gadget.UnitLength_in_cm } 0.7 0.7 / 0.76) <
    if z ≥ 1 then -16 else -20
  rw [e]
  have h20 : Real.log (rhoThresh gadget 0.7 0.7 / 1e9 / 0.76) < -20 := by
    rw [Real.log_lt_iff_lt_exp (by have := hd.1; positivity)]
    have h1 : Real.exp 20 < 2.7182818286 ^ 20 := by
      rw [show (20 : ℝ) = ((20 : ℕ) : ℝ) * 1 by norm_num, Real.exp_nat_mul]
      exact pow_lt_pow_left₀ Real.exp_one_lt_d9 (Real.exp_pos 1).le (by norm_num)
    have h2 : Real.exp (-20) = (Real.exp 20)⁻¹ := Real.exp_neg 20
    rw [h2, lt_inv_comm₀ (by have := hd.1; positivity) (Real.exp_pos _)]
    refine lt_trans h1 ?_
    rw [lt_inv_comm₀ (by norm_num) (by have := hd.1; positivity)]
    have := hd.2
    norm_num at this ⊢
    linarith
  split <;> linarith

/-! Witnesses. -/

/-- The solver returns, here with a large tolerance after one pass. -/
theorem solver_returns {ι : Type} {density u : ι → ℝ} (hd : ∀ i, 0 < density i) (hd' : ∀ i, density i ≤ 150) (hu : ∀ i, 0 < u i) :
    ∃ ne, get_equilib_ne (exampleNet 1000) density u 0.24 = .ok ne := by
  have hs := exampleNet_sane 1000
  have hn : ∀ i, (0 : ℝ) < density i * (1 - 0.24) := fun i => mul_pos (hd i) (by norm_num)
  obtain ⟨h1, h2⟩ := rooted_ok hs hn hu (Y := 0.24) (by norm_num) (by norm_num)
    (p := fun i => density i * (1 - 0.24)) (fun i => (hn i).le)
  obtain ⟨h3, h4⟩ := rooted_ok hs hn hu (Y := 0.24) (by norm_num) (by norm_num)
    (p := _) (fun j => (h2 j).1)
  unfold get_equilib_ne fixed_point
  dsimp only
  rw [show (500 : ℕ) = 499 + 1 from rfl, fixedLoop]
  simp only [bind, Except.bind, pure, Except.pure]
  rw [h1]
  dsimp only
  rw [if_pos]
  · dsimp only
    rw [h3]
    dsimp only
    rw [if_pos]
    · exact ⟨_, rfl⟩
    · intro i
      have a := h2 i
      have b := h4 i
      rw [abs_lt]
      norm_num [exampleNet] at a b ⊢
      constructor <;> linarith [a.1, a.2, b.1, b.2]
  · intro j
    have a := h2 j
    have b := hd' j
    have c := hd j
    rw [abs_lt]
    norm_num [exampleNet] at a ⊢
    constructor <;> linarith [a.1, a.2]

theorem column_exists {lim : Interp.Grid} (h1 : lim.dmin ≤ lim.dmax) (h2 : lim.dmax ≤ 5) (tsz : ℕ) {dsz i : ℕ} (hi : i < dsz)
    (hdsz : 2 ≤ dsz) : ∃ c, column (exampleNet 1000) lim tsz dsz i = .ok c := by
  have hnode : node lim.dmin lim.dmax dsz i ≤ 5 := by
    unfold node
    have h3 : (1 : ℝ) < dsz := by exact_mod_cast hdsz
    have h4 : (i : ℝ) + 1 ≤ dsz := by exact_mod_cast hi
    rw [← mul_div_assoc]
    have : (i : ℝ) * (lim.dmax - lim.dmin) / ((dsz : ℝ) - 1) ≤ lim.dmax - lim.dmin := by
      rw [div_le_iff₀ (by linarith)]
      nlinarith
    linarith
  have h150 : Real.exp 5 ≤ 150 := by
    rw [show (5 : ℝ) = ((5 : ℕ) : ℝ) * 1 by norm_num, Real.exp_nat_mul]
    have := pow_le_pow_left₀ (Real.exp_pos 1).le Real.exp_one_lt_d9.le 5
    refine this.trans (by norm_num)
  have hd : ∀ _ : Fin tsz, (0 : ℝ) < Real.exp (node lim.dmin lim.dmax dsz i) := fun _ => Real.exp_pos _
  have hu : ∀ j : Fin tsz, (0 : ℝ) < Real.exp (node lim.emin lim.emax tsz j) := fun _ => Real.exp_pos _
  obtain ⟨ne, hne⟩ := solver_returns hd (fun _ => (Real.exp_le_exp.2 hnode).trans h150) hu
  obtain ⟨x, T, H, -, hT, hH, -⟩ := (queries (exampleNet_sane 1000) hd hu (by norm_num) (by norm_num)).2 ne hne
  unfold column
  simp only [bind, Except.bind]
  rw [hH]
  dsimp only
  rw [hT]
  exact ⟨_, rfl⟩

/-- Witness: an object with the default arguments exists (with a large tolerance of the solver). -/
theorem rate_gas_exists (tf gf : ℝ) : ∃ g, RateGas.Obj.init (fun _ _ => .ok (exampleNet 1000)) 3 0.7 0.17 gadget true tf gf = .ok g := by
  obtain ⟨b, hb, -, -⟩ := (uvbAt_spec 3).1 (by norm_num) (by norm_num)
  have hthr := threshold_default
  have hlim : (limits 3 (rhoThresh gadget 0.7 0.7) true).dmin ≤ (limits 3 (rhoThresh gadget 0.7 0.7) true).dmax ∧
      (limits 3 (rhoThresh gadget 0.7 0.7) true).dmax ≤ 0 := by
    show (if (3 : ℝ) ≥ 1 then (-16 : ℝ) else -20) ≤ Real.log (rhoThresh gadget 0.7 0.7 / 0.76) ∧
      Real.log (rhoThresh gadget 0.7 0.7 / 0.76) ≤ 0
    rw [if_pos (by norm_num)]
    have hpos : 0 < rhoThresh gadget 0.7 0.7 / 0.76 := by have := hthr.1; positivity
    constructor
    · rw [Real.le_log_iff_exp_le hpos]
      have h16 : Real.exp (-16) ≤ 1 / (1 + 16) := by
        rw [Real.exp_neg, ← one_div]
        exact one_div_le_one_div_of_le (by norm_num) (by have := Real.add_one_le_exp (16 : ℝ); linarith)
      refine h16.trans ?_
      rw [le_div_iff₀ (by norm_num)]
      have := hthr.1
      norm_num at this ⊢
      linarith
    · refine Real.log_nonpos hpos.le ?_
      rw [div_le_one (by norm_num)]
      have := hthr.2
      norm_num at this ⊢
      linarith
  obtain ⟨cols, hcols, -⟩ := Verif.Np.mapM_ok (f := fun (i : ℕ) => column (exampleNet 1000) (limits 3 (rhoThresh gadget 0.7 0.7) true) 500 500 i)
    (P := fun _ _ => True) (l := List.range 500) (fun i hi => by
      obtain ⟨c, hc⟩ := column_exists hlim.1 (by linarith [hlim.2]) 500 (List.mem_range.1 hi) (by norm_num)
      exact ⟨c, hc, trivial⟩)
  unfold RateGas.Obj.init Gas.Obj.init build_interp
  simp only [bind, Except.bind, pure, Except.pure, hb]
  simp only [if_true]
  rw [hcols]
  exact ⟨_, rfl⟩

/-- Witness: a segment the table covers, with gas below and above the density of star formation. -/
example : ∃ g blocks, RateGas.Obj.init (fun _ _ => .ok (exampleNet 1000)) 3 0.7 0.17 gadget true 2 1.3 = .ok g ∧ Covered g blocks ∧
    (∀ b ∈ blocks, 0 < b.1) ∧ (∃ b ∈ blocks, 0.76 * protons g b < rhoThresh gadget 0.7 0.7) ∧
    ∃ b ∈ blocks, rhoThresh gadget 0.7 0.7 < 0.76 * protons g b := by
  obtain ⟨g, hg⟩ := rate_gas_exists 2 1.3
  obtain ⟨uvb, huvb, hgas, -, htab, htf, hgf⟩ := rateGas_init hg
  obtain ⟨hlim, -, -⟩ := build_lim htab
  have hthr := threshold_default
  have hconv : 0 < g.gas.conv := by
    rw [hgas]
    obtain ⟨hm, hl, hv⟩ := gadget_valid
    unfold Gas.Obj.conv UnitSystem.UnitDensity_in_cgs Units.protonmass
    positivity
  have hp : ∀ x y : ℝ, protons g (x / g.gas.conv, y) = x := fun x y => by unfold protons; exact div_mul_cancel₀ _ hconv.ne'
  have hE : 0 < g.gas.units.UnitInternalEnergy_in_cgs := by
    rw [hgas]; unfold UnitSystem.UnitInternalEnergy_in_cgs gadget; norm_num
  have hen : ∀ x y : ℝ, 0 < x → 0 < y → 0 < energy g (x / g.gas.conv, y) := by
    intro x y hx hy
    have ho := (overden_spec (g := g) (by rw [hgas]; norm_num) (by rw [hgas]; norm_num) hx).1
    unfold energy RateGas.Obj.rescaled
    rw [hp, htf, hgf]
    dsimp only
    rw [if_pos (by norm_num)]
    positivity
  have hdmin : g.table.lim.dmin = -16 := by
    rw [hlim]; show (if (3 : ℝ) ≥ 1 then (-16 : ℝ) else -20) = -16; rw [if_pos (by norm_num)]
  have hdmax : g.table.lim.dmax = Real.log (rhoThresh gadget 0.7 0.7 / 0.76) := by rw [hlim]; rfl
  have h16 : Real.exp (-16) ≤ 0.1 := by
    rw [Real.exp_neg, inv_le_comm₀ (Real.exp_pos _) (by norm_num)]
    have := Real.add_one_le_exp (16 : ℝ)
    norm_num at this ⊢
    linarith
  have h1 := hthr.1
  have h2 := hthr.2
  norm_num at h1 h2
  refine ⟨g, [(0.1 / g.gas.conv, 100), (1 / g.gas.conv, 100)], hg, ⟨?_, ?_, ?_⟩, ?_, ?_, ?_⟩
  · simp only [List.mem_cons, List.not_mem_nil, or_false]
    rintro b (rfl | rfl)
    · exact hen _ _ (by norm_num) (by norm_num)
    · exact hen _ _ (by norm_num) (by norm_num)
  · simp only [List.mem_cons, List.not_mem_nil, or_false]
    rintro b (rfl | rfl)
    · rw [hp, hdmin, Real.le_log_iff_exp_le (by norm_num)]; exact h16
    · rw [hp, hdmin, Real.log_one]; norm_num
  · refine ⟨_, List.mem_cons_self, ?_⟩
    rw [hp, hdmax, Real.log_lt_log_iff (by norm_num) (div_pos (by linarith) (by norm_num)), lt_div_iff₀ (by norm_num)]
    norm_num; linarith
  · simp only [List.mem_cons, List.not_mem_nil, or_false]
    rintro b (rfl | rfl)
    · show 0 < 0.1 / g.gas.conv; positivity
    · show 0 < 1 / g.gas.conv; positivity
  · refine ⟨_, List.mem_cons_self, ?_⟩
    rw [hp]; norm_num; linarith
  · refine ⟨_, List.mem_cons_of_mem _ List.mem_cons_self, ?_⟩
    rw [hp]; norm_num; linarith

/-- In gas at the mean density, an internal energy which is a power of the density stays one. -/
example : ∃ g : RateGas.Obj, RateGas.Obj.init (fun _ _ => .ok (exampleNet 1000)) 3 0.7 0.17 gadget true 2 1.3 = .ok g ∧
    g.get_ienergy_rescaled [(1e-3, 100), (1e-5, 200)] = .ok ([(1e-3, 100), (1e-5, 200)].map (fun p => g.rescaled p.1 p.2)) := by
  obtain ⟨g, hg⟩ := rate_gas_exists 2 1.3
  obtain ⟨uvb, -, hgas, -, -, htf, -⟩ := rateGas_init hg
  refine ⟨g, hg, (rescaled_accepts (by rw [hgas]; norm_num) (by rw [hgas]; norm_num) (by simp) ?_).1 (by rw [htf]; norm_num)⟩
  intro p hp
  simp only [List.mem_cons, List.not_mem_nil, or_false] at hp
  rcases hp with rfl | rfl <;> norm_num

end Verif.Props
