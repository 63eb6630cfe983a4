import Verif.Model.CReader
import Verif.Model.GasProps
import Verif.Model.Construct
import Verif.Model.Readers
import Verif.Model.ComputeSpectra

/-!
C96: the stand-alone extractor works on the particles of the files it reads. C97: it works on the same particles as the Python
interface does.
-/

namespace Verif.Props.CReader
open Verif.CReader

/-! ### What a file holds -/

/-- A gas particle as a snapshot stores it, with the density in units of the snapshot and the length `h` of its kernel. -/
structure Particle where
  pos : Vec3
  vel : Vec3
  rho : ℝ
  u : ℝ
  ne : ℝ
  xHI : ℝ
  h : ℝ

/-- A dataset of the right shape and type with these rows. -/
def whole {α : Type} (xs : List α) : Option (Dataset α) := some ⟨true, true, true, xs⟩

/-- The densities are stored, or masses which give them. -/
def HoldsDensity (g : Gas) (ps : List Particle) : Prop :=
  g.Density = whole (ps.map (·.rho)) ∨
    (g.Density = none ∧ g.Masses = whole (ps.map (fun p => p.rho * p.h ^ 3)) ∧ ∀ p ∈ ps, 0 < p.h)

/-- The smoothing lengths are stored, twice the length of the kernel, or volumes which give them. -/
def HoldsSize (g : Gas) (ps : List Particle) : Prop :=
  (g.Volume = none ∧ g.SmoothingLength = whole (ps.map (fun p => 2 * p.h))) ∨
    (∃ vs : List ℝ, g.Volume = whole vs ∧ ps.map (·.h) = vs.map (fun v => v ^ (0.33333333 : ℝ)))

/-- A gas group with all that is needed for the particles `ps`. -/
structure HoldsGas (g : Gas) (ps : List Particle) : Prop where
  pos : g.Coordinates = whole (ps.map (·.pos))
  vel : g.Velocities = whole (ps.map (·.vel))
  dens : HoldsDensity g ps
  energy : g.InternalEnergy = whole (ps.map (·.u))
  ne : g.ElectronAbundance = whole (ps.map (·.ne))
  xHI : g.NeutralHydrogenAbundance = whole (ps.map (·.xHI))
  size : HoldsSize g ps

/-- The file `f` holds the particles `ps`, and its header says that particles have masses of their own and that cooling was on. -/
def Holds (f : HFile) (ps : List Particle) : Prop :=
  ∃ hd g, f.header = some hd ∧ f.gas = some g ∧ ps.length ≤ hd.npart ∧ ps ≠ [] ∧ hd.mass = 0 ∧ hd.flag_cooling ≠ 0 ∧ HoldsGas g ps

/-- The number of hydrogen atoms in a cubic centimetre: the density in physical units times the mass fraction of hydrogen over the
mass of an atom. -/
noncomputable def nH (c : Cosmo) (p : Particle) : ℝ :=
  p.rho * (1.98892e43 / 3.085678e21 ^ 3 * c.h100 ^ 2 / c.atime ^ 3) * 0.76 / (1.00794 * 1.67262178e-24)

/-- The number of neutral hydrogen atoms in a cubic centimetre: all, above the density of star formation. -/
noncomputable def nHI (c : Cosmo) (p : Particle) : ℝ := if nH c p ≤ 0.12948869200298072 then nH c p * p.xHI else nH c p

/-- The temperature in Kelvin: two thirds of the energy over the number of particles in a gram. -/
noncomputable def temperature (p : Particle) : ℝ :=
  (2 / 3) * (p.u * 1e10) * (4 / (0.76 * (3 + 4 * p.ne) + 1)) * 1.67262178e-24 / 1.3806504e-16

/-- What the interpolator should get of a particle: the density of neutral atoms, in atoms per cubic centimetre times centimetres
in a comoving unit of length. -/
noncomputable def expected (c : Cosmo) (p : Particle) : Handed :=
  ⟨some p.pos, some p.vel, nHI c p * (3.085678e21 * c.atime / c.h100), temperature p, some p.h⟩

/-! ### Reading -/

theorem get_whole {α : Type} (xs : List α) (buf : List (Option α)) {n : ℕ} (h : xs.length ≤ n) :
    get_dataset (whole xs) buf n = (xs.length, xs.map some ++ buf.drop xs.length) := by
  unfold get_dataset whole
  simp [Nat.not_lt.2 h]

theorem mapFirst_append {α : Type} (f : α → α) (xs : List α) (rest : List (Option α)) :
    mapFirst f xs.length (xs.map some ++ rest) = (xs.map f).map some ++ rest := by
  unfold mapFirst
  rw [List.take_left' (by simp), List.drop_left' (by simp)]
  simp

/-- The arrays after reading, up to the elements behind the particles. -/
structure Filled (a : Arrays) (ps : List Particle) : Prop where
  pos : ps.map (fun p => some p.pos) <+: a.Pos
  vel : ps.map (fun p => some p.vel) <+: a.Vel
  mass : ps.map (fun p => some p.rho) <+: a.Mass
  u : ps.map (fun p => some p.u) <+: a.U
  ne : ps.map (fun p => some p.ne) <+: a.Ne
  fraction : ps.map (fun p => some p.xHI) <+: a.fraction
  h : ps.map (fun p => some p.h) <+: a.h

theorem readH_holds {g : Gas} {ps : List Particle} (hg : HoldsSize g ps) (buf : List (Option ℝ)) :
    ∃ rest, readH g ps.length buf = (true, ps.map (fun p => some p.h) ++ rest) := by
  rcases hg with ⟨h1, h2⟩ | ⟨vs, h1, h2⟩
  · refine ⟨buf.drop ps.length, ?_⟩
    unfold readH
    rw [h1, h2, get_whole _ _ (by simp)]
    simp only [Option.isSome_none, Bool.false_eq_true, if_false, List.length_map, ne_eq, not_true_eq_false, if_false]
    have := mapFirst_append (fun x : ℝ => x / 2) (ps.map (fun p => 2 * p.h)) (buf.drop ps.length)
    rw [List.length_map] at this
    rw [this, List.map_map, List.map_map]
    congr 2
    apply List.map_congr_left
    intro p _
    simp
  · have hl : vs.length = ps.length := by
      have := congrArg List.length h2
      simpa using this.symm
    refine ⟨buf.drop ps.length, ?_⟩
    unfold readH
    rw [h1, get_whole _ _ hl.le]
    have hs : (whole vs).isSome = true := rfl
    simp only [hs, if_true, hl, ne_eq, not_true_eq_false, if_false]
    have := mapFirst_append (fun v : ℝ => v ^ (0.33333333 : ℝ)) vs (buf.drop ps.length)
    rw [hl] at this
    rw [this, ← h2, List.map_map]
    rfl

theorem zip_density (ps : List Particle) (hp : ∀ p ∈ ps, 0 < p.h) (r1 r2 : List (Option ℝ)) :
    ps.map (fun p => some p.rho) <+: massToDensity ((ps.map (fun p => p.rho * p.h ^ 3)).map some ++ r1) (ps.map (fun p => some p.h) ++ r2) := by
  unfold massToDensity
  rw [List.zipWith_append (by simp)]
  have : List.zipWith overCube ((ps.map (fun p => p.rho * p.h ^ 3)).map some) (ps.map (fun p => some p.h)) =
      ps.map (fun p => some p.rho) := by
    rw [List.map_map, List.zipWith_map, List.zipWith_self]
    apply List.map_congr_left
    intro p hq
    have := hp p hq
    simp only [Function.comp, overCube, Option.bind_some, Option.map_some]
    congr 1
    field_simp
  rw [this]
  exact List.prefix_append _ _

theorem readCool_holds {hd : Header} {g : Gas} {ps : List Particle} (hc : hd.flag_cooling ≠ 0)
    (h1 : g.ElectronAbundance = whole (ps.map (·.ne))) (h2 : g.NeutralHydrogenAbundance = whole (ps.map (·.xHI)))
    (ne fraction : List (Option ℝ)) : readCool hd g ps.length ne fraction =
      (true, (ps.map (·.ne)).map some ++ ne.drop ps.length, (ps.map (·.xHI)).map some ++ fraction.drop ps.length) := by
  have e4 := get_whole (ps.map (·.ne)) ne (n := ps.length) (by simp)
  have e5 := get_whole (ps.map (·.xHI)) fraction (n := ps.length) (by simp)
  rw [List.length_map] at e4 e5
  unfold readCool
  rw [if_pos hc, h1, e4, h2, e5]
  simp

theorem readGas_holds {hd : Header} {g : Gas} {ps : List Particle} (hn : ps.length ≤ hd.npart) (hne : ps ≠ []) (hm : hd.mass = 0)
    (hc : hd.flag_cooling ≠ 0) (hg : HoldsGas g ps) (a : Arrays) :
    ∃ a', readGas hd g a = (ps.length, a') ∧ Filled a' ps := by
  have hl : ps.length ≠ 0 := by simpa using hne
  obtain ⟨rh, hrh⟩ := readH_holds hg.size a.h
  have e1 := get_whole (ps.map (·.pos)) a.Pos (n := hd.npart) (by simpa using hn)
  have e2 := get_whole (ps.map (·.vel)) a.Vel (n := ps.length) (by simp)
  have e3 := get_whole (ps.map (·.u)) a.U (n := ps.length) (by simp)
  rw [List.length_map] at e1 e2 e3
  rcases hg.dens with hd1 | ⟨hd1, hd2, hd3⟩
  · have e6 := get_whole (ps.map (·.rho)) a.Mass (n := ps.length) (by simp)
    rw [List.length_map] at e6
    have em : readMass hd g ps.length a.Mass = (true, false, (ps.map (·.rho)).map some ++ a.Mass.drop ps.length) := by
      unfold readMass
      rw [if_neg (by simpa using hm), hd1, e6]
      simp
    refine ⟨{ a with
      Pos := (ps.map (·.pos)).map some ++ a.Pos.drop ps.length
      Vel := (ps.map (·.vel)).map some ++ a.Vel.drop ps.length
      U := (ps.map (·.u)).map some ++ a.U.drop ps.length
      Ne := (ps.map (·.ne)).map some ++ a.Ne.drop ps.length
      fraction := (ps.map (·.xHI)).map some ++ a.fraction.drop ps.length
      h := ps.map (fun p => some p.h) ++ rh
      Mass := (ps.map (·.rho)).map some ++ a.Mass.drop ps.length }, ?_, ?_⟩
    · unfold readGas
      rw [hg.pos, e1]
      simp only [if_neg hl]
      rw [hg.vel, e2]
      simp only [ne_eq, not_true_eq_false, if_false]
      rw [em]
      simp only [Bool.true_eq_false, if_false]
      rw [hg.energy, e3]
      simp only [not_true_eq_false, if_false]
      rw [readCool_holds hc hg.ne hg.xHI]
      simp only [Bool.true_eq_false, if_false]
      rw [hrh]
      simp only [Bool.true_eq_false, Bool.false_eq_true, if_false]
    · constructor <;> simp [List.map_map, Function.comp_def]
  · have e6 := get_whole (ps.map (fun p => p.rho * p.h ^ 3)) a.Mass (n := ps.length) (by simp)
    rw [List.length_map] at e6
    have em : readMass hd g ps.length a.Mass =
        (true, true, (ps.map (fun p => p.rho * p.h ^ 3)).map some ++ a.Mass.drop ps.length) := by
      unfold readMass
      rw [if_neg (by simpa using hm), hd1, hd2]
      have : get_dataset (none : Option (Dataset ℝ)) a.Mass ps.length = (0, a.Mass) := rfl
      rw [this]
      simp only [ne_eq, hl, not_false_eq_true, if_true, e6, not_true_eq_false, if_false]
    refine ⟨{ a with
      Pos := (ps.map (·.pos)).map some ++ a.Pos.drop ps.length
      Vel := (ps.map (·.vel)).map some ++ a.Vel.drop ps.length
      U := (ps.map (·.u)).map some ++ a.U.drop ps.length
      Ne := (ps.map (·.ne)).map some ++ a.Ne.drop ps.length
      fraction := (ps.map (·.xHI)).map some ++ a.fraction.drop ps.length
      h := ps.map (fun p => some p.h) ++ rh
      Mass := massToDensity ((ps.map (fun p => p.rho * p.h ^ 3)).map some ++ a.Mass.drop ps.length) (ps.map (fun p => some p.h) ++ rh) }, ?_, ?_⟩
    · unfold readGas
      rw [hg.pos, e1]
      simp only [if_neg hl]
      rw [hg.vel, e2]
      simp only [ne_eq, not_true_eq_false, if_false]
      rw [em]
      simp only [Bool.true_eq_false, if_false]
      rw [hg.energy, e3]
      simp only [not_true_eq_false, if_false]
      rw [readCool_holds hc hg.ne hg.xHI]
      simp only [Bool.true_eq_false, if_false]
      rw [hrh]
      simp only [Bool.true_eq_false, if_true, if_false]
    · constructor
      case mass => exact zip_density ps hd3 _ _
      all_goals simp [List.map_map, Function.comp_def]

theorem prefix_get {α : Type} {ps : List Particle} {f : Particle → α} {l : List (Option α)} (h : ps.map (fun p => some (f p)) <+: l)
    {i : ℕ} (hi : i < ps.length) : l[i]? = some (some (f ps[i])) := by
  obtain ⟨r, rfl⟩ := h
  rw [List.getElem?_append_left (by simpa using hi)]
  simp [hi]

theorem readSet_eq {α : Type} {l : List (Option α)} {i : ℕ} {x : α} (h : l[i]? = some (some x)) : readSet l i = .ok x := by
  unfold readSet
  rw [h]

theorem peek_eq {α : Type} {l : List (Option α)} {i : ℕ} {x : Option α} (h : l[i]? = some x) : peek l i = .ok x := by
  unfold peek
  rw [h]

theorem dens_eq (c : Cosmo) (p : Particle) : p.rho * (c.dscale * XH) = nH c p := by
  unfold Cosmo.dscale XH nH GADGET_MASS GADGET_LENGTH HMASS PROTONMASS
  ring

theorem temp_eq (p : Particle) : Units.compute_temp p.u p.ne XH = temperature p := by
  unfold Units.compute_temp temperature XH Units.TSCALE Units.cBoltzmann
  have : (0.76 * (3 + 4 * p.ne) + 1 : ℝ) = 4 * (0.76 * (0.75 + p.ne) + 0.25) := by ring
  rw [this]
  rw [div_mul_eq_div_div]
  ring

theorem convert_eq (c : Cosmo) {a : Arrays} {i : ℕ} (p : Particle) {pos vel : Option Vec3} {h : Option ℝ}
    (h1 : a.Mass[i]? = some (some p.rho)) (h2 : a.fraction[i]? = some (some p.xHI)) (h3 : a.U[i]? = some (some p.u))
    (h4 : a.Ne[i]? = some (some p.ne)) (h5 : a.Pos[i]? = some pos) (h6 : a.Vel[i]? = some vel) (h7 : a.h[i]? = some h) :
    convert c a i = .ok ⟨pos, vel, (expected c p).dens, (expected c p).temp, h⟩ := by
  unfold convert
  rw [readSet_eq h1, readSet_eq h2, readSet_eq h3, readSet_eq h4, peek_eq h5, peek_eq h6, peek_eq h7]
  simp only [bind, Except.bind, pure, Except.pure, dens_eq, temp_eq]
  unfold expected nHI Cosmo.rscale PHYSDENSTHRESH GADGET_LENGTH
  by_cases hc : nH c p ≤ 0.12948869200298072
  · simp [hc]
  · simp [hc]

theorem convert_filled (c : Cosmo) {a : Arrays} {ps : List Particle} (h : Filled a ps) {i : ℕ} (hi : i < ps.length) :
    convert c a i = .ok (expected c ps[i]) :=
  convert_eq c ps[i] (prefix_get h.mass hi) (prefix_get h.fraction hi) (prefix_get h.u hi) (prefix_get h.ne hi)
    (prefix_get h.pos hi) (prefix_get h.vel hi) (prefix_get h.h hi)

theorem mapM_range {α : Type} {f : ℕ → CRes α} {g : ℕ → α} {n : ℕ} (h : ∀ i < n, f i = .ok (g i)) :
    (List.range n).mapM f = .ok ((List.range n).map g) := by
  have : ∀ l : List ℕ, (∀ i ∈ l, f i = .ok (g i)) → l.mapM f = .ok (l.map g) := by
    intro l
    induction l with
    | nil => intro _; rfl
    | cons a l ih =>
      intro hl
      rw [List.mapM_cons, hl a (by simp), ih (fun i hi => hl i (by simp [hi]))]
      rfl
  exact this _ (fun i hi => h i (List.mem_range.1 hi))

theorem map_range_get {α β : Type} (f : α → β) (l : List α) (d : α) : (List.range l.length).map (fun i => f (l.getD i d)) = l.map f := by
  apply List.ext_getElem
  · simp
  · intro i h1 h2
    simp at h1 h2
    simp [h1]

/-- C96 (partial: the file has all datasets the program needs, in single precision, masses of the particles and cooling; see
`no_velocities`, `no_cooling`, `mass_table`, `double_precision` and `broken_header` for the others). The particles passed to the
interpolator are those of the file, whatever was read before. -/
theorem file_read_partial (c : Cosmo) {f : HFile} {ps : List Particle} (h : Holds f ps) (P : Mem) :
    oneFile c f P = .ok (ps.map (expected c), .wild) := by
  obtain ⟨hd, g, h1, h2, h3, h4, h5, h6, h7⟩ := h
  obtain ⟨a', e, hf⟩ := readGas_holds h3 h4 h5 h6 h7 (alloc_parts hd.npart)
  have hload : load_hdf5_snapshot f P = ((ps.length : ℤ), .live a') := by
    unfold load_hdf5_snapshot
    rw [h1, h2]
    simp only [e]
  obtain ⟨p0, hp0⟩ := List.exists_mem_of_ne_nil ps h4
  unfold oneFile
  rw [hload]
  simp only [Int.toNat_natCast]
  rw [mapM_range (g := fun i => expected c (ps.getD i p0)) (fun i hi => by
    rw [convert_filled c hf hi]
    simp [List.getD, List.getElem?_eq_getElem hi])]
  rw [map_range_get]
  rfl

/-- C96 (partial, as above). All particles of all files are passed on, each once. -/
theorem files_read_partial (c : Cosmo) {fs : List HFile} {pss : List (List Particle)} (h : List.Forall₂ Holds fs pss) (P : Mem) :
    allFiles c fs P = .ok (pss.map (fun ps => ps.map (expected c))) := by
  induction h generalizing P with
  | nil => rfl
  | cons h _ ih =>
    rw [allFiles, file_read_partial c h]
    simp only [bind, Except.bind, ih, pure, Except.pure, List.map_cons]

/-- A file whose group for the gas is missing, as when none of its particles are gas, is skipped. -/
theorem no_gas_skipped (c : Cosmo) {f : HFile} {hd : Header} (h1 : f.header = some hd) (h2 : f.gas = none) (P : Mem) :
    oneFile c f P = .ok ([], .wild) := by
  unfold oneFile load_hdf5_snapshot
  rw [h1, h2]
  rfl

/-! ### No access outside the arrays -/

theorem get_le {α : Type} (d : Option (Dataset α)) (buf : List (Option α)) (n : ℕ) : (get_dataset d buf n).1 ≤ n := by
  unfold get_dataset
  cases d with
  | none => simp
  | some d =>
    dsimp only
    split_ifs with h1 h2
    · exact Nat.zero_le _
    · exact Nat.zero_le _
    · push Not at h2
      exact h2.2.1

theorem get_length {α : Type} (d : Option (Dataset α)) (buf : List (Option α)) {n : ℕ} (h : n ≤ buf.length) :
    (get_dataset d buf n).2.length = buf.length := by
  unfold get_dataset
  cases d with
  | none => rfl
  | some d =>
    dsimp only
    split_ifs with h1 h2
    · rfl
    · rfl
    · push Not at h2
      simp
      omega

theorem mapFirst_length {α : Type} (f : α → α) (n : ℕ) (buf : List (Option α)) : (mapFirst f n buf).length = buf.length := by
  unfold mapFirst
  simp
  omega

theorem readMass_length (hd : Header) (g : Gas) (length : ℕ) (buf : List (Option ℝ)) (h : length ≤ buf.length) :
    (readMass hd g length buf).2.2.length = buf.length := by
  unfold readMass
  have h1 := get_length g.Density buf h
  have h2 := get_length g.Masses (get_dataset g.Density buf length).2 (h1.symm ▸ h)
  dsimp only
  split_ifs
  · simp
    omega
  · simpa using h2.trans h1
  · simpa using h2.trans h1
  · simpa using h1

theorem readH_length (g : Gas) (length : ℕ) (buf : List (Option ℝ)) (h : length ≤ buf.length) :
    (readH g length buf).2.length = buf.length := by
  unfold readH
  dsimp only
  split_ifs
  · exact get_length _ _ h
  · simpa [mapFirst_length] using get_length _ _ h
  · exact get_length _ _ h
  · simpa [mapFirst_length] using get_length _ _ h

/-- All arrays have `n` elements. -/
structure Sized (a : Arrays) (n : ℕ) : Prop where
  pos : a.Pos.length = n
  vel : a.Vel.length = n
  mass : a.Mass.length = n
  u : a.U.length = n
  fraction : a.fraction.length = n
  ne : a.Ne.length = n
  h : a.h.length = n

theorem alloc_sized (n : ℕ) : Sized (alloc_parts n) n := by
  constructor <;> simp [alloc_parts]

theorem readCool_length (hd : Header) (g : Gas) (length : ℕ) (ne fraction : List (Option ℝ)) (h1 : length ≤ ne.length)
    (h2 : length ≤ fraction.length) : (readCool hd g length ne fraction).2.1.length = ne.length ∧
      (readCool hd g length ne fraction).2.2.length = fraction.length := by
  unfold readCool
  dsimp only
  split_ifs
  · exact ⟨get_length _ _ h1, rfl⟩
  · exact ⟨get_length _ _ h1, get_length _ _ h2⟩
  · exact ⟨get_length _ _ h1, get_length _ _ h2⟩
  · exact ⟨rfl, rfl⟩

theorem readGas_safe (hd : Header) (g : Gas) {a : Arrays} (ha : Sized a hd.npart) :
    Sized (readGas hd g a).2 hd.npart ∧ (readGas hd g a).1 = (get_dataset g.Coordinates a.Pos hd.npart).1 ∧
      (readGas hd g a).2.Pos = (get_dataset g.Coordinates a.Pos hd.npart).2 := by
  have l0 : (get_dataset g.Coordinates a.Pos hd.npart).1 ≤ hd.npart := get_le _ _ _
  have k1 : (get_dataset g.Coordinates a.Pos hd.npart).2.length = hd.npart := (get_length _ _ ha.pos.ge).trans ha.pos
  obtain ⟨a1, a2, a3, a4, a5, a6, a7⟩ := ha
  unfold readGas
  rcases hq1 : get_dataset g.Coordinates a.Pos hd.npart with ⟨n, pos⟩
  rw [hq1] at l0 k1
  simp only at l0 k1 ⊢
  by_cases c1 : n = 0
  · rw [if_pos c1]
    exact ⟨⟨k1, a2, a3, a4, a5, a6, a7⟩, rfl, rfl⟩
  rw [if_neg c1]
  have k2 := get_length g.Velocities a.Vel (a2.symm ▸ l0 : n ≤ _)
  rcases hq2 : get_dataset g.Velocities a.Vel n with ⟨n2, vel⟩
  rw [hq2] at k2
  simp only at k2 ⊢
  rw [a2] at k2
  by_cases c2 : n ≠ n2
  · rw [if_pos c2]
    exact ⟨⟨k1, k2, a3, a4, a5, a6, a7⟩, rfl, rfl⟩
  rw [if_neg c2]
  have k3 := readMass_length hd g n a.Mass (a3.symm ▸ l0 : n ≤ _)
  rcases hq3 : readMass hd g n a.Mass with ⟨go, um, mass⟩
  rw [hq3] at k3
  simp only at k3 ⊢
  rw [a3] at k3
  by_cases c3 : go = false
  · rw [if_pos c3]
    exact ⟨⟨k1, k2, k3, a4, a5, a6, a7⟩, rfl, rfl⟩
  rw [if_neg c3]
  have k4 := get_length g.InternalEnergy a.U (a4.symm ▸ l0 : n ≤ _)
  rcases hq4 : get_dataset g.InternalEnergy a.U n with ⟨n4, u⟩
  rw [hq4] at k4
  simp only at k4 ⊢
  rw [a4] at k4
  by_cases c4 : n ≠ n4
  · rw [if_pos c4]
    exact ⟨⟨k1, k2, k3, k4, a5, a6, a7⟩, rfl, rfl⟩
  rw [if_neg c4]
  have k5 := readCool_length hd g n a.Ne a.fraction (a6.symm ▸ l0 : n ≤ _) (a5.symm ▸ l0 : n ≤ _)
  rcases hq5 : readCool hd g n a.Ne a.fraction with ⟨go2, ne, fraction⟩
  rw [hq5] at k5
  simp only at k5 ⊢
  rw [a5, a6] at k5
  by_cases c5 : go2 = false
  · rw [if_pos c5]
    exact ⟨⟨k1, k2, k3, k4, k5.2, k5.1, a7⟩, rfl, rfl⟩
  rw [if_neg c5]
  have k6 := readH_length g n a.h (a7.symm ▸ l0 : n ≤ _)
  rcases hq6 : readH g n a.h with ⟨go3, h⟩
  rw [hq6] at k6
  simp only at k6 ⊢
  rw [a7] at k6
  by_cases c6 : go3 = false
  · rw [if_pos c6]
    exact ⟨⟨k1, k2, k3, k4, k5.2, k5.1, k6⟩, rfl, rfl⟩
  rw [if_neg c6]
  cases um
  · exact ⟨⟨k1, k2, k3, k4, k5.2, k5.1, k6⟩, rfl, rfl⟩
  · refine ⟨⟨k1, k2, ?_, k4, k5.2, k5.1, k6⟩, rfl, rfl⟩
    simp only [if_true]
    unfold massToDensity
    rw [List.length_zipWith, k3, k6, min_self]

theorem range_mapM_ne {α : Type} {f : ℕ → CRes α} {n : ℕ} {e : CErr} (h : ∀ i < n, f i ≠ .error e) : (List.range n).mapM f ≠ .error e := by
  have : ∀ l : List ℕ, (∀ i ∈ l, f i ≠ .error e) → l.mapM f ≠ .error e := by
    intro l
    induction l with
    | nil => intro _ h; cases h
    | cons a l ih =>
      intro hl
      rw [List.mapM_cons]
      have h1 := hl a (by simp)
      have h2 := ih (fun i hi => hl i (by simp [hi]))
      cases hfa : f a with
      | error e' =>
        rw [hfa] at h1
        simpa [bind, Except.bind] using h1
      | ok x =>
        cases hm : l.mapM f with
        | error e' =>
          rw [hm] at h2
          simpa [bind, Except.bind] using h2
        | ok y => simp [bind, Except.bind, pure, Except.pure]
  exact this _ (fun i hi => h i (List.mem_range.1 hi))

theorem readSet_in {α : Type} {l : List (Option α)} {i : ℕ} (h : i < l.length) : readSet l i ≠ .error .outOfBounds := by
  unfold readSet
  rw [List.getElem?_eq_getElem h]
  cases l[i] <;> simp

theorem peek_in {α : Type} {l : List (Option α)} {i : ℕ} (h : i < l.length) : peek l i = .ok l[i] := by
  unfold peek
  rw [List.getElem?_eq_getElem h]

theorem convert_in (c : Cosmo) {a : Arrays} {n i : ℕ} (ha : Sized a n) (hi : i < n) : convert c a i ≠ .error .outOfBounds := by
  have h1 := readSet_in (ha.mass.symm ▸ hi : i < a.Mass.length)
  have h2 := readSet_in (ha.fraction.symm ▸ hi : i < a.fraction.length)
  have h3 := readSet_in (ha.u.symm ▸ hi : i < a.U.length)
  have h4 := readSet_in (ha.ne.symm ▸ hi : i < a.Ne.length)
  unfold convert
  rw [peek_in (ha.pos.symm ▸ hi), peek_in (ha.vel.symm ▸ hi), peek_in (ha.h.symm ▸ hi)]
  cases e1 : readSet a.Mass i with
  | error e => rw [e1] at h1; simpa [bind, Except.bind] using h1
  | ok m =>
    simp only [bind, Except.bind]
    split_ifs
    · cases e2 : readSet a.fraction i with
      | error e => rw [e2] at h2; simpa using h2
      | ok f =>
        cases e3 : readSet a.U i with
        | error e => rw [e3] at h3; simpa [pure, Except.pure] using h3
        | ok u =>
          cases e4 : readSet a.Ne i with
          | error e => rw [e4] at h4; simpa [pure, Except.pure] using h4
          | ok ne => simp [pure, Except.pure]
    · cases e3 : readSet a.U i with
      | error e => rw [e3] at h3; simpa [pure, Except.pure] using h3
      | ok u =>
        cases e4 : readSet a.Ne i with
        | error e => rw [e4] at h4; simpa [pure, Except.pure] using h4
        | ok ne => simp [pure, Except.pure]

/-- C96. Whatever is in a file, no element outside the arrays is read. -/
theorem reads_in_bounds (c : Cosmo) (f : HFile) (P : Mem) : oneFile c f P ≠ .error .outOfBounds := by
  unfold oneFile load_hdf5_snapshot
  cases f.header with
  | none =>
    cases P <;> simp [bind, Except.bind, pure, Except.pure, free_parts]
  | some hd =>
    cases f.gas with
    | none => simp [bind, Except.bind, pure, Except.pure, free_parts]
    | some g =>
      obtain ⟨h1, h2, -⟩ := readGas_safe hd g (alloc_sized hd.npart)
      have hle := get_le g.Coordinates (alloc_parts hd.npart).Pos hd.npart
      rw [← h2] at hle
      have := range_mapM_ne (f := fun ii => convert c (readGas hd g (alloc_parts hd.npart)).2 ii)
        (n := (readGas hd g (alloc_parts hd.npart)).1) (e := .outOfBounds) (fun i hi => convert_in c h1 (by omega))
      simp only [Int.toNat_natCast]
      cases hm : (List.range (readGas hd g (alloc_parts hd.npart)).1).mapM
          (fun ii => convert c (readGas hd g (alloc_parts hd.npart)).2 ii) with
      | error e => rw [hm] at this; simpa [bind, Except.bind] using this
      | ok r => simp [bind, Except.bind, pure, Except.pure, free_parts]

/-! ### Where it fails -/

theorem range_mapM_bad {α : Type} {f : ℕ → CRes α} {n : ℕ} {e : CErr} (hn : 0 < n) (h : f 0 = .error e) :
    (List.range n).mapM f = .error e := by
  obtain ⟨m, rfl⟩ : ∃ m, n = m + 1 := ⟨n - 1, by omega⟩
  rw [List.range_succ_eq_map, List.mapM_cons, h]
  rfl

/-- A file with the group changed. -/
def HFile.withGas (f : HFile) (k : Gas → Gas) : HFile := { f with gas := f.gas.map k }
/-- A file with the header changed. -/
def HFile.withHeader (f : HFile) (k : Header → Header) : HFile := { f with header := f.header.map k }

/-- C96 fails without velocities: the file is not skipped and the program does not stop, it goes on with densities, energies and
all the rest that were never read. -/
theorem no_velocities (c : Cosmo) {f : HFile} {ps : List Particle} (h : Holds f ps) (P : Mem) :
    oneFile c (HFile.withGas f (fun g => { g with Velocities := none })) P = .error .assertFailed := by
  obtain ⟨hd, g, h1, h2, h3, h4, h5, h6, h7⟩ := h
  have hl : ps.length ≠ 0 := by simpa using h4
  have e1 := get_whole (ps.map (·.pos)) (alloc_parts hd.npart).Pos (n := hd.npart) (by simpa using h3)
  rw [List.length_map] at e1
  have e : readGas hd { g with Velocities := none } (alloc_parts hd.npart) = (ps.length, { alloc_parts hd.npart with
      Pos := (ps.map (·.pos)).map some ++ (alloc_parts hd.npart).Pos.drop ps.length }) := by
    unfold readGas
    dsimp only
    rw [h7.pos, e1]
    simp only [if_neg hl]
    have : get_dataset (none : Option (Dataset Vec3)) (alloc_parts hd.npart).Vel ps.length = (0, (alloc_parts hd.npart).Vel) := rfl
    rw [this]
    simp only [ne_eq, hl, not_false_eq_true, if_true]
  unfold oneFile load_hdf5_snapshot HFile.withGas
  rw [h1, h2]
  simp only [Option.map_some, e, Int.toNat_natCast]
  rw [range_mapM_bad (by omega) (e := .assertFailed)]
  · rfl
  · unfold convert alloc_parts
    dsimp only
    have : readSet (List.replicate hd.npart (none : Option ℝ)) 0 = .error .assertFailed := by
      unfold readSet
      rw [List.getElem?_replicate, if_pos (by omega)]
    rw [this]
    rfl

/-- C96 fails if the header says that cooling was off: the number of electrons and the neutral fraction are used though they were
never read. -/
theorem no_cooling (c : Cosmo) {f : HFile} {ps : List Particle} (h : Holds f ps) (hdens : ∀ g, f.gas = some g → g.Density = whole (ps.map (·.rho)))
    (P : Mem) : oneFile c (HFile.withHeader f (fun hd => { hd with flag_cooling := 0 })) P = .error .assertFailed := by
  obtain ⟨hd, g, h1, h2, h3, h4, h5, h6, h7⟩ := h
  have hl : ps.length ≠ 0 := by simpa using h4
  obtain ⟨rh, hrh⟩ := readH_holds h7.size (alloc_parts hd.npart).h
  have e1 := get_whole (ps.map (·.pos)) (alloc_parts hd.npart).Pos (n := hd.npart) (by simpa using h3)
  have e2 := get_whole (ps.map (·.vel)) (alloc_parts hd.npart).Vel (n := ps.length) (by simp)
  have e3 := get_whole (ps.map (·.u)) (alloc_parts hd.npart).U (n := ps.length) (by simp)
  have e6 := get_whole (ps.map (·.rho)) (alloc_parts hd.npart).Mass (n := ps.length) (by simp)
  rw [List.length_map] at e1 e2 e3 e6
  have em : readMass { hd with flag_cooling := 0 } g ps.length (alloc_parts hd.npart).Mass =
      (true, false, (ps.map (·.rho)).map some ++ (alloc_parts hd.npart).Mass.drop ps.length) := by
    unfold readMass
    rw [if_neg (by simpa using h5), hdens g h2, e6]
    simp
  have e : ∃ a, readGas { hd with flag_cooling := 0 } g (alloc_parts hd.npart) = (ps.length, a) ∧
      a.fraction = (alloc_parts hd.npart).fraction ∧ a.Ne = (alloc_parts hd.npart).Ne ∧
      (∃ r, a.Mass = (ps.map (·.rho)).map some ++ r) ∧ (∃ r, a.U = (ps.map (·.u)).map some ++ r) := by
    refine ⟨{ alloc_parts hd.npart with
      Pos := (ps.map (·.pos)).map some ++ (alloc_parts hd.npart).Pos.drop ps.length
      Vel := (ps.map (·.vel)).map some ++ (alloc_parts hd.npart).Vel.drop ps.length
      U := (ps.map (·.u)).map some ++ (alloc_parts hd.npart).U.drop ps.length
      h := ps.map (fun p => some p.h) ++ rh
      Mass := (ps.map (·.rho)).map some ++ (alloc_parts hd.npart).Mass.drop ps.length }, ?_, rfl, rfl, ⟨_, rfl⟩, ⟨_, rfl⟩⟩
    unfold readGas
    dsimp only
    rw [h7.pos, e1]
    simp only [if_neg hl]
    rw [h7.vel, e2]
    simp only [ne_eq, not_true_eq_false, if_false]
    rw [em]
    simp only [Bool.true_eq_false, if_false]
    rw [h7.energy, e3]
    simp only [not_true_eq_false, if_false]
    have ec : ∀ ne fraction : List (Option ℝ), readCool { hd with flag_cooling := 0 } g ps.length ne fraction = (true, ne, fraction) := by
      intro ne fraction
      unfold readCool
      simp
    rw [ec]
    simp only [Bool.true_eq_false, if_false]
    rw [hrh]
    simp only [Bool.true_eq_false, Bool.false_eq_true, if_false]
  obtain ⟨a, e, ea1, ea2, ⟨r1, ea3⟩, ⟨r2, ea4⟩⟩ := e
  have hnone : ∀ b : List (Option ℝ), b = List.replicate hd.npart none → readSet b 0 = .error .assertFailed := by
    intro b hb
    unfold readSet
    rw [hb, List.getElem?_replicate, if_pos (by omega)]
  unfold oneFile load_hdf5_snapshot HFile.withHeader
  rw [h1, h2]
  simp only [Option.map_some, e, Int.toNat_natCast]
  rw [range_mapM_bad (by omega) (e := .assertFailed)]
  · rfl
  · unfold convert
    obtain ⟨p, ps', rfl⟩ := List.exists_cons_of_ne_nil h4
    have hm : readSet a.Mass 0 = .ok p.rho := by
      rw [ea3]
      rfl
    have hu : readSet a.U 0 = .ok p.u := by
      rw [ea4]
      rfl
    rw [hm, hu, hnone a.fraction ea1, hnone a.Ne ea2]
    simp only [bind, Except.bind]
    split_ifs <;> rfl

/-- The particle with another density. -/
def Particle.withRho (m : ℝ) (p : Particle) : Particle := { p with rho := m }

/-- What is passed on of a particle, but for the length of its kernel, which is unknown. -/
def noLength (x : Handed) : Handed := { x with h := none }

/-- C96 fails if the header gives the mass of all particles: the mass is taken for the density. -/
theorem mass_table (c : Cosmo) {f : HFile} {ps : List Particle} (h : Holds f ps) {m : ℝ} (hm : m ≠ 0) (P : Mem) :
    oneFile c (HFile.withHeader f (fun hd => { hd with mass := m })) P =
      .ok (ps.map (fun p => expected c (p.withRho m)), .wild) := by
  obtain ⟨hd, g, h1, h2, h3, h4, h5, h6, h7⟩ := h
  have hl : ps.length ≠ 0 := by simpa using h4
  obtain ⟨rh, hrh⟩ := readH_holds h7.size (alloc_parts hd.npart).h
  have e1 := get_whole (ps.map (·.pos)) (alloc_parts hd.npart).Pos (n := hd.npart) (by simpa using h3)
  have e2 := get_whole (ps.map (·.vel)) (alloc_parts hd.npart).Vel (n := ps.length) (by simp)
  have e3 := get_whole (ps.map (·.u)) (alloc_parts hd.npart).U (n := ps.length) (by simp)
  rw [List.length_map] at e1 e2 e3
  have em : readMass { hd with mass := m } g ps.length (alloc_parts hd.npart).Mass =
      (true, false, List.replicate ps.length (some m) ++ (alloc_parts hd.npart).Mass.drop ps.length) := by
    unfold readMass
    rw [if_pos (by simpa using hm)]
  have e : ∃ a, readGas { hd with mass := m } g (alloc_parts hd.npart) = (ps.length, a) ∧
      Filled a (ps.map (Particle.withRho m)) := by
    refine ⟨{ alloc_parts hd.npart with
      Pos := (ps.map (·.pos)).map some ++ (alloc_parts hd.npart).Pos.drop ps.length
      Vel := (ps.map (·.vel)).map some ++ (alloc_parts hd.npart).Vel.drop ps.length
      U := (ps.map (·.u)).map some ++ (alloc_parts hd.npart).U.drop ps.length
      Ne := (ps.map (·.ne)).map some ++ (alloc_parts hd.npart).Ne.drop ps.length
      fraction := (ps.map (·.xHI)).map some ++ (alloc_parts hd.npart).fraction.drop ps.length
      h := ps.map (fun p => some p.h) ++ rh
      Mass := List.replicate ps.length (some m) ++ (alloc_parts hd.npart).Mass.drop ps.length }, ?_, ?_⟩
    · unfold readGas
      dsimp only
      rw [h7.pos, e1]
      simp only [if_neg hl]
      rw [h7.vel, e2]
      simp only [ne_eq, not_true_eq_false, if_false]
      rw [em]
      simp only [Bool.true_eq_false, if_false]
      rw [h7.energy, e3]
      simp only [not_true_eq_false, if_false]
      rw [readCool_holds (hd := { hd with mass := m }) h6 h7.ne h7.xHI]
      simp only [Bool.true_eq_false, if_false]
      rw [hrh]
      simp only [Bool.true_eq_false, Bool.false_eq_true, if_false]
    · constructor <;> simp [List.map_map, Function.comp_def, Particle.withRho]
  obtain ⟨a, e, hf⟩ := e
  obtain ⟨p0, hp0⟩ := List.exists_mem_of_ne_nil ps h4
  unfold oneFile load_hdf5_snapshot HFile.withHeader
  rw [h1, h2]
  simp only [Option.map_some, e, Int.toNat_natCast]
  rw [mapM_range (g := fun i => expected c ((ps.getD i p0).withRho m)) (fun i hi => by
    rw [convert_filled c hf (by simpa using hi)]
    simp [List.getD, List.getElem?_eq_getElem hi])]
  rw [map_range_get (fun p => expected c (Particle.withRho m p)) ps p0]
  rfl

/-- C96 fails if the smoothing lengths are missing: the interpolator is given the particles with lengths that were never read. -/
theorem no_size (c : Cosmo) {f : HFile} {ps : List Particle} (h : Holds f ps) (hdens : ∀ g, f.gas = some g → g.Density = whole (ps.map (·.rho)))
    (P : Mem) : oneFile c (HFile.withGas f (fun g => { g with Volume := none, SmoothingLength := none })) P =
      .ok (ps.map (fun p => noLength (expected c p)), .wild) := by
  obtain ⟨hd, g, h1, h2, h3, h4, h5, h6, h7⟩ := h
  have hl : ps.length ≠ 0 := by simpa using h4
  have e1 := get_whole (ps.map (·.pos)) (alloc_parts hd.npart).Pos (n := hd.npart) (by simpa using h3)
  have e2 := get_whole (ps.map (·.vel)) (alloc_parts hd.npart).Vel (n := ps.length) (by simp)
  have e3 := get_whole (ps.map (·.u)) (alloc_parts hd.npart).U (n := ps.length) (by simp)
  have e6 := get_whole (ps.map (·.rho)) (alloc_parts hd.npart).Mass (n := ps.length) (by simp)
  rw [List.length_map] at e1 e2 e3 e6
  obtain ⟨g', hg'⟩ : ∃ g' : Gas, { g with Volume := none, SmoothingLength := none } = g' := ⟨_, rfl⟩
  have p1 : g'.Coordinates = whole (ps.map (·.pos)) := hg' ▸ h7.pos
  have p2 : g'.Velocities = whole (ps.map (·.vel)) := hg' ▸ h7.vel
  have p3 : g'.InternalEnergy = whole (ps.map (·.u)) := hg' ▸ h7.energy
  have p4 : g'.ElectronAbundance = whole (ps.map (·.ne)) := hg' ▸ h7.ne
  have p5 : g'.NeutralHydrogenAbundance = whole (ps.map (·.xHI)) := hg' ▸ h7.xHI
  have p6 : g'.Density = whole (ps.map (·.rho)) := hg' ▸ hdens g h2
  have p7 : g'.Volume = none := hg' ▸ rfl
  have p8 : g'.SmoothingLength = none := hg' ▸ rfl
  have em : readMass hd g' ps.length (alloc_parts hd.npart).Mass =
      (true, false, (ps.map (·.rho)).map some ++ (alloc_parts hd.npart).Mass.drop ps.length) := by
    unfold readMass
    rw [if_neg (by simpa using h5), p6, e6]
    simp
  have eh : readH g' ps.length (alloc_parts hd.npart).h =
      (false, (alloc_parts hd.npart).h) := by
    unfold readH
    rw [p7, p8]
    simp [get_dataset, hl]
  set a : Arrays := { alloc_parts hd.npart with
      Pos := (ps.map (·.pos)).map some ++ (alloc_parts hd.npart).Pos.drop ps.length
      Vel := (ps.map (·.vel)).map some ++ (alloc_parts hd.npart).Vel.drop ps.length
      U := (ps.map (·.u)).map some ++ (alloc_parts hd.npart).U.drop ps.length
      Ne := (ps.map (·.ne)).map some ++ (alloc_parts hd.npart).Ne.drop ps.length
      fraction := (ps.map (·.xHI)).map some ++ (alloc_parts hd.npart).fraction.drop ps.length
      Mass := (ps.map (·.rho)).map some ++ (alloc_parts hd.npart).Mass.drop ps.length } with ha
  have e : readGas hd g' (alloc_parts hd.npart) = (ps.length, a) := by
    unfold readGas
    dsimp only
    rw [p1, e1]
    simp only [if_neg hl]
    rw [p2, e2]
    simp only [ne_eq, not_true_eq_false, if_false]
    rw [em]
    simp only [Bool.true_eq_false, if_false]
    rw [p3, e3]
    simp only [not_true_eq_false, if_false]
    rw [readCool_holds h6 p4 p5]
    simp only [Bool.true_eq_false, if_false]
    rw [eh, ha]
    simp only [if_true]
  -- the same arrays with the lengths filled in
  have hf : Filled { a with h := ps.map (fun p => some p.h) } ps := by
    constructor <;> simp [ha, List.map_map, Function.comp_def]
  have hconv : ∀ i (hi : i < ps.length), convert c a i = .ok (noLength (expected c ps[i])) := by
    intro i hi
    refine convert_eq c ps[i] (prefix_get hf.mass hi) (prefix_get hf.fraction hi) (prefix_get hf.u hi) (prefix_get hf.ne hi)
      (prefix_get hf.pos hi) (prefix_get hf.vel hi) ?_
    rw [ha]
    unfold alloc_parts
    dsimp only
    rw [List.getElem?_replicate, if_pos (by omega)]
  obtain ⟨p0, hp0⟩ := List.exists_mem_of_ne_nil ps h4
  unfold oneFile load_hdf5_snapshot HFile.withGas
  rw [h1, h2]
  simp only [Option.map_some, hg', e, Int.toNat_natCast]
  rw [mapM_range (g := fun i => noLength (expected c (ps.getD i p0))) (fun i hi => by
    rw [hconv i hi]
    simp [List.getD, List.getElem?_eq_getElem hi])]
  rw [map_range_get (fun p => noLength (expected c p)) ps p0]
  rfl

/-- C96 fails for coordinates in double precision: none of the particles of the file are used, and the program goes on. -/
theorem double_precision (c : Cosmo) {f : HFile} {hd : Header} {g : Gas} {d : Dataset Vec3} (h1 : f.header = some hd)
    (h2 : f.gas = some g) (h3 : g.Coordinates = some d) (h4 : d.float4 = false) (P : Mem) : oneFile c f P = .ok ([], .wild) := by
  have e : get_dataset g.Coordinates (alloc_parts hd.npart).Pos hd.npart = (0, (alloc_parts hd.npart).Pos) := by
    rw [h3]
    unfold get_dataset
    simp [h4]
  have e2 : (readGas hd g (alloc_parts hd.npart)).1 = 0 := by
    rw [(readGas_safe hd g (alloc_sized hd.npart)).2.1, e]
  unfold oneFile load_hdf5_snapshot
  rw [h1, h2]
  simp only [e2]
  rfl

/-- C96 fails for a file whose header cannot be read: it is not skipped, memory is freed that was not allocated (or a second time). -/
theorem broken_header (c : Cosmo) {f : HFile} (h : f.header = none) : oneFile c f .wild = .error .assertFailed := by
  unfold oneFile load_hdf5_snapshot
  rw [h]
  rfl

/-- This also happens after files that are in order. -/
theorem broken_header_later (c : Cosmo) {fs : List HFile} {pss : List (List Particle)} (h : List.Forall₂ Holds fs pss)
    {f : HFile} (hf : f.header = none) (rest : List HFile) : allFiles c (fs ++ f :: rest) .wild = .error .assertFailed := by
  induction h with
  | nil =>
    rw [List.nil_append, allFiles, broken_header c hf]
    rfl
  | cons h _ ih =>
    rw [List.cons_append, allFiles, file_read_partial c h]
    simp only [bind, Except.bind]
    rw [ih]

/-- A file with two particles. -/
noncomputable def twoParts : List Particle :=
  [⟨fun _ => 1, fun _ => 2, 1e-5, 3, 1, 1e-6, 5⟩, ⟨fun _ => 7, fun _ => -2, 2e-5, 4, 1, 1e-6, 6⟩]

/-- The file. -/
noncomputable def twoFile : HFile :=
  ⟨some ⟨2, 0, 1⟩, some {
    Coordinates := whole (twoParts.map (·.pos)), Velocities := whole (twoParts.map (·.vel)),
    Density := none, Masses := whole (twoParts.map (fun p => p.rho * p.h ^ 3)), InternalEnergy := whole (twoParts.map (·.u)),
    ElectronAbundance := whole (twoParts.map (·.ne)), NeutralHydrogenAbundance := whole (twoParts.map (·.xHI)), Volume := none,
    SmoothingLength := whole (twoParts.map (fun p => 2 * p.h)) }⟩

/-- The hypotheses of `file_read_partial` and of the theorems on changed files hold for it. -/
example : Holds twoFile twoParts :=
  ⟨_, _, rfl, rfl, by simp [twoParts], by simp [twoParts], rfl, by simp,
    ⟨rfl, rfl, Or.inr ⟨rfl, rfl, by simp [twoParts]⟩, rfl, rfl, rfl, Or.inl ⟨rfl, rfl⟩⟩⟩

/-- Several files. -/
example (c : Cosmo) : allFiles c [twoFile, twoFile] .wild = .ok [twoParts.map (expected c), twoParts.map (expected c)] :=
  have h : Holds twoFile twoParts := ⟨_, _, rfl, rfl, by simp [twoParts], by simp [twoParts], rfl, by simp,
    ⟨rfl, rfl, Or.inr ⟨rfl, rfl, by simp [twoParts]⟩, rfl, rfl, rfl, Or.inl ⟨rfl, rfl⟩⟩⟩
  files_read_partial c (.cons h (.cons h .nil)) .wild

/-- A gas group with volumes and densities. -/
example : ∃ g ps, HoldsGas g ps ∧ g.Density = whole (ps.map (·.rho)) ∧ ps.length = 1 :=
  ⟨{ Coordinates := whole [fun _ => 1], Velocities := whole [fun _ => 2], Density := whole [1], Masses := none,
      InternalEnergy := whole [3], ElectronAbundance := whole [1], NeutralHydrogenAbundance := whole [1], Volume := whole [8],
      SmoothingLength := none },
    [⟨fun _ => 1, fun _ => 2, 1, 3, 1, 1, (8 : ℝ) ^ (0.33333333 : ℝ)⟩],
    ⟨rfl, rfl, Or.inl rfl, rfl, rfl, rfl, Or.inr ⟨[8], rfl, rfl⟩⟩, rfl, rfl⟩

/-! ### The same particles as for the Python interface -/

/-- A particle of an HDF5 snapshot with smoothing lengths as the Python interface sees it: its readers (`hdf5_get_velocity`,
`get_smooth_length`), gas properties and primordial mass fraction. -/
noncomputable def pyRaw (o : Gas.Obj) (atime : ℝ) (p : Particle) : ComputeSpectra.Raw where
  pos := p.pos
  vel := fun k => p.vel k * √atime
  h := 2 * p.h / 2
  den := o.get_code_rhoH (fun _ => p.rho) 0
  massFrac := 0.76
  temp := Units.snapTemp o.units 0.76 p.u p.ne
  nHI := o.get_reproc_HI (fun _ => p.rho) (fun _ => p.xHI) 0

/-- What the interpolator gets of it from the Python interface, for the neutral hydrogen of an object with `rscale` of the snapshot. -/
noncomputable def pyPart (c : ComputeSpectra.Config) (o : Gas.Obj) (atime : ℝ) (p : Particle) : PartInt.Part :=
  ComputeSpectra.toPart c (pyRaw o atime p) (ComputeSpectra.elemDen c (pyRaw o atime p) * (pyRaw o atime p).nHI)
    (ComputeSpectra.fixTemp (pyRaw o atime p).temp)

/-- The Python object and the extractor are about the same snapshot in the default units. -/
structure SameSnapshot (c : Cosmo) (cfg : ComputeSpectra.Config) (o : Gas.Obj) : Prop where
  units : o.units = Units.gadget
  hubble : o.hubble = c.h100
  redshift : 1 + o.redshift = 1 / c.atime
  rscale : cfg.rscale = Units.gadget.UnitLength_in_cm * c.atime / c.h100
  mass : cfg.amumass = 1.00794

/-- C97 (partial: for gas below the densities of star formation of both, and with snapshots that store smoothing lengths; see
`velocity_differs` for the velocities). The extractor and the Python interface give the interpolator the same position, density of
neutral hydrogen and kernel length for every particle, and the same temperature but for the value of Boltzmann's constant. -/
theorem same_particles_partial {c : Cosmo} {cfg : ComputeSpectra.Config} {o : Gas.Obj} (hs : SameSnapshot c cfg o) (p : Particle)
    (hlow : nH c p ≤ 0.12948869200298072) (hlow' : o.sf_neutral = true → p.rho ≤ o.PhysDensThresh / 0.76 / o.conv)
    (hu : 0 < p.u) (hne : 0 ≤ p.ne) :
    some (pyPart cfg o c.atime p).pos = (expected c p).pos ∧ some (pyPart cfg o c.atime p).h = (expected c p).h ∧
      (pyPart cfg o c.atime p).dens = (expected c p).dens ∧
      (pyPart cfg o c.atime p).temp * 1.38066e-16 = (expected c p).temp * 1.3806504e-16 := by
  refine ⟨rfl, ?_, ?_, ?_⟩
  · show some (2 * p.h / 2) = some p.h
    congr 1
    ring
  · have hn : (pyRaw o c.atime p).nHI = p.xHI := by
      show o.get_reproc_HI (fun _ => p.rho) (fun _ => p.xHI) 0 = p.xHI
      unfold Gas.Obj.get_reproc_HI
      split_ifs with h1
      · dsimp only
        rw [if_neg (not_lt.2 (hlow' h1))]
      · rfl
    show ComputeSpectra.elemDen cfg (pyRaw o c.atime p) * (pyRaw o c.atime p).nHI / cfg.amumass = nHI c p * (3.085678e21 * c.atime / c.h100)
    rw [hn]
    unfold ComputeSpectra.elemDen nHI
    rw [if_pos hlow]
    show o.get_code_rhoH (fun _ => p.rho) 0 * cfg.rscale * 0.76 * p.xHI / cfg.amumass = _
    unfold Gas.Obj.get_code_rhoH Gas.Obj.conv nH
    rw [hs.rscale, hs.mass, hs.units, hs.hubble, hs.redshift]
    unfold Units.UnitSystem.UnitDensity_in_cgs Units.gadget Units.protonmass
    dsimp only
    ring
  · show ComputeSpectra.fixTemp (Units.snapTemp o.units 0.76 p.u p.ne) * 1.38066e-16 = temperature p * 1.3806504e-16
    have hpos : 0 < 0.76 * (3 + 4 * p.ne) + 1 := by positivity
    have ht : Units.snapTemp o.units 0.76 p.u p.ne * 1.38066e-16 = temperature p * 1.3806504e-16 := by
      rw [hs.units]
      unfold Units.snapTemp temperature Units.gamma Units.protonmass Units.boltzmann Units.UnitSystem.UnitInternalEnergy_in_cgs
        Units.gadget
      dsimp only
      field_simp
      ring
    have hpos2 : 0 < Units.snapTemp o.units 0.76 p.u p.ne := by
      have : 0 < temperature p := by
        unfold temperature
        positivity
      nlinarith
    unfold ComputeSpectra.fixTemp
    rw [if_neg (not_le.2 hpos2)]
    exact ht

/-- C97 fails for the velocities: the extractor uses those of the file, without the factor by which the Python interface turns them into
peculiar velocities. They agree only for particles at rest or at redshift 0. -/
theorem velocity_differs {c : Cosmo} (cfg : ComputeSpectra.Config) (o : Gas.Obj) (p : Particle) (k : Fin 3) :
    ∃ v, (expected c p).vel = some v ∧ (pyPart cfg o c.atime p).vel k = v k * √c.atime ∧
      ((pyPart cfg o c.atime p).vel k = v k ↔ p.vel k = 0 ∨ c.atime = 1) := by
  refine ⟨p.vel, rfl, rfl, ?_⟩
  show p.vel k * √c.atime = p.vel k ↔ _
  constructor
  · intro h
    by_cases hv : p.vel k = 0
    · exact Or.inl hv
    · right
      have : √c.atime = 1 := mul_left_cancel₀ hv (h.trans (mul_one _).symm)
      rwa [Real.sqrt_eq_one] at this
  · rintro (h | h)
    · simp [h]
    · simp [h]

/-- C97. The two have the same velocity scale, for the expansion of a flat universe; in the extractor it is also right for others. -/
theorem same_velfac {atime h100 Om OL : ℝ} (ha : 0 < atime) (hflat : Om + OL = 1) :
    mainVelfac atime h100 (headerHz h100 Om OL atime) =
      Construct.velfacOf Units.gadget.UnitLength_in_cm atime h100 (Construct.hubbleAt h100 Om OL atime) := by
  have h : Real.sqrt (1 + Om * (1 / atime - 1) + OL * (atime ^ 2 - 1)) / atime = Real.sqrt (Om / atime ^ 3 + OL) := by
    rw [div_eq_iff ha.ne', ← Real.sqrt_sq ha.le, ← Real.sqrt_mul' _ (sq_nonneg _), Real.sqrt_sq ha.le]
    congr 1
    have : OL = 1 - Om := by linarith
    subst this
    field_simp
    ring
  unfold mainVelfac headerHz Construct.velfacOf Construct.hubbleAt Units.gadget
  rw [← h]
  dsimp only
  ring

/-- C97. The expansion rate of the extractor is that of the Friedmann equation, with curvature. -/
theorem headerHz_friedmann {atime h100 Om OL : ℝ} (ha : 0 < atime) (hh : 0 < h100)
    (hpos : 0 ≤ Om / atime ^ 3 + (1 - Om - OL) / atime ^ 2 + OL) :
    headerHz h100 Om OL atime ^ 2 = (100 * h100) ^ 2 * (Om / atime ^ 3 + (1 - Om - OL) / atime ^ 2 + OL) := by
  have e : 1 + Om * (1 / atime - 1) + OL * (atime ^ 2 - 1) = (Om / atime ^ 3 + (1 - Om - OL) / atime ^ 2 + OL) * atime ^ 2 := by
    field_simp
    ring
  unfold headerHz
  rw [div_pow, mul_pow, Real.sq_sqrt (by rw [e]; positivity), e]
  field_simp

/-- A curved universe: the two velocity scales differ. -/
theorem velfac_curved : mainVelfac (1 / 2) 1 (headerHz 1 (1 / 4) 0 (1 / 2)) ≠
    Construct.velfacOf Units.gadget.UnitLength_in_cm (1 / 2) 1 (Construct.hubbleAt 1 (1 / 4) 0 (1 / 2)) := by
  unfold mainVelfac headerHz Construct.velfacOf Construct.hubbleAt Units.gadget
  dsimp only
  intro h
  have h1 : Real.sqrt (1 + 1 / 4 * (1 / (1 / 2) - 1) + 0 * ((1 / 2 : ℝ) ^ 2 - 1)) * 2 = Real.sqrt (1 / 4 / (1 / 2) ^ 3 + 0) := by
    norm_num at h ⊢
    linarith
  have h2 := congrArg (· ^ 2) h1
  simp only [mul_pow] at h2
  rw [Real.sq_sqrt (by norm_num), Real.sq_sqrt (by norm_num)] at h2
  norm_num at h2

/-- C97. Below 0.129 atoms in a cubic centimetre the neutral fraction is that of the snapshot, above it the gas is neutral in the
extractor; the Python interface uses the formula of Rahmati et al. above its own threshold. This is the density of the extractor. -/
theorem dense_gas_neutral (c : Cosmo) (p : Particle) (h : 0.12948869200298072 < nH c p) :
    (expected c p).dens = nH c p * (3.085678e21 * c.atime / c.h100) := by
  unfold expected nHI
  rw [if_neg (not_le.2 h)]

/-- The hypotheses of `same_particles_partial` hold: an object for a snapshot at redshift 3. -/
noncomputable def exObj : Gas.Obj := ⟨Units.gadget, 0.17, 3, false, none, 0.7, 0.1⟩

example : ∃ (c : Cosmo) (cfg : ComputeSpectra.Config) (p : Particle), SameSnapshot c cfg exObj ∧ nH c p ≤ 0.12948869200298072 ∧
    (exObj.sf_neutral = true → p.rho ≤ exObj.PhysDensThresh / 0.76 / exObj.conv) ∧ 0 < p.u ∧ 0 ≤ p.ne ∧ 0 < p.rho := by
  refine ⟨⟨1 / 4, 0.7⟩, ⟨⟨fun _ _ => 0, 0, 0, 0, 0, 0, 0, 0⟩, 1, 1, [], Units.gadget.UnitLength_in_cm * (1 / 4) / 0.7, 1.00794, .HI⟩,
    ⟨fun _ => 1, fun _ => 2, 1e-9, 3, 1, 1e-6, 5⟩, ⟨rfl, rfl, by norm_num [exObj], rfl, rfl⟩, ?_, by simp [exObj], by norm_num, by norm_num,
    by norm_num⟩
  unfold nH
  norm_num

/-! The theorems on one file at work on `twoFile`, and the expansion at redshift 3. -/

theorem twoFile_holds : Holds twoFile twoParts :=
  ⟨_, _, rfl, rfl, by simp [twoParts], by simp [twoParts], rfl, by simp,
    ⟨rfl, rfl, Or.inr ⟨rfl, rfl, by simp [twoParts]⟩, rfl, rfl, rfl, Or.inl ⟨rfl, rfl⟩⟩⟩

example (c : Cosmo) (P : Mem) := file_read_partial c twoFile_holds P

example (c : Cosmo) (P : Mem) := no_gas_skipped c (f := ⟨some ⟨2, 0, 1⟩, none⟩) rfl rfl P

example (c : Cosmo) (P : Mem) := no_velocities c twoFile_holds P

example (c : Cosmo) (P : Mem) := mass_table c twoFile_holds (m := 3) (by norm_num) P

/-- One particle with a volume and a density. -/
noncomputable def denseFile : HFile :=
  ⟨some ⟨1, 0, 1⟩, some {
    Coordinates := whole [fun _ => 1], Velocities := whole [fun _ => 2], Density := whole [1], Masses := none,
    InternalEnergy := whole [3], ElectronAbundance := whole [1], NeutralHydrogenAbundance := whole [1], Volume := whole [8],
    SmoothingLength := none }⟩

theorem denseFile_holds : Holds denseFile [⟨fun _ => 1, fun _ => 2, 1, 3, 1, 1, (8 : ℝ) ^ (0.33333333 : ℝ)⟩] :=
  ⟨_, _, rfl, rfl, by simp, by simp, rfl, by simp, ⟨rfl, rfl, Or.inl rfl, rfl, rfl, rfl, Or.inr ⟨[8], rfl, rfl⟩⟩⟩

example (c : Cosmo) (P : Mem) := no_cooling c denseFile_holds (by rintro g hg; cases hg; rfl) P

example (c : Cosmo) (P : Mem) := no_size c denseFile_holds (by rintro g hg; cases hg; rfl) P

example (c : Cosmo) (P : Mem) := double_precision c
  (f := HFile.withGas denseFile (fun g => { g with Coordinates := some ⟨true, false, true, [fun _ => 1]⟩ })) rfl rfl rfl rfl P

example (c : Cosmo) := broken_header c (f := ⟨none, twoFile.gas⟩) rfl

example := same_velfac (atime := 1 / 4) (h100 := 0.7) (Om := 0.3) (OL := 0.7) (by norm_num) (by norm_num)

example := headerHz_friedmann (atime := 1 / 4) (h100 := 0.7) (Om := 0.3) (OL := 0.7) (by norm_num) (by norm_num) (by norm_num)

example (c : Cosmo) (hc : c = ⟨1 / 4, 0.7⟩) := same_particles_partial (c := c)
  (cfg := ⟨⟨fun _ _ => 0, 0, 0, 0, 0, 0, 0, 0⟩, 1, 1, [], Units.gadget.UnitLength_in_cm * (1 / 4) / 0.7, 1.00794, .HI⟩) (o := exObj)
  (by subst hc; exact ⟨rfl, rfl, by norm_num [exObj], rfl, rfl⟩) ⟨fun _ => 1, fun _ => 2, 1e-9, 3, 1, 1e-6, 5⟩
  (by subst hc; norm_num [nH]) (by simp [exObj]) (by norm_num) (by norm_num)

end Verif.Props.CReader
