import Verif.Model.HandOff
import Verif.Props.RateGas
import Verif.Props.Construct

/-!
C114: the options for the gas reach the object that answers for densities, temperatures and neutral fractions.

`Chosen d k own v`: the dictionary `d` of a user gives `v` for the option `k`, or it does not name `k` and `v` is the value the
library has for it.
-/

namespace Verif.Props.HandOff

open Verif.Units Verif.HandOff

/-- The value of an option: the user's if they give one, otherwise the library's. -/
def Chosen (d : Dict) (k : String) (own v : Val) : Prop := (k, v) ∈ d ∨ ((∀ p ∈ d, p.1 ≠ k) ∧ v = own)

/-- The options the user gives. -/
def entries (args : Option Dict) : Dict := args.getD []

/-- No option is given twice: a Python dictionary. -/
def IsDict (d : Dict) : Prop := (d.map Prod.fst).Nodup

/-- The options of `GasProperties`. -/
def gasNames : List String := ["redshift", "absnap", "hubble", "fbar", "units", "sf_neutral"]

/-- The options of `RateNetworkGas`: those, and those of the network it solves. -/
def rateNames : List String :=
  gasNames ++ ["temp_factor", "gamma_factor", "photo_factor", "converge", "selfshield", "cool", "recomb", "collisional",
    "treecool_file"]

/-! Dictionaries. -/

theorem lookup_append (d e : Dict) (k : String) : lookup (d ++ e) k = (lookup d k).or (lookup e k) := by
  unfold lookup
  rw [List.find?_append]
  cases d.find? (fun p => p.1 == k) <;> simp

theorem lookup_given {d : Dict} (hd : IsDict d) {k : String} {v : Val} (h : (k, v) ∈ d) : lookup d k = some v := by
  induction d with
  | nil => simp at h
  | cons p d ih =>
    unfold IsDict at hd
    rw [List.map_cons, List.nodup_cons] at hd
    unfold lookup
    rw [List.find?_cons]
    rcases List.mem_cons.1 h with h | h
    · subst h; simp
    · have hne : p.1 ≠ k := fun he => hd.1 (he ▸ List.mem_map.2 ⟨(k, v), h, rfl⟩)
      have hb : (p.1 == k) = false := by simpa using hne
      rw [hb]
      exact ih hd.2 h

theorem lookup_missing {d : Dict} {k : String} (h : ∀ p ∈ d, p.1 ≠ k) : lookup d k = none := by
  unfold lookup
  rw [List.find?_eq_none.2 (fun p hp => by simpa using h p hp)]
  rfl

theorem chosen_own {d : Dict} (hd : IsDict d) {k : String} {own v : Val} (h : Chosen d k own v) {e : Dict}
    (he : lookup e k = some own) : lookup (d ++ e) k = some v := by
  rw [lookup_append]
  rcases h with h | ⟨h, rfl⟩
  · rw [lookup_given hd h]; rfl
  · rw [lookup_missing h, he]; rfl

theorem chosen_default {d : Dict} (hd : IsDict d) {k : String} {own v : Val} (h : Chosen d k own v) {e : Dict}
    (he : lookup e k = none) : (lookup (d ++ e) k).getD own = v := by
  rw [lookup_append]
  rcases h with h | ⟨h, rfl⟩
  · rw [lookup_given hd h]; rfl
  · rw [lookup_missing h, he]; rfl

theorem get_own (o : Self) (i : ℕ) (sf : Val) :
    lookup (ownArgs o i sf) "redshift" = some (.num o.red) ∧ lookup (ownArgs o i sf) "absnap" = some (.snapshot i) ∧
    lookup (ownArgs o i sf) "hubble" = some (.num o.hubble) ∧ lookup (ownArgs o i sf) "units" = some (.units o.units) ∧
    lookup (ownArgs o i sf) "sf_neutral" = some sf := by
  refine ⟨?_, ?_, ?_, ?_, ?_⟩ <;> rfl

theorem get_own_none (o : Self) (i : ℕ) (sf : Val) {k : String} (h : k ∉ ["redshift", "absnap", "hubble", "units", "sf_neutral"]) :
    lookup (ownArgs o i sf) k = none := by
  refine lookup_missing fun p hp => ?_
  rintro rfl
  apply h
  simp only [ownArgs, List.mem_cons, List.not_mem_nil, or_false] at hp
  rcases hp with rfl | rfl | rfl | rfl | rfl <;> simp

/-- The arguments of the call, whether or not the user gives a dictionary. -/
theorem handOff_some {G : Type} (cls : Dict → Py G) (o : Self) {i : ℕ} (hi : o.snap = some i) (sf : Val) (args : Option Dict) :
    handOff cls o sf args =
      match cls (entries args ++ ownArgs o i sf) with
      | .ok g => .ok (some g)
      | .error .attributeError => .ok none
      | .error e => .error e := by
  unfold handOff entries
  rw [hi]
  cases args <;> rfl

theorem init_eq {inp : Input} {o : Construct.Obj} (ho : inp.construct = .ok o) (cls : Option (Dict → Py GasObj)) (sf : Val)
    (args : Option Dict) :
    init inp cls sf args = (handOff (cls.getD gasProperties) ⟨o.red, o.hubble, inp.unitSystem, inp.snap.map Prod.fst⟩ sf args).map
      (fun g => ⟨o, inp.unitSystem, g⟩) := by
  unfold init
  rw [ho]
  simp only [bind, Except.bind, pure, Except.pure, Except.map]

theorem gas_call (d : Dict) (hn : ∀ p ∈ d, p.1 ∈ gasNames) (o : Self) (i : ℕ) (sf : Val) :
    call gasSig (d ++ ownArgs o i sf) =
      .ok (fun k => (lookup (d ++ ownArgs o i sf) k).getD ((gasSig.default k).getD .none),
        (d ++ ownArgs o i sf).filter (fun p => !gasSig.names.contains p.1)) := by
  unfold call
  rw [if_neg, if_neg]
  · have h := get_own o i sf
    simp [gasSig, lookup_append, h]
  · simp only [gasSig, Bool.not_false, Bool.true_and, List.any_eq_true, not_exists, not_and]
    intro p hp
    have : p.1 ∈ gasNames := by
      rcases List.mem_append.1 hp with hp | hp
      · exact hn p hp
      · simp only [ownArgs, List.mem_cons, List.not_mem_nil, or_false] at hp
        rcases hp with rfl | rfl | rfl | rfl | rfl <;> simp [gasNames]
    have h : gasSig.names = gasNames := rfl
    show ¬ (!gasSig.names.contains p.1) = true
    rw [h]
    simpa using this

theorem uvb_ok {z : ℝ} (hz : 0 ≤ z) : ∃ b, Gas.uvbAt z = .ok b := by
  have h := uvbAt_spec z
  by_cases h8 : z ≤ 8
  · obtain ⟨b, hb, -⟩ := h.1 hz h8
    exact ⟨_, hb⟩
  · exact ⟨_, h.2.1 (not_le.1 h8)⟩

/-! The gas properties of the code. -/

/-- What an option for the units means: a unit system, or `None` for the default one. -/
def UnitsAre (v : Val) (u : UnitSystem) : Prop := v = .units u ∨ (v = .none ∧ u = ⟨1.98892e43, 3.085678e21, 1e5⟩)

/-- C114: an object with a snapshot gets gas properties with the options the user gives, with the redshift, snapshot, Hubble
parameter, units and treatment of star-forming gas of the spectra where they give none, and a baryon fraction of 0.17. -/
theorem gas_options {inp : Input} {o : Construct.Obj} (ho : inp.construct = .ok o) {i : ℕ} (hi : inp.snap.map Prod.fst = some i)
    {args : Option Dict} (hd : IsDict (entries args)) (hn : ∀ p ∈ entries args, p.1 ∈ gasNames) {sf snap v : Val}
    {z h f : ℝ} {u : UnitSystem} {b : Bool}
    (hz : Chosen (entries args) "redshift" (.num o.red) (.num z)) (hs : Chosen (entries args) "absnap" (.snapshot i) snap)
    (hh : Chosen (entries args) "hubble" (.num o.hubble) (.num h)) (hf : Chosen (entries args) "fbar" (.num 0.17) (.num f))
    (hv : Chosen (entries args) "units" (.units inp.unitSystem) v) (hu : UnitsAre v u)
    (hb : Chosen (entries args) "sf_neutral" sf (.flag b)) (h0 : 0 ≤ z) :
    ∃ g, init inp none sf args = .ok ⟨o, inp.unitSystem, some (.code g snap)⟩ ∧ g.redshift = z ∧ g.hubble = h ∧ g.f_bar = f ∧
      g.units = u ∧ g.sf_neutral = b := by
  obtain ⟨uvb, huvb⟩ := uvb_ok h0
  have hu' : asUnits v = .ok u := by
    rcases hu with rfl | ⟨rfl, rfl⟩ <;> rfl
  have own := get_own ⟨o.red, o.hubble, inp.unitSystem, inp.snap.map Prod.fst⟩ i sf
  refine ⟨⟨u, f, z, b, uvb, h, Gas.rhoThresh u h h⟩, ?_, rfl, rfl, rfl, rfl, rfl⟩
  rw [init_eq ho, handOff_some _ _ hi, Option.getD_none]
  have e : gasProperties (entries args ++ ownArgs ⟨o.red, o.hubble, inp.unitSystem, inp.snap.map Prod.fst⟩ i sf) =
      .ok (.code ⟨u, f, z, b, uvb, h, Gas.rhoThresh u h h⟩ snap) := by
    unfold gasProperties gasArgs
    rw [gas_call _ hn]
    simp only [bind, Except.bind]
    rw [chosen_own hd hz own.1, chosen_own hd hs own.2.1, chosen_own hd hh own.2.2.1, chosen_own hd hv own.2.2.2.1,
      chosen_own hd hb own.2.2.2.2]
    rw [show ((gasSig.default "fbar").getD .none) = .num 0.17 from rfl,
      chosen_default hd hf (get_own_none _ _ _ (by decide))]
    simp only [Option.getD_some, asNum, huvb, hu', Gas.Obj.init, bind, Except.bind, pure, Except.pure, truth]
  rw [e]
  rfl

/-- C114: an option that `GasProperties` does not have is refused. -/
theorem unknown_option {inp : Input} {o : Construct.Obj} (ho : inp.construct = .ok o) {i : ℕ}
    (hi : inp.snap.map Prod.fst = some i) {args : Option Dict} {k : String} {v : Val} (hk : (k, v) ∈ entries args)
    (hn : k ∉ gasNames) (sf : Val) : init inp none sf args = .error .typeError := by
  rw [init_eq ho, handOff_some _ _ hi, Option.getD_none]
  have e : call gasSig (entries args ++ ownArgs ⟨o.red, o.hubble, inp.unitSystem, inp.snap.map Prod.fst⟩ i sf) =
      .error .typeError := by
    unfold call
    rw [if_pos]
    simp only [gasSig, Bool.not_false, Bool.true_and, List.any_eq_true]
    refine ⟨(k, v), List.mem_append_left _ hk, ?_⟩
    simpa [Sig.names, gasNames] using hn
  unfold gasProperties
  rw [e]
  rfl

/-- C114, finding: a wrong value for the units is an `AttributeError`, which the constructor takes for a missing snapshot. The
object is made without gas properties. -/
theorem units_hidden {inp : Input} {o : Construct.Obj} (ho : inp.construct = .ok o) {i : ℕ} (hi : inp.snap.map Prod.fst = some i)
    {args : Option Dict} (hd : IsDict (entries args)) (hn : ∀ p ∈ entries args, p.1 ∈ gasNames) {v : Val}
    (hv : ("units", v) ∈ entries args) (hu : ∀ u, ¬ UnitsAre v u) {z : ℝ}
    (hz : Chosen (entries args) "redshift" (.num o.red) (.num z)) (h0 : 0 ≤ z) (sf : Val) :
    ∃ s, init inp none sf args = .ok s ∧ ∀ (density : ℕ → ℝ) (j : ℕ), s.get_code_rhoH density j = .error .attributeError := by
  obtain ⟨uvb, huvb⟩ := uvb_ok h0
  refine ⟨⟨o, inp.unitSystem, none⟩, ?_, fun _ _ => rfl⟩
  have hu' : asUnits v = .error .attributeError := by
    cases v with
    | none => exact absurd (.inr ⟨rfl, rfl⟩) (hu ⟨1.98892e43, 3.085678e21, 1e5⟩)
    | units u => exact absurd (.inl rfl) (hu u)
    | _ => rfl
  have own := get_own ⟨o.red, o.hubble, inp.unitSystem, inp.snap.map Prod.fst⟩ i sf
  rw [init_eq ho, handOff_some _ _ hi, Option.getD_none]
  have e : gasProperties (entries args ++ ownArgs ⟨o.red, o.hubble, inp.unitSystem, inp.snap.map Prod.fst⟩ i sf) =
      .error .attributeError := by
    unfold gasProperties gasArgs
    rw [gas_call _ hn]
    simp only [bind, Except.bind]
    rw [chosen_own hd hz own.1, chosen_own hd (.inl hv) own.2.2.2.1]
    simp only [Option.getD_some, asNum, huvb, hu']
  rw [e]
  rfl

/-- C114: without a snapshot every class and every option is accepted; a query for the gas then fails. -/
theorem no_snapshot {inp : Input} {o : Construct.Obj} (ho : inp.construct = .ok o) (hi : inp.snap = none)
    (cls : Option (Dict → Py GasObj)) (sf : Val) (args : Option Dict) :
    ∃ s, init inp cls sf args = .ok s ∧ s.obj = o ∧
      ∀ (density : ℕ → ℝ) (j : ℕ), s.get_code_rhoH density j = .error .attributeError := by
  refine ⟨⟨o, inp.unitSystem, none⟩, ?_, rfl, fun _ _ => rfl⟩
  rw [init_eq ho]
  unfold handOff
  rw [hi]
  rfl

/-- C114: whatever the class, it is called once, with the options the user gives and with those of the spectra where they give
none. Of its errors only an `AttributeError` is not passed on. -/
theorem any_class {inp : Input} {o : Construct.Obj} (ho : inp.construct = .ok o) {i : ℕ} (hi : inp.snap.map Prod.fst = some i)
    (cls : Dict → Py GasObj) (sf : Val) {args : Option Dict} (hd : IsDict (entries args)) :
    ∃ kw, (∀ k v, (k, v) ∈ entries args → lookup kw k = some v) ∧
      (∀ v, Chosen (entries args) "redshift" (.num o.red) v → lookup kw "redshift" = some v) ∧
      (∀ v, Chosen (entries args) "absnap" (.snapshot i) v → lookup kw "absnap" = some v) ∧
      (∀ v, Chosen (entries args) "hubble" (.num o.hubble) v → lookup kw "hubble" = some v) ∧
      (∀ v, Chosen (entries args) "units" (.units inp.unitSystem) v → lookup kw "units" = some v) ∧
      (∀ v, Chosen (entries args) "sf_neutral" sf v → lookup kw "sf_neutral" = some v) ∧
      (∀ k, (∀ p ∈ entries args, p.1 ≠ k) → k ∉ ["redshift", "absnap", "hubble", "units", "sf_neutral"] → lookup kw k = none) ∧
      (∀ g, cls kw = .ok g → init inp (some cls) sf args = .ok ⟨o, inp.unitSystem, some g⟩) ∧
      (∀ e, cls kw = .error e → e ≠ .attributeError → init inp (some cls) sf args = .error e) ∧
      (cls kw = .error .attributeError → init inp (some cls) sf args = .ok ⟨o, inp.unitSystem, none⟩) := by
  have own := get_own ⟨o.red, o.hubble, inp.unitSystem, inp.snap.map Prod.fst⟩ i sf
  refine ⟨entries args ++ ownArgs ⟨o.red, o.hubble, inp.unitSystem, inp.snap.map Prod.fst⟩ i sf, ?_,
    fun v h => chosen_own hd h own.1, fun v h => chosen_own hd h own.2.1, fun v h => chosen_own hd h own.2.2.1,
    fun v h => chosen_own hd h own.2.2.2.1, fun v h => chosen_own hd h own.2.2.2.2, ?_, ?_, ?_, ?_⟩
  · intro k v h
    rw [lookup_append, lookup_given hd h]
    rfl
  · intro k h hk
    rw [lookup_append, lookup_missing h, get_own_none _ _ _ hk]
    rfl
  · intro g hg
    rw [init_eq ho, handOff_some _ _ hi, Option.getD_some, hg]
    rfl
  · intro e he hne
    rw [init_eq ho, handOff_some _ _ hi, Option.getD_some, he]
    cases e <;> first | rfl | exact absurd rfl hne
  · intro he
    rw [init_eq ho, handOff_some _ _ hi, Option.getD_some, he]
    rfl

/-! Where the redshift, the Hubble parameter and the units come from. -/

theorem gas_default {inp : Input} {o : Construct.Obj} (ho : inp.construct = .ok o) {i : ℕ} (hi : inp.snap.map Prod.fst = some i)
    {sf : Bool} {s : Spectrum} (hs : init inp none (.flag sf) none = .ok s) (density : ℕ → ℝ) (j : ℕ) :
    s.get_code_rhoH density j = .ok (density j *
      (inp.unitSystem.UnitDensity_in_cgs * o.hubble ^ 2 / protonmass * (1 + o.red) ^ 3)) := by
  have h0 : 0 ≤ o.red := by
    by_contra hneg
    have hv := (uvbAt_spec o.red).2.2 (not_le.1 hneg)
    rw [init_eq ho, handOff_some _ _ hi, Option.getD_none] at hs
    unfold gasProperties gasArgs entries at hs
    rw [Option.getD_none, gas_call _ (by simp)] at hs
    have own := get_own ⟨o.red, o.hubble, inp.unitSystem, inp.snap.map Prod.fst⟩ i (.flag sf)
    simp only [bind, Except.bind, List.nil_append, own.1, Option.getD_some, asNum, hv] at hs
    cases hs
  have free : ∀ k own, Chosen (entries none) k own own := fun k own => .inr ⟨by simp [entries], rfl⟩
  obtain ⟨g, hg, h1, h2, h3, h4, h5⟩ := gas_options ho hi (args := none) (by simp [IsDict, entries]) (by simp [entries])
    (free _ _) (free _ _) (free _ _) (free _ _) (free _ _) (.inl rfl) (free _ (.flag sf)) h0
  rw [hg] at hs
  cases hs
  show Except.ok (density j * (g.units.UnitDensity_in_cgs * g.hubble ^ 2 / protonmass * (1 + g.redshift) ^ 3)) = _
  rw [h1, h2, h4]

theorem construct_fresh {inp : Input} {o : Construct.Obj} (ho : inp.construct = .ok o) (hr : inp.a.reload = true) {i : ℕ}
    {n : Construct.Snap} {hu : Option UnitSystem} (hi : inp.snap = some (i, n, hu)) :
    o.red = 1 / n.atime - 1 ∧ o.hubble = n.hubble := by
  unfold Input.construct Construct.construct Construct.fromSnapshot Construct.get_units at ho
  rw [hi] at ho
  simp only [Option.map_some, bind, Except.bind, hr, if_true, Except.map] at ho
  split at ho
  · cases ho
  · split at ho
    · cases ho
    · split at ho
      · cases ho
      · split at ho
        · cases ho
        · split at ho
          · cases ho
          · cases ho
            exact ⟨rfl, rfl⟩

theorem construct_saved {inp : Input} {o : Construct.Obj} (ho : inp.construct = .ok o) (hr : inp.a.reload = false)
    {f : Construct.Saved} (hf : inp.saved = .ok f) : o.red = f.red ∧ o.hubble = f.hubble := by
  unfold Input.construct Construct.construct Construct.fromSavefile at ho
  rw [hf] at ho
  simp only [bind, Except.bind, pure, Except.pure, hr, Bool.false_eq_true, if_false] at ho
  repeat' split at ho
  all_goals first
    | (cases ho; exact ⟨rfl, rfl⟩)
    | (exfalso; simp_all; done)

/-- C114: a new object converts the density of the gas to atoms per cubic centimetre with the scale factor, the Hubble parameter
and the units of the snapshot. -/
theorem fresh_density {inp : Input} {sf : Bool} {s : Spectrum} (hs : init inp none (.flag sf) none = .ok s)
    (hr : inp.a.reload = true) {i : ℕ} {n : Construct.Snap} {u : UnitSystem} (hi : inp.snap = some (i, n, some u))
    (density : ℕ → ℝ) (j : ℕ) :
    s.get_code_rhoH density j =
      .ok (density j * (u.UnitMass_in_g / u.UnitLength_in_cm ^ 3 * n.hubble ^ 2 / 1.67262178e-24 * (1 / n.atime) ^ 3)) := by
  cases ho : inp.construct with
  | error e => unfold init at hs; rw [ho] at hs; cases hs
  | ok o =>
    obtain ⟨h1, h2⟩ := construct_fresh ho hr hi
    rw [gas_default ho (by rw [hi]; rfl) hs, h1, h2]
    have hU : inp.unitSystem = u := by unfold Input.unitSystem; rw [hr, hi]; rfl
    rw [hU]
    unfold UnitSystem.UnitDensity_in_cgs protonmass
    ring_nf

/-- C114, finding: an object from a savefile converts the gas of the snapshot with the redshift and Hubble parameter of the
savefile and with the units given as an argument, or those of Gadget, whatever the header of the snapshot says. -/
theorem saved_density {inp : Input} {sf : Bool} {s : Spectrum} (hs : init inp none (.flag sf) none = .ok s)
    (hr : inp.a.reload = false) {f : Construct.Saved} (hf : inp.saved = .ok f) {i : ℕ} {n : Construct.Snap} {hu : Option UnitSystem}
    (hi : inp.snap = some (i, n, hu)) (density : ℕ → ℝ) (j : ℕ) :
    s.get_code_rhoH density j = .ok (density j * ((inp.units.getD ⟨1.98892e43, 3.085678e21, 1e5⟩).UnitMass_in_g /
      (inp.units.getD ⟨1.98892e43, 3.085678e21, 1e5⟩).UnitLength_in_cm ^ 3 * f.hubble ^ 2 / 1.67262178e-24 * (1 + f.red) ^ 3)) := by
  cases ho : inp.construct with
  | error e => unfold init at hs; rw [ho] at hs; cases hs
  | ok o =>
    obtain ⟨h1, h2⟩ := construct_saved ho hr hf
    rw [gas_default ho (by rw [hi]; rfl) hs, h1, h2]
    have hU : inp.unitSystem = inp.units.getD ⟨1.98892e43, 3.085678e21, 1e5⟩ := by unfold Input.unitSystem; rw [hr]; rfl
    rw [hU]
    rfl

/-! The rate network. -/

theorem rate_call (d : Dict) (o : Self) (i : ℕ) (sf : Val) :
    call rateGasSig (d ++ ownArgs o i sf) =
      .ok (fun k => (lookup (d ++ ownArgs o i sf) k).getD ((rateGasSig.default k).getD .none),
        (d ++ ownArgs o i sf).filter (fun p => !rateGasSig.names.contains p.1)) := by
  unfold call
  rw [if_neg (by simp [rateGasSig]), if_neg]
  have h := get_own o i sf
  simp [rateGasSig, lookup_append, h]

theorem lookup_filter (d : Dict) (names : List String) {k : String} (hk : k ∉ names) :
    lookup (d.filter (fun p => !names.contains p.1)) k = lookup d k := by
  unfold lookup
  rw [List.find?_filter]
  congr 1
  congr 1
  funext p
  by_cases hp : p.1 = k
  · subst hp; simp [hk]
  · have : (p.1 == k) = false := by simpa using hp
    rw [this]; simp

theorem lookup_isSome {d : Dict} {k : String} {v : Val} (h : (k, v) ∈ d) : (lookup d k).isSome = true := by
  unfold lookup
  rw [Option.isSome_map, List.find?_isSome]
  exact ⟨(k, v), h, by simp⟩

theorem lookup_cons_ne {k k' : String} (h : k' ≠ k) (v : Val) (d : Dict) : lookup ((k', v) :: d) k = lookup d k := by
  unfold lookup
  have : (k' == k) = false := by simpa using h
  rw [List.find?_cons]
  simp only [this]

/-- What a network that was made has been made with. -/
theorem network_made {tc : Treecool} {more : Dict} {z f : ℝ} {net : Rates.Net} (h : rateNetwork tc more z f = .ok net) :
    (lookup more "f_bar").isSome = false ∧ (∀ p ∈ more, p.1 ∈ netSig.names) ∧
    ∃ file rates, (lookup more "treecool_file").getD (.text "data/TREECOOL_ep_2018p") = .text file ∧ tc file = .ok rates ∧
      rates z = .ok (net.gH0, net.gHe0, net.gHep) ∧
      coolKnown ((lookup more "cool").getD (.text "Sherwood")) = true ∧
      asNum ((lookup more "photo_factor").getD (.num 1)) = .ok net.photo_factor ∧
      asNum ((lookup more "converge").getD (.num 1e-7)) = .ok net.converge ∧ net.f_bar = f ∧ net.gray = Interp.graySS z ∧
      net.recomb = recombVal ((lookup more "recomb").getD (.text "V96")) ∧
      net.selfshield = truth ((lookup more "selfshield").getD (.flag true)) ∧
      net.collisional = truth ((lookup more "collisional").getD (.flag true)) := by
  unfold rateNetwork at h
  simp only [bind, Except.bind, pure, Except.pure] at h
  by_cases hno : ((lookup more "redshift").isSome || (lookup more "f_bar").isSome) = true
  · rw [if_pos hno] at h; cases h
  rw [if_neg hno] at h
  simp only [Bool.or_eq_true, not_or, Bool.not_eq_true] at hno
  have hcall : ∀ r, call netSig (("redshift", .num z) :: ("f_bar", .num f) :: more) = .ok r →
      (∀ p ∈ more, p.1 ∈ netSig.names) ∧
      r.1 = fun k => (lookup (("redshift", .num z) :: ("f_bar", .num f) :: more) k).getD ((netSig.default k).getD .none) := by
    intro r hr
    unfold call at hr
    split at hr
    · cases hr
    · rename_i hany
      split at hr
      · cases hr
      · cases hr
        refine ⟨fun p hp => ?_, rfl⟩
        by_contra hp'
        apply hany
        simp only [Bool.and_eq_true, List.any_eq_true]
        refine ⟨rfl, p, List.mem_cons_of_mem _ (List.mem_cons_of_mem _ hp), ?_⟩
        simpa using hp'
  cases hc : call netSig (("redshift", .num z) :: ("f_bar", .num f) :: more) with
  | error e => rw [hc] at h; cases h
  | ok r =>
    obtain ⟨hnames, hval⟩ := hcall r hc
    rw [hc] at h
    simp only at h
    have hget : ∀ k dflt, k ≠ "redshift" → k ≠ "f_bar" → (netSig.default k).getD .none = dflt →
        r.1 k = (lookup more k).getD dflt := by
      intro k dflt h1 h2 h3
      rw [hval, ← h3]
      show (lookup _ k).getD _ = _
      rw [lookup_cons_ne (Ne.symm h1), lookup_cons_ne (Ne.symm h2)]
    have hz : r.1 "redshift" = .num z := by rw [hval]; rfl
    have hf : r.1 "f_bar" = .num f := by rw [hval]; rfl
    rw [hz, hf, hget "treecool_file" (.text "data/TREECOOL_ep_2018p") (by decide) (by decide) rfl,
      hget "cool" (.text "Sherwood") (by decide) (by decide) rfl, hget "photo_factor" (.num 1) (by decide) (by decide) rfl,
      hget "converge" (.num 1e-7) (by decide) (by decide) rfl, hget "recomb" (.text "V96") (by decide) (by decide) rfl,
      hget "selfshield" (.flag true) (by decide) (by decide) rfl, hget "collisional" (.flag true) (by decide) (by decide) rfl] at h
    refine ⟨hno.2, hnames, ?_⟩
    cases ht : (lookup more "treecool_file").getD (.text "data/TREECOOL_ep_2018p") with
    | text file =>
      rw [ht] at h
      simp only at h
      cases hr : tc file with
      | error e => rw [hr] at h; cases h
      | ok rates =>
        rw [hr] at h
        simp only [asNum] at h
        by_cases hcool : coolKnown ((lookup more "cool").getD (.text "Sherwood")) = true
        · rw [if_neg (by simp [hcool])] at h
          cases hpf : asNum ((lookup more "photo_factor").getD (.num 1)) with
          | error e => unfold asNum at hpf; rw [hpf] at h; cases h
          | ok pf =>
            cases hcv : asNum ((lookup more "converge").getD (.num 1e-7)) with
            | error e => unfold asNum at hpf hcv; rw [hpf, hcv] at h; cases h
            | ok cv =>
              cases hrz : rates z with
              | error e => unfold asNum at hpf hcv; rw [hpf, hcv, hrz] at h; cases h
              | ok g =>
                have hpf' := hpf
                have hcv' := hcv
                unfold asNum at hpf' hcv'
                rw [hpf', hcv', hrz] at h
                cases h
                exact ⟨file, rates, rfl, hr, hrz, hcool, rfl, rfl, rfl, rfl, rfl, rfl, rfl⟩
        · rw [if_pos (by simp [hcool])] at h
          cases h
    | _ => rw [ht] at h; cases h

theorem rate_made {inp : Input} {tc : Treecool} {sf : Val} {args : Option Dict} {s : Spectrum}
    (hs : init inp (some (rateGas tc)) sf args = .ok s) {g : GasObj} (hg : s.gas = some g) :
    s.units = inp.unitSystem ∧ ∃ i, inp.snap.map Prod.fst = some i ∧
      rateGas tc (entries args ++ ownArgs ⟨s.obj.red, s.obj.hubble, inp.unitSystem, inp.snap.map Prod.fst⟩ i sf) = .ok g := by
  cases ho : inp.construct with
  | error e => unfold init at hs; rw [ho] at hs; cases hs
  | ok o =>
    rw [init_eq ho, Option.getD_some] at hs
    cases hi : inp.snap.map Prod.fst with
    | none =>
      unfold handOff at hs
      rw [hi] at hs
      cases hs
      cases hg
    | some i =>
      rw [hi, handOff_some _ _ rfl] at hs
      cases hr : rateGas tc (entries args ++ ownArgs ⟨o.red, o.hubble, inp.unitSystem, some i⟩ i sf) with
      | ok g' =>
        rw [hr] at hs
        cases hs
        cases hg
        exact ⟨rfl, i, rfl, hr⟩
      | error e =>
        rw [hr] at hs
        cases e <;> cases hs
        cases hg

/-- A value given for a flag. -/
theorem truth_flag (b : Bool) : truth (.flag b) = b := rfl

/-- C114: an object with a rate network has the options the user gives, for the gas and for the network, those of the spectra
where they give none, and otherwise the defaults. The network has the redshift and the baryon fraction of the gas. -/
theorem rate_options {inp : Input} {tc : Treecool} {sf : Val} {args : Option Dict} {s : Spectrum}
    (hs : init inp (some (rateGas tc)) sf args = .ok s) {go : GasObj} (hg : s.gas = some go) (hd : IsDict (entries args))
    {i : ℕ} (hi : inp.snap.map Prod.fst = some i) {snap v : Val} {z h f tf gf pf cv : ℝ} {u : UnitSystem} {b ss co : Bool}
    {file rc : String}
    (hz : Chosen (entries args) "redshift" (.num s.obj.red) (.num z)) (hs' : Chosen (entries args) "absnap" (.snapshot i) snap)
    (hh : Chosen (entries args) "hubble" (.num s.obj.hubble) (.num h)) (hf : Chosen (entries args) "fbar" (.num 0.17) (.num f))
    (hv : Chosen (entries args) "units" (.units s.units) v) (hu : UnitsAre v u)
    (hb : Chosen (entries args) "sf_neutral" sf (.flag b)) (htf : Chosen (entries args) "temp_factor" (.num 1) (.num tf))
    (hgf : Chosen (entries args) "gamma_factor" (.num 1) (.num gf))
    (hpf : Chosen (entries args) "photo_factor" (.num 1) (.num pf)) (hcv : Chosen (entries args) "converge" (.num 1e-7) (.num cv))
    (hss : Chosen (entries args) "selfshield" (.flag true) (.flag ss))
    (hco : Chosen (entries args) "collisional" (.flag true) (.flag co))
    (hrc : Chosen (entries args) "recomb" (.text "V96") (.text rc))
    (hfile : Chosen (entries args) "treecool_file" (.text "data/TREECOOL_ep_2018p") (.text file)) :
    ∃ g rates, go = .rate g snap ∧ g.gas.redshift = z ∧ g.gas.hubble = h ∧ g.gas.f_bar = f ∧ g.gas.units = u ∧
      g.gas.sf_neutral = b ∧ g.temp_factor = tf ∧ g.gamma_factor = gf ∧ g.net.photo_factor = pf ∧ g.net.converge = cv ∧
      g.net.selfshield = ss ∧ g.net.collisional = co ∧ g.net.recomb = Rates.recombOf rc ∧ g.net.f_bar = f ∧
      tc file = .ok rates ∧ rates z = .ok (g.net.gH0, g.net.gHe0, g.net.gHep) ∧ g.net.gray = Interp.graySS z := by
  obtain ⟨hsu, i', hi', hr⟩ := rate_made hs hg
  rw [hi] at hi'
  cases hi'
  have hu' : asUnits v = .ok u := by
    rcases hu with rfl | ⟨rfl, rfl⟩ <;> rfl
  have own := get_own ⟨s.obj.red, s.obj.hubble, inp.unitSystem, inp.snap.map Prod.fst⟩ i sf
  rw [hsu] at hv
  unfold rateGas gasArgs at hr
  rw [rate_call] at hr
  simp only [bind, Except.bind] at hr
  rw [chosen_own hd hz own.1, chosen_own hd hs' own.2.1, chosen_own hd hh own.2.2.1, chosen_own hd hv own.2.2.2.1,
    chosen_own hd hb own.2.2.2.2] at hr
  rw [show ((rateGasSig.default "fbar").getD .none) = .num 0.17 from rfl,
    chosen_default hd hf (get_own_none _ _ _ (by decide)),
    show ((rateGasSig.default "temp_factor").getD .none) = .num 1 from rfl,
    chosen_default hd htf (get_own_none _ _ _ (by decide)),
    show ((rateGasSig.default "gamma_factor").getD .none) = .num 1 from rfl,
    chosen_default hd hgf (get_own_none _ _ _ (by decide))] at hr
  simp only [Option.getD_some, asNum, hu', truth_flag, pure, Except.pure] at hr
  cases huvb : Gas.uvbAt z with
  | error e => rw [huvb] at hr; cases hr
  | ok uvb =>
    rw [huvb] at hr
    simp only at hr
    split at hr
    · cases hr
    rename_i r hr'
    cases hr
    obtain ⟨uvb', -, hgas, hnet, -, htf', hgf'⟩ := rateGas_init hr'
    obtain ⟨-, -, file', rates, n1, n2, n3, -, n5, n6, n7, n8, n9, n10, n11⟩ := network_made hnet
    have net : ∀ {k : String} {own v : Val}, Chosen (entries args) k own v → k ∉ rateGasSig.names →
        k ∉ ["redshift", "absnap", "hubble", "units", "sf_neutral"] →
        (lookup ((entries args ++ ownArgs ⟨s.obj.red, s.obj.hubble, inp.unitSystem, inp.snap.map Prod.fst⟩ i sf).filter
          (fun p => !rateGasSig.names.contains p.1)) k).getD own = v := by
      intro k own v hc h1 h2
      rw [lookup_filter _ _ h1]
      exact chosen_default hd hc (get_own_none _ _ _ h2)
    rw [net hfile (by decide) (by decide)] at n1
    rw [net hpf (by decide) (by decide)] at n5
    rw [net hcv (by decide) (by decide)] at n6
    rw [net hrc (by decide) (by decide)] at n9
    rw [net hss (by decide) (by decide)] at n10
    rw [net hco (by decide) (by decide)] at n11
    cases n1
    refine ⟨r, rates, rfl, ?_, ?_, ?_, ?_, ?_, htf', hgf', (Except.ok.inj n5).symm, (Except.ok.inj n6).symm, n10, n11, n9, n7, n2,
      n3, n8⟩ <;> rw [hgas]

/-- C114: an option that neither `RateNetworkGas` nor its network has never gives an object with gas properties. -/
theorem rate_unknown_option {inp : Input} {tc : Treecool} {sf : Val} {args : Option Dict} {s : Spectrum}
    (hs : init inp (some (rateGas tc)) sf args = .ok s) {k : String} {v : Val} (hk : (k, v) ∈ entries args)
    (hn : k ∉ rateNames) : s.gas = none := by
  cases hg : s.gas with
  | none => rfl
  | some go =>
    exfalso
    obtain ⟨hsu, i, -, hr⟩ := rate_made hs hg
    unfold rateGas at hr
    rw [rate_call] at hr
    simp only [bind, Except.bind] at hr
    split at hr
    · cases hr
    split at hr
    · cases hr
    split at hr
    · cases hr
    split at hr
    · cases hr
    rename_i r hr'
    obtain ⟨-, -, -, hnet, -⟩ := rateGas_init hr'
    obtain ⟨h1, h2, -⟩ := network_made hnet
    have hk1 : k ∉ rateGasSig.names := by
      intro h
      apply hn
      simp only [rateGasSig, Sig.names, List.map_cons, List.map_nil, List.mem_cons, List.not_mem_nil, or_false] at h
      rcases h with rfl | rfl | rfl | rfl | rfl | rfl | rfl | rfl <;> decide
    have hmem : (k, v) ∈ (entries args ++ ownArgs ⟨s.obj.red, s.obj.hubble, inp.unitSystem, inp.snap.map Prod.fst⟩ i sf).filter
        (fun p => !rateGasSig.names.contains p.1) := by
      rw [List.mem_filter]
      exact ⟨List.mem_append_left _ hk, by simpa using hk1⟩
    have h3 := h2 _ hmem
    simp only [netSig, Sig.names, List.map_cons, List.map_nil, List.mem_cons, List.not_mem_nil, or_false] at h3
    rcases h3 with rfl | rfl | rfl | rfl | rfl | rfl | rfl | rfl | rfl
    · exact hk1 (by decide)
    · exact hn (by decide)
    · rw [lookup_isSome hmem] at h1
      cases h1
    all_goals exact hn (by decide)

/-- C114: a cooling table that does not exist never gives an object with gas properties. -/
theorem rate_unknown_cooling {inp : Input} {tc : Treecool} {sf : Val} {args : Option Dict} {s : Spectrum}
    (hs : init inp (some (rateGas tc)) sf args = .ok s) (hd : IsDict (entries args)) {v : Val} (hk : ("cool", v) ∈ entries args)
    (hv : v ∉ [Val.text "KWH", Val.text "Sherwood", Val.text "Nyx"]) : s.gas = none := by
  cases hg : s.gas with
  | none => rfl
  | some go =>
    exfalso
    obtain ⟨hsu, i, -, hr⟩ := rate_made hs hg
    unfold rateGas at hr
    rw [rate_call] at hr
    simp only [bind, Except.bind] at hr
    split at hr
    · cases hr
    split at hr
    · cases hr
    split at hr
    · cases hr
    split at hr
    · cases hr
    rename_i r hr'
    obtain ⟨-, -, -, hnet, -⟩ := rateGas_init hr'
    obtain ⟨-, -, -, -, -, -, -, hcool, -⟩ := network_made hnet
    rw [lookup_filter _ _ (by decide), chosen_default hd (.inl hk) (get_own_none _ _ _ (by decide))] at hcool
    apply hv
    cases v with
    | text t =>
      simp only [coolKnown, Bool.or_eq_true, decide_eq_true_eq] at hcool
      rcases hcool with (rfl | rfl) | rfl <;> simp
    | _ => simp [coolKnown] at hcool

theorem network_ok {tc : Treecool} {more : Dict} {z f pf cv : ℝ} {file rc cl : String} {ss co : Bool}
    {rates : ℝ → Py (ℝ × ℝ × ℝ)} {g0 g1 g2 : ℝ}
    (hn : ∀ p ∈ more, p.1 ∈ ["photo_factor", "converge", "selfshield", "cool", "recomb", "collisional", "treecool_file"])
    (h1 : (lookup more "treecool_file").getD (.text "data/TREECOOL_ep_2018p") = .text file)
    (h2 : (lookup more "cool").getD (.text "Sherwood") = .text cl) (h3 : (lookup more "photo_factor").getD (.num 1) = .num pf)
    (h4 : (lookup more "converge").getD (.num 1e-7) = .num cv) (h5 : (lookup more "recomb").getD (.text "V96") = .text rc)
    (h6 : (lookup more "selfshield").getD (.flag true) = .flag ss) (h7 : (lookup more "collisional").getD (.flag true) = .flag co)
    (hcl : cl ∈ ["KWH", "Sherwood", "Nyx"]) (htc : tc file = .ok rates) (hr : rates z = .ok (g0, g1, g2)) :
    rateNetwork tc more z f = .ok ⟨Rates.recombOf rc, g0, g1, g2, Interp.graySS z, pf, f, cv, ss, co⟩ := by
  have hr0 : lookup more "redshift" = none := lookup_missing fun p hp he => by
    have := hn p hp; rw [he] at this; simp at this
  have hf0 : lookup more "f_bar" = none := lookup_missing fun p hp he => by
    have := hn p hp; rw [he] at this; simp at this
  have hcall : call netSig (("redshift", .num z) :: ("f_bar", .num f) :: more) =
      .ok (fun k => (lookup (("redshift", .num z) :: ("f_bar", .num f) :: more) k).getD ((netSig.default k).getD .none),
        (("redshift", .num z) :: ("f_bar", .num f) :: more).filter (fun p => !netSig.names.contains p.1)) := by
    unfold call
    rw [if_neg, if_neg]
    · have : lookup (("redshift", .num z) :: ("f_bar", .num f) :: more) "redshift" = some (.num z) := rfl
      simp [netSig, this]
    · simp only [netSig, Bool.not_false, Bool.true_and, List.any_eq_true, not_exists, not_and]
      intro p hp
      have hm : p.1 ∈ netSig.names := by
        rcases List.mem_cons.1 hp with rfl | hp
        · show "redshift" ∈ netSig.names
          decide
        · rcases List.mem_cons.1 hp with rfl | hp
          · show "f_bar" ∈ netSig.names
            decide
          · have := hn p hp
            simp only [List.mem_cons, List.not_mem_nil, or_false] at this
            rcases this with h | h | h | h | h | h | h <;> rw [h] <;> decide
      show ¬ (!netSig.names.contains p.1) = true
      simpa using hm
  have hget : ∀ k own v, k ≠ "redshift" → k ≠ "f_bar" → (netSig.default k).getD .none = own → (lookup more k).getD own = v →
      (lookup (("redshift", .num z) :: ("f_bar", .num f) :: more) k).getD ((netSig.default k).getD .none) = v := by
    intro k own v h1 h2 h3 h4
    rw [lookup_cons_ne (Ne.symm h1), lookup_cons_ne (Ne.symm h2), h3, h4]
  have hcool : coolKnown (.text cl) = true := by
    simp only [List.mem_cons, List.not_mem_nil, or_false] at hcl
    rcases hcl with rfl | rfl | rfl <;> decide
  unfold rateNetwork
  rw [hr0, hf0, hcall]
  simp only [bind, Except.bind, pure, Except.pure, Option.isSome_none, Bool.or_self, Bool.false_eq_true, if_false]
  simp only [hget "treecool_file" _ _ (by decide) (by decide) rfl h1,
    hget "cool" _ _ (by decide) (by decide) rfl h2,
    hget "photo_factor" _ _ (by decide) (by decide) rfl h3,
    hget "converge" _ _ (by decide) (by decide) rfl h4,
    hget "recomb" _ _ (by decide) (by decide) rfl h5,
    hget "selfshield" _ _ (by decide) (by decide) rfl h6,
    hget "collisional" _ _ (by decide) (by decide) rfl h7]
  rw [show (lookup (("redshift", .num z) :: ("f_bar", .num f) :: more) "redshift").getD ((netSig.default "redshift").getD .none) =
      .num z from rfl,
    show (lookup (("redshift", .num z) :: ("f_bar", .num f) :: more) "f_bar").getD ((netSig.default "f_bar").getD .none) =
      .num f from rfl]
  simp only [htc, hcool, Bool.not_true, Bool.false_eq_true, if_false, asNum, Option.getD_some, hr]
  rfl

/-- C114: the object for the gas is the one `RateNetworkGas` makes from the chosen options, with a network made from the chosen
options and from the rates which the chosen file has at the redshift. If making it fails, so does making the spectra. -/
theorem rate_object {inp : Input} {o : Construct.Obj} (ho : inp.construct = .ok o) {tc : Treecool} {sf : Val}
    {args : Option Dict} (hd : IsDict (entries args)) (hn : ∀ p ∈ entries args, p.1 ∈ rateNames)
    {i : ℕ} (hi : inp.snap.map Prod.fst = some i) {snap v : Val} {z h f tf gf pf cv : ℝ} {u : UnitSystem} {b ss co : Bool}
    {file rc cl : String} {rates : ℝ → Py (ℝ × ℝ × ℝ)} {g0 g1 g2 : ℝ}
    (hz : Chosen (entries args) "redshift" (.num o.red) (.num z)) (hs : Chosen (entries args) "absnap" (.snapshot i) snap)
    (hh : Chosen (entries args) "hubble" (.num o.hubble) (.num h)) (hf : Chosen (entries args) "fbar" (.num 0.17) (.num f))
    (hv : Chosen (entries args) "units" (.units inp.unitSystem) v) (hu : UnitsAre v u)
    (hb : Chosen (entries args) "sf_neutral" sf (.flag b)) (htf : Chosen (entries args) "temp_factor" (.num 1) (.num tf))
    (hgf : Chosen (entries args) "gamma_factor" (.num 1) (.num gf))
    (hpf : Chosen (entries args) "photo_factor" (.num 1) (.num pf)) (hcv : Chosen (entries args) "converge" (.num 1e-7) (.num cv))
    (hss : Chosen (entries args) "selfshield" (.flag true) (.flag ss))
    (hco : Chosen (entries args) "collisional" (.flag true) (.flag co))
    (hrc : Chosen (entries args) "recomb" (.text "V96") (.text rc))
    (hcool : Chosen (entries args) "cool" (.text "Sherwood") (.text cl)) (hcl : cl ∈ ["KWH", "Sherwood", "Nyx"])
    (hfile : Chosen (entries args) "treecool_file" (.text "data/TREECOOL_ep_2018p") (.text file))
    (htc : tc file = .ok rates) (hr : rates z = .ok (g0, g1, g2)) (h0 : 0 ≤ z) :
    (∀ g, RateGas.Obj.init (fun _ _ => .ok ⟨Rates.recombOf rc, g0, g1, g2, Interp.graySS z, pf, f, cv, ss, co⟩) z h f u b tf gf =
        .ok g → init inp (some (rateGas tc)) sf args = .ok ⟨o, inp.unitSystem, some (.rate g snap)⟩) ∧
    (∀ e, RateGas.Obj.init (fun _ _ => .ok ⟨Rates.recombOf rc, g0, g1, g2, Interp.graySS z, pf, f, cv, ss, co⟩) z h f u b tf gf =
        .error e → e ≠ .attributeError → init inp (some (rateGas tc)) sf args = .error e) := by
  obtain ⟨uvb, huvb⟩ := uvb_ok h0
  have hu' : asUnits v = .ok u := by
    rcases hu with rfl | ⟨rfl, rfl⟩ <;> rfl
  have own := get_own ⟨o.red, o.hubble, inp.unitSystem, inp.snap.map Prod.fst⟩ i sf
  have net : ∀ {k : String} {own v : Val}, Chosen (entries args) k own v → k ∉ rateGasSig.names →
      k ∉ ["redshift", "absnap", "hubble", "units", "sf_neutral"] →
      (lookup ((entries args ++ ownArgs ⟨o.red, o.hubble, inp.unitSystem, inp.snap.map Prod.fst⟩ i sf).filter
        (fun p => !rateGasSig.names.contains p.1)) k).getD own = v := by
    intro k own v hc h1 h2
    rw [lookup_filter _ _ h1]
    exact chosen_default hd hc (get_own_none _ _ _ h2)
  have hnet : rateNetwork tc ((entries args ++ ownArgs ⟨o.red, o.hubble, inp.unitSystem, inp.snap.map Prod.fst⟩ i sf).filter
      (fun p => !rateGasSig.names.contains p.1)) z f =
      .ok ⟨Rates.recombOf rc, g0, g1, g2, Interp.graySS z, pf, f, cv, ss, co⟩ := by
    refine network_ok (fun p hp => ?_) (net hfile (by decide) (by decide)) (net hcool (by decide) (by decide))
      (net hpf (by decide) (by decide)) (net hcv (by decide) (by decide)) (net hrc (by decide) (by decide))
      (net hss (by decide) (by decide)) (net hco (by decide) (by decide)) hcl htc hr
    obtain ⟨hp1, hp2⟩ := List.mem_filter.1 hp
    have hp3 : p.1 ∉ rateGasSig.names := by simpa using hp2
    have hp4 : p.1 ∈ rateNames := by
      rcases List.mem_append.1 hp1 with hp1 | hp1
      · exact hn p hp1
      · simp only [ownArgs, List.mem_cons, List.not_mem_nil, or_false] at hp1
        rcases hp1 with rfl | rfl | rfl | rfl | rfl <;> simp [rateNames, gasNames]
    simp only [rateNames, gasNames, List.cons_append, List.nil_append, List.mem_cons, List.not_mem_nil, or_false] at hp4
    simp only [rateGasSig, Sig.names, List.map_cons, List.map_nil, List.mem_cons, List.not_mem_nil, or_false, not_or] at hp3
    simp only [List.mem_cons, List.not_mem_nil, or_false]
    tauto
  have hgas : rateGas tc (entries args ++ ownArgs ⟨o.red, o.hubble, inp.unitSystem, inp.snap.map Prod.fst⟩ i sf) =
      (RateGas.Obj.init (fun _ _ => .ok ⟨Rates.recombOf rc, g0, g1, g2, Interp.graySS z, pf, f, cv, ss, co⟩) z h f u b tf gf).map
        (fun g => .rate g snap) := by
    unfold rateGas gasArgs
    rw [rate_call]
    simp only [bind, Except.bind]
    rw [chosen_own hd hz own.1, chosen_own hd hs own.2.1, chosen_own hd hh own.2.2.1, chosen_own hd hv own.2.2.2.1,
      chosen_own hd hb own.2.2.2.2]
    rw [show ((rateGasSig.default "fbar").getD .none) = .num 0.17 from rfl,
      chosen_default hd hf (get_own_none _ _ _ (by decide)),
      show ((rateGasSig.default "temp_factor").getD .none) = .num 1 from rfl,
      chosen_default hd htf (get_own_none _ _ _ (by decide)),
      show ((rateGasSig.default "gamma_factor").getD .none) = .num 1 from rfl,
      chosen_default hd hgf (get_own_none _ _ _ (by decide))]
    simp only [Option.getD_some, asNum, hu', huvb, truth_flag, pure, Except.pure, Except.map]
    unfold RateGas.Obj.init
    rw [hnet]
  constructor
  · intro g hg
    rw [init_eq ho, handOff_some _ _ hi, Option.getD_some, hgas, hg]
    rfl
  · intro e he hne
    rw [init_eq ho, handOff_some _ _ hi, Option.getD_some, hgas, he]
    cases e <;> first | rfl | exact absurd rfl hne

/-- C114: an object of `RateNetworkSpectra` solves the network with the options given to it, by the rates of Verner and Ferland
with collisions and a tolerance of 1e-7. Its redshift, units and snapshot are those of the spectra, its Hubble parameter is the
one given to it. -/
theorem rate_spectra_object {inp : Input} {ob : Construct.Obj} (ho : inp.construct = .ok ob) {tc : Treecool} {o : RateOpts}
    {i : ℕ} (hi : inp.snap.map Prod.fst = some i) {h f tf gf pf : ℝ} {b ss : Bool} {file : String} (hpf : o.photo_factor = .num pf)
    (hb : o.sf_neutral = .flag b) (hss : o.selfshield = .flag ss) (htf : o.temp_factor = .num tf)
    (hgf : o.gamma_factor = .num gf) (hh : o.hubble = .num h) (hf : o.fbar = .num f) (hfile : o.treecool_file = .text file)
    {rates : ℝ → Py (ℝ × ℝ × ℝ)} {g0 g1 g2 : ℝ} (htc : tc file = .ok rates) (hr : rates ob.red = .ok (g0, g1, g2))
    (h0 : 0 ≤ ob.red) (cls : Option (Dict → Py GasObj)) (args : Option Dict) :
    (∀ g, RateGas.Obj.init (fun _ _ => .ok ⟨Rates.Verner96, g0, g1, g2, Interp.graySS ob.red, pf, f, 1e-7, ss, true⟩) ob.red h f
        inp.unitSystem b tf gf = .ok g → rateSpectra tc inp o cls args = .ok ⟨ob, inp.unitSystem, some (.rate g (.snapshot i))⟩) ∧
    (∀ e, RateGas.Obj.init (fun _ _ => .ok ⟨Rates.Verner96, g0, g1, g2, Interp.graySS ob.red, pf, f, 1e-7, ss, true⟩) ob.red h f
        inp.unitSystem b tf gf = .error e → e ≠ .attributeError → rateSpectra tc inp o cls args = .error e) := by
  have mem : entries (some o.args) = [("photo_factor", .num pf), ("selfshield", .flag ss), ("temp_factor", .num tf),
      ("gamma_factor", .num gf), ("hubble", .num h), ("fbar", .num f), ("treecool_file", .text file)] := by
    unfold entries RateOpts.args
    rw [hpf, hss, htf, hgf, hh, hf, hfile]
    rfl
  exact rate_object (rc := "V96") (cl := "Sherwood") ho (args := some o.args) (by rw [mem]; simp [IsDict])
    (by rw [mem]; simp [rateNames, gasNames]) hi
    (by rw [mem]; exact .inr ⟨by simp, rfl⟩) (by rw [mem]; exact .inr ⟨by simp, rfl⟩) (by rw [mem]; exact .inl (by simp))
    (by rw [mem]; exact .inl (by simp)) (by rw [mem]; exact .inr ⟨by simp, rfl⟩) (.inl rfl)
    (by rw [mem]; exact .inr ⟨by simp, hb.symm⟩) (by rw [mem]; exact .inl (by simp)) (by rw [mem]; exact .inl (by simp))
    (by rw [mem]; exact .inl (by simp)) (by rw [mem]; exact .inr ⟨by simp, rfl⟩) (by rw [mem]; exact .inl (by simp))
    (by rw [mem]; exact .inr ⟨by simp, rfl⟩) (by rw [mem]; exact .inr ⟨by simp, rfl⟩) (by rw [mem]; exact .inr ⟨by simp, rfl⟩)
    (by decide) (by rw [mem]; exact .inl (by simp)) htc hr h0

/-- C114, finding: the class and the options for the gas that are given to `RateNetworkSpectra` as `gasprop` and `gasprop_args`
are not used and not refused. -/
theorem rate_spectra_args_dropped (tc : Treecool) (inp : Input) (o : RateOpts) (cls : Option (Dict → Py GasObj))
    (args : Option Dict) : rateSpectra tc inp o cls args = rateSpectra tc inp o none none := rfl

/-! Worked cases: a snapshot at redshift 3, read anew or with a savefile of redshift 2. -/

/-- A snapshot with a Hubble parameter of 0.7. -/
noncomputable def exSnap : Construct.Snap := ⟨.ok 1, 60000, 1 / 4, 7 / 10, 3 / 10, 7 / 10, none⟩

/-- New spectra. -/
noncomputable def exFresh : Input :=
  ⟨{ cofm := .single (1, 2, 3), axis := .scalar 1, reload := true, nbins := some 100, res := none }, none,
    some (7, exSnap, some gadget), .error .ioError⟩

/-- Spectra from a savefile which was made at redshift 2 with a Hubble parameter of 0.68, next to the snapshot. -/
noncomputable def exSaved : Input :=
  ⟨{ res := none }, none, some (7, exSnap, some ⟨1.98892e43, 3.085678e24, 1e5⟩),
    .ok ⟨2, 100, 0.68, 60000, 3 / 10, 7 / 10, some 200, [(1, 2, 3)], [1]⟩⟩

/-- The same without the snapshot. -/
noncomputable def exAlone : Input := { exSaved with snap := none }

theorem exFresh_made : ∃ o, exFresh.construct = .ok o ∧ o.red = 3 ∧ o.hubble = 7 / 10 := by
  have h : ∃ o, exFresh.construct = .ok o := ⟨_, rfl⟩
  obtain ⟨o, ho⟩ := h
  obtain ⟨h1, h2⟩ := construct_fresh ho rfl rfl
  exact ⟨o, ho, by rw [h1]; norm_num [exSnap], by rw [h2]; rfl⟩

theorem exSaved_made : ∃ o, exSaved.construct = .ok o ∧ o.red = 2 ∧ o.hubble = 0.68 := by
  have h : ∃ o, exSaved.construct = .ok o := by
    unfold Input.construct Construct.construct Construct.fromSavefile
    exact ⟨_, rfl⟩
  obtain ⟨o, ho⟩ := h
  obtain ⟨h1, h2⟩ := construct_saved ho rfl rfl
  exact ⟨o, ho, by rw [h1], by rw [h2]⟩

theorem exAlone_made : ∃ o, exAlone.construct = .ok o := by
  unfold Input.construct Construct.construct Construct.fromSavefile
  exact ⟨_, rfl⟩

/-- A user gives the baryon fraction and the Hubble parameter, and asks for the default units. -/
example : ∃ o g, init exFresh none (.flag true) (some [("fbar", .num 0.16), ("hubble", .num 0.68), ("units", .none)]) =
    .ok ⟨o, gadget, some (.code g (.snapshot 7))⟩ ∧ g.redshift = 3 ∧ g.hubble = 0.68 ∧ g.f_bar = 0.16 ∧ g.units = gadget ∧
    g.sf_neutral = true := by
  obtain ⟨o, ho, hr, hh⟩ := exFresh_made
  obtain ⟨g, h⟩ := gas_options ho (i := 7) rfl (args := some [("fbar", .num 0.16), ("hubble", .num 0.68), ("units", .none)])
    (sf := .flag true) (snap := .snapshot 7) (v := .none) (z := 3) (h := 0.68) (f := 0.16) (u := gadget) (b := true)
    (by simp [IsDict, entries]) (by simp [entries, gasNames]) (.inr ⟨by simp [entries], by rw [hr]⟩)
    (.inr ⟨by simp [entries], rfl⟩) (.inl (by simp [entries])) (.inl (by simp [entries])) (.inl (by simp [entries]))
    (.inr ⟨rfl, rfl⟩) (.inr ⟨by simp [entries], rfl⟩) (by norm_num)
  exact ⟨o, g, h⟩

/-- A mistyped option. -/
example : init exFresh none (.flag true) (some [("f_bar", .num 0.16)]) = .error .typeError := by
  obtain ⟨o, ho, -⟩ := exFresh_made
  exact unknown_option ho (i := 7) rfl (k := "f_bar") (v := .num 0.16) (by simp [entries]) (by decide) _

/-- A name for the units. -/
example : ∃ s, init exFresh none (.flag true) (some [("units", .text "kpc")]) = .ok s ∧
    ∀ (density : ℕ → ℝ) (j : ℕ), s.get_code_rhoH density j = .error .attributeError := by
  obtain ⟨o, ho, hr, -⟩ := exFresh_made
  exact units_hidden ho (i := 7) rfl (by simp [IsDict, entries]) (by simp [entries, gasNames]) (v := .text "kpc")
    (by simp [entries]) (fun u h => by rcases h with h | ⟨h, -⟩ <;> cases h) (z := 3) (.inr ⟨by simp [entries], by rw [hr]⟩)
    (by norm_num) _

/-- No snapshot, and an option that does not exist. -/
example : ∃ s, init exAlone none (.flag true) (some [("f_bar", .num 0.16)]) = .ok s := by
  obtain ⟨o, ho⟩ := exAlone_made
  obtain ⟨s, hs, -⟩ := no_snapshot ho rfl none (.flag true) (some [("f_bar", .num 0.16)])
  exact ⟨s, hs⟩

/-- A class of the user's which cannot make an object. -/
example : init exFresh (some (fun _ => .error .keyError)) (.flag true) (some [("table", .text "uvb.txt")]) = .error .keyError := by
  obtain ⟨o, ho, -⟩ := exFresh_made
  obtain ⟨kw, -, -, -, -, -, -, -, -, h, -⟩ := any_class ho (i := 7) rfl (fun _ => .error .keyError) (.flag true)
    (args := some [("table", .text "uvb.txt")]) (by simp [IsDict, entries])
  exact h _ rfl (by decide)

theorem default_made {inp : Input} {o : Construct.Obj} (ho : inp.construct = .ok o) {i : ℕ} (hi : inp.snap.map Prod.fst = some i)
    (h0 : 0 ≤ o.red) : ∃ s, init inp none (.flag true) none = .ok s := by
  have free : ∀ k own, Chosen (entries none) k own own := fun k own => .inr ⟨by simp [entries], rfl⟩
  obtain ⟨g, hg, -⟩ := gas_options ho hi (args := none) (by simp [IsDict, entries]) (by simp [entries])
    (free _ _) (free _ _) (free _ _) (free _ _) (free _ _) (.inl rfl) (free _ (.flag true)) h0
  exact ⟨_, hg⟩

/-- The density of a particle of the new spectra. -/
example : ∃ s, init exFresh none (.flag true) none = .ok s ∧ s.get_code_rhoH (fun _ => 2e-9) 5 =
    .ok (2e-9 * (1.98892e43 / 3.085678e21 ^ 3 * (7 / 10) ^ 2 / 1.67262178e-24 * (1 / (1 / 4)) ^ 3)) := by
  obtain ⟨o, ho, hr, -⟩ := exFresh_made
  obtain ⟨s, hs⟩ := default_made ho (i := 7) rfl (by rw [hr]; norm_num)
  exact ⟨s, hs, fresh_density hs rfl rfl _ _⟩

/-- The same particle by way of the savefile: another redshift, another Hubble parameter, and kiloparsecs for megaparsecs. -/
example : ∃ s, init exSaved none (.flag true) none = .ok s ∧ s.get_code_rhoH (fun _ => 2e-9) 5 =
    .ok (2e-9 * (1.98892e43 / 3.085678e21 ^ 3 * 0.68 ^ 2 / 1.67262178e-24 * (1 + 2) ^ 3)) := by
  obtain ⟨o, ho, hr, -⟩ := exSaved_made
  obtain ⟨s, hs⟩ := default_made ho (i := 7) rfl (by rw [hr]; norm_num)
  exact ⟨s, hs, saved_density hs rfl rfl rfl _ _⟩

/-- A table of photoionisation rates. -/
noncomputable def exTreecool : Treecool := fun name =>
  if name = "data/TREECOOL_ep_2018p" then .ok (fun _ => .ok (1e-12, 5e-13, 1e-15)) else .error .ioError

theorem gray_three : Interp.graySS 3 = 2.15e-18 := by
  unfold Interp.graySS Interp.interp1dFill Interp.interp1d
  rw [if_neg (by norm_num)]
  have h : Interp.searchsorted (fun i : ℕ => (i : ℝ)) 3 6 = 3 := by
    norm_num [Interp.searchsorted]
  rw [h]
  norm_num

/-- Spectra with a rate network and a tolerance of the user's. -/
theorem exRate_made : ∃ o g, init exFresh (some (rateGas exTreecool)) (.flag true)
    (some [("converge", .num 1000), ("temp_factor", .num 2), ("gamma_factor", .num 1.3)]) =
      .ok ⟨o, gadget, some (.rate g (.snapshot 7))⟩ ∧ o.red = 3 ∧ o.hubble = 7 / 10 := by
  obtain ⟨o, ho, hr, hh⟩ := exFresh_made
  obtain ⟨g, hg⟩ := rate_gas_exists 2 1.3
  have h := (rate_object ho (tc := exTreecool) (sf := .flag true)
    (args := some [("converge", .num 1000), ("temp_factor", .num 2), ("gamma_factor", .num 1.3)]) (i := 7)
    (snap := .snapshot 7) (v := .units gadget) (z := 3) (h := 0.7) (f := 0.17) (tf := 2) (gf := 1.3) (pf := 1) (cv := 1000)
    (u := gadget) (b := true) (ss := true) (co := true) (file := "data/TREECOOL_ep_2018p") (rc := "V96") (cl := "Sherwood")
    (rates := fun _ => .ok (1e-12, 5e-13, 1e-15)) (g0 := 1e-12) (g1 := 5e-13) (g2 := 1e-15)
    (by simp [IsDict, entries]) (by simp [entries, rateNames, gasNames]) rfl (.inr ⟨by simp [entries], by rw [hr]⟩)
    (.inr ⟨by simp [entries], rfl⟩) (.inr ⟨by simp [entries], by rw [hh]; norm_num⟩) (.inr ⟨by simp [entries], rfl⟩)
    (.inr ⟨by simp [entries], rfl⟩) (.inl rfl) (.inr ⟨by simp [entries], rfl⟩) (.inl (by simp [entries]))
    (.inl (by simp [entries])) (.inr ⟨by simp [entries], rfl⟩) (.inl (by simp [entries])) (.inr ⟨by simp [entries], rfl⟩)
    (.inr ⟨by simp [entries], rfl⟩) (.inr ⟨by simp [entries], rfl⟩) (.inr ⟨by simp [entries], rfl⟩) (by decide)
    (.inr ⟨by simp [entries], rfl⟩) rfl rfl (by norm_num)).1 g
  rw [gray_three] at h
  exact ⟨o, g, h hg, hr, hh⟩

/-- Its options. -/
example : ∃ o g, init exFresh (some (rateGas exTreecool)) (.flag true)
    (some [("converge", .num 1000), ("temp_factor", .num 2), ("gamma_factor", .num 1.3)]) =
      .ok ⟨o, gadget, some (.rate g (.snapshot 7))⟩ ∧ g.gas.redshift = 3 ∧ g.net.converge = 1000 ∧ g.temp_factor = 2 ∧
      g.gamma_factor = 1.3 := by
  obtain ⟨o, g, hs, hr, hh⟩ := exRate_made
  obtain ⟨g', rates, h1, h2, -, -, -, -, h7, h8, -, h10, -⟩ := rate_options hs rfl (i := 7)
    (snap := .snapshot 7) (v := .units gadget) (z := 3) (h := 0.7) (f := 0.17) (tf := 2) (gf := 1.3) (pf := 1) (cv := 1000)
    (u := gadget) (b := true) (ss := true) (co := true) (file := "data/TREECOOL_ep_2018p") (rc := "V96")
    (by simp [IsDict, entries]) rfl (.inr ⟨by simp [entries], by rw [hr]⟩)
    (.inr ⟨by simp [entries], rfl⟩) (.inr ⟨by simp [entries], by rw [hh]; norm_num⟩) (.inr ⟨by simp [entries], rfl⟩)
    (.inr ⟨by simp [entries], rfl⟩) (.inl rfl) (.inr ⟨by simp [entries], rfl⟩) (.inl (by simp [entries]))
    (.inl (by simp [entries])) (.inr ⟨by simp [entries], rfl⟩) (.inl (by simp [entries])) (.inr ⟨by simp [entries], rfl⟩)
    (.inr ⟨by simp [entries], rfl⟩) (.inr ⟨by simp [entries], rfl⟩) (.inr ⟨by simp [entries], rfl⟩)
  cases h1
  exact ⟨o, g, hs, h2, h10, h7, h8⟩

/-- A mistyped option of the network, where there is no snapshot to notice it. -/
example : ∃ s, init exAlone (some (rateGas exTreecool)) (.flag true) (some [("f_bar", .num 0.16)]) = .ok s ∧ s.gas = none := by
  obtain ⟨o, ho⟩ := exAlone_made
  obtain ⟨s, hs, -⟩ := no_snapshot ho rfl (some (rateGas exTreecool)) (.flag true) (some [("f_bar", .num 0.16)])
  exact ⟨s, hs, rate_unknown_option hs (k := "f_bar") (v := .num 0.16) (by simp [entries]) (by decide)⟩

/-- A cooling table with a wrong name. -/
example : ∃ s, init exAlone (some (rateGas exTreecool)) (.flag true) (some [("cool", .text "sherwood")]) = .ok s ∧ s.gas = none := by
  obtain ⟨o, ho⟩ := exAlone_made
  obtain ⟨s, hs, -⟩ := no_snapshot ho rfl (some (rateGas exTreecool)) (.flag true) (some [("cool", .text "sherwood")])
  exact ⟨s, hs, rate_unknown_cooling hs (by simp [IsDict, entries]) (v := .text "sherwood") (by simp [entries]) (by simp)⟩

/-- `RateNetworkSpectra` with twice the ionising background. -/
example : ∃ ob, exFresh.construct = .ok ob ∧ ∀ g,
    RateGas.Obj.init (fun _ _ => .ok ⟨Rates.Verner96, 1e-12, 5e-13, 1e-15, Interp.graySS ob.red, 2, 0.17, 1e-7, true, true⟩) ob.red
      0.71 0.17 gadget true 1 1 = .ok g →
    rateSpectra exTreecool exFresh { photo_factor := .num 2 } none none = .ok ⟨ob, gadget, some (.rate g (.snapshot 7))⟩ := by
  obtain ⟨o, ho, hr, -⟩ := exFresh_made
  exact ⟨o, ho, (rate_spectra_object ho (tc := exTreecool) (o := { photo_factor := .num 2 }) (i := 7) rfl rfl rfl rfl rfl rfl rfl rfl
    rfl (rates := fun _ => .ok (1e-12, 5e-13, 1e-15)) rfl rfl (by rw [hr]; norm_num) none none).1⟩

end Verif.Props.HandOff
