import Verif.Model.RateGas
import Verif.Model.Construct

/-!
Model of the end of `Spectra.__init__`, `fake_spectra/spectra.py:252-262`, where the object that answers for temperatures and
neutral fractions is made, of the constructors it can call (`gas_properties.py:30-62`, `ratenetworkspectra.py:11-28`,
`rate_network.py:47-81`) and of `RateNetworkSpectra.__init__`, `ratenetworkspectra.py:128-140`. The rest of the constructor is
Model/Construct.

Not modelled: a Hubble parameter of zero, arguments given to the classes by position, and numbers other than 0 and 1 for
`collisional`. A value of the wrong type for `fbar`, `temp_factor`, `gamma_factor`, `photo_factor` or `converge` is refused
here at once; in the code it is stored, and refused when it is first used.
-/

namespace Verif.HandOff

/-- The Python values that can be given for an option. A snapshot is known by a number. -/
inductive Val where
  | none
  | num (x : ℝ)
  | flag (b : Bool)
  | text (s : String)
  | units (u : Units.UnitSystem)
  | snapshot (i : ℕ)

/-- A dictionary of keyword arguments. Of several entries for a name the first counts. -/
abbrev Dict := List (String × Val)

/-- `d.get(k)`. -/
def lookup (d : Dict) (k : String) : Option Val := (d.find? (fun p => p.1 == k)).map Prod.snd

/-- `d.update(e)`, spectra.py:258. -/
def update (d e : Dict) : Dict := e ++ d

/-- The parameters of a function, with their defaults if they have one, and whether it takes other keywords. -/
structure Sig where
  params : List (String × Option Val)
  rest : Bool

/-- The names of the parameters. -/
def Sig.names (s : Sig) : List String := s.params.map Prod.fst

/-- The default of a parameter. -/
def Sig.default (s : Sig) (k : String) : Option Val := (s.params.find? (fun p => p.1 == k)).bind Prod.snd

/-- Python's call `f(**kw)`: the values of the parameters and the keywords left for `**kwargs`. A name which is not a
parameter, or a parameter without default that is not given, is a `TypeError`. -/
def call (s : Sig) (kw : Dict) : Py ((String → Val) × Dict) :=
  if !s.rest && kw.any (fun p => !s.names.contains p.1) then .error .typeError
  else if s.params.any (fun p => p.2.isNone && (lookup kw p.1).isNone) then .error .typeError
  else .ok (fun k => (lookup kw k).getD ((s.default k).getD .none), kw.filter (fun p => !s.names.contains p.1))

/-- A value in arithmetic. -/
noncomputable def asNum : Val → Py ℝ
  | .num x => .ok x
  | .flag b => .ok (if b then 1 else 0)
  | _ => .error .typeError

open Classical in
/-- The truth value. -/
noncomputable def truth : Val → Bool
  | .none => false
  | .num x => decide (x ≠ 0)
  | .flag b => b
  | .text s => s ≠ ""
  | .units _ => true
  | .snapshot _ => true

/-- gas_properties.py:31-34 and the uses of `self.units` in `_get_rho_thresh`: `None` means the default, anything else must
have the attributes of a unit system. -/
noncomputable def asUnits : Val → Py Units.UnitSystem
  | .none => .ok Units.gadget
  | .units u => .ok u
  | _ => .error .attributeError

/-- The parameters of `GasProperties`, gas_properties.py:30. -/
noncomputable def gasSig : Sig :=
  ⟨[("redshift", none), ("absnap", none), ("hubble", some (.num 0.71)), ("fbar", some (.num 0.17)), ("units", some .none),
    ("sf_neutral", some (.flag true))], false⟩

/-- The parameters of `RateNetworkGas`, ratenetworkspectra.py:11. -/
noncomputable def rateGasSig : Sig :=
  ⟨[("redshift", none), ("absnap", none), ("hubble", some (.num 0.71)), ("fbar", some (.num 0.17)), ("units", some .none),
    ("sf_neutral", some (.flag true)), ("temp_factor", some (.num 1)), ("gamma_factor", some (.num 1))], true⟩

/-- The parameters of `RateNetwork`, rate_network.py:47. -/
noncomputable def netSig : Sig :=
  ⟨[("redshift", none), ("photo_factor", some (.num 1)), ("f_bar", some (.num 0.17)), ("converge", some (.num 1e-7)),
    ("selfshield", some (.flag true)), ("cool", some (.text "Sherwood")), ("recomb", some (.text "V96")),
    ("collisional", some (.flag true)), ("treecool_file", some (.text "data/TREECOOL_ep_2018p"))], false⟩

/-- The object for gas properties, with the snapshot it reads. -/
inductive GasObj where
  | code (g : Gas.Obj) (absnap : Val)
  | rate (g : RateGas.Obj) (absnap : Val)

/-- The attributes shared by both classes. -/
def GasObj.base : GasObj → Gas.Obj
  | .code g _ => g
  | .rate g _ => g.gas

/-- The numbers that `GasProperties.__init__` uses, in the order in which it meets them, gas_properties.py:31-62: the redshift
(compared with the table), the units and the Hubble parameter (in the star formation threshold). -/
noncomputable def gasArgs (a : String → Val) : Py (ℝ × ℝ × ℝ × Units.UnitSystem) := do
  let z ← asNum (a "redshift")
  let _ ← Gas.uvbAt z
  let u ← asUnits (a "units")
  let h ← asNum (a "hubble")
  let f ← asNum (a "fbar")
  pure (z, h, f, u)

/-- `GasProperties(**kw)`, gas_properties.py:30-62. -/
noncomputable def gasProperties (kw : Dict) : Py GasObj := do
  let (a, _) ← call gasSig kw
  let (z, h, f, u) ← gasArgs a
  let g ← Gas.Obj.init z h f u (truth (a "sf_neutral"))
  pure (.code g (a "absnap"))

/-- The photoionisation rates of neutral hydrogen, neutral helium and singly ionised helium at a redshift, from a file:
`PhotoRates`, rate_network.py:434-486. -/
abbrev Treecool := String → Py (ℝ → Py (ℝ × ℝ × ℝ))

/-- The cooling tables known to `RateNetwork.__init__`, rate_network.py:57-64. -/
def coolKnown : Val → Bool
  | .text s => s = "KWH" || s = "Sherwood" || s = "Nyx"
  | _ => false

/-- rate_network.py:48-53. -/
noncomputable def recombVal : Val → Rates.Recomb
  | .text s => Rates.recombOf s
  | _ => Rates.Cen92

/-- `RateNetwork(redshift, f_bar=fbar, **more)`, ratenetworkspectra.py:13 and rate_network.py:47-81. The rates are looked up at the
redshift by the first use of the network, which is in the same constructor. -/
noncomputable def rateNetwork (treecool : Treecool) (more : Dict) (z fbar : ℝ) : Py Rates.Net := do
  if (lookup more "redshift").isSome || (lookup more "f_bar").isSome then .error .typeError
  let (a, _) ← call netSig (("redshift", .num z) :: ("f_bar", .num fbar) :: more)
  let rates ← match a "treecool_file" with
    | .text s => treecool s
    | _ => .error .typeError
  if !coolKnown (a "cool") then .error .valueError
  let photo_factor ← asNum (a "photo_factor")
  let f_bar ← asNum (a "f_bar")
  let converge ← asNum (a "converge")
  let zr ← asNum (a "redshift")
  let (gH0, gHe0, gHep) ← rates zr
  pure { recomb := recombVal (a "recomb"), gH0 := gH0, gHe0 := gHe0, gHep := gHep, gray := Interp.graySS zr,
         photo_factor := photo_factor, f_bar := f_bar, converge := converge, selfshield := truth (a "selfshield"),
         collisional := truth (a "collisional") }

/-- `RateNetworkGas(**kw)`, ratenetworkspectra.py:11-28. -/
noncomputable def rateGas (treecool : Treecool) (kw : Dict) : Py GasObj := do
  let (a, more) ← call rateGasSig kw
  let (z, h, f, u) ← gasArgs a
  let tf ← asNum (a "temp_factor")
  let gf ← asNum (a "gamma_factor")
  let g ← RateGas.Obj.init (rateNetwork treecool more) z h f u (truth (a "sf_neutral")) tf gf
  pure (.rate g (a "absnap"))

/-- What the end of `__init__` uses of the object. `snap` is missing if no snapshot was found (spectra.py:154-155). -/
structure Self where
  red : ℝ
  hubble : ℝ
  units : Units.UnitSystem
  snap : Option ℕ

/-- The dictionary of spectra.py:256. -/
def ownArgs (o : Self) (i : ℕ) (sf_neutral : Val) : Dict :=
  [("redshift", .num o.red), ("absnap", .snapshot i), ("hubble", .num o.hubble), ("units", .units o.units),
   ("sf_neutral", sf_neutral)]

/-- spectra.py:252-262: the attribute `gasprop`, if it is set. -/
def handOff {G : Type} (cls : Dict → Py G) (o : Self) (sf_neutral : Val) (args : Option Dict) : Py (Option G) :=
  match o.snap with
  | none => .ok none
  | some i =>
    match cls (match args with
        | some e => update (ownArgs o i sf_neutral) e
        | none => ownArgs o i sf_neutral) with
    | .ok g => .ok (some g)
    | .error .attributeError => .ok none
    | .error e => .error e

/-- The arguments and files of `Spectra.__init__`. A snapshot comes with its number and the three units of its header, if it
has them. -/
structure Input where
  a : Construct.Args
  units : Option Units.UnitSystem
  snap : Option (ℕ × Construct.Snap × Option Units.UnitSystem)
  saved : Py Construct.Saved

/-- The attribute `units`, spectra.py:102-105 and 190-194 with abstractsnapshot.py:102-112: a new object takes the snapshot's, an
object from a savefile the argument. -/
noncomputable def Input.unitSystem (inp : Input) : Units.UnitSystem :=
  if inp.a.reload then ((inp.snap.bind (fun s => s.2.2)).getD Units.gadget) else inp.units.getD Units.gadget

/-- The part of `Spectra.__init__` before the gas properties, spectra.py:85-251. -/
noncomputable def Input.construct (inp : Input) : Py Construct.Obj :=
  Construct.construct { inp.a with units := inp.units.map (fun u => u.UnitLength_in_cm) }
    (inp.snap.map (fun s => { s.2.1 with unitLength := s.2.2.map (fun u => u.UnitLength_in_cm) })) inp.saved

/-- The object made by `Spectra.__init__`. -/
structure Spectrum where
  obj : Construct.Obj
  units : Units.UnitSystem
  gas : Option GasObj

/-- `Spectra.__init__`, spectra.py:85-264. -/
noncomputable def init (inp : Input) (gasprop : Option (Dict → Py GasObj)) (sf_neutral : Val) (args : Option Dict) :
    Py Spectrum := do
  let o ← inp.construct
  let g ← handOff (gasprop.getD gasProperties) ⟨o.red, o.hubble, inp.unitSystem, inp.snap.map Prod.fst⟩ sf_neutral args
  pure ⟨o, inp.unitSystem, g⟩

/-- A use of `self.gasprop`, spectra.py:576, 585, 597. -/
def Spectrum.use {α : Type} (s : Spectrum) (f : GasObj → Py α) : Py α :=
  match s.gas with
  | none => .error .attributeError
  | some g => f g

/-- `self.gasprop.get_code_rhoH(0, segment)`, spectra.py:576: the density of the `i`-th particle. -/
noncomputable def Spectrum.get_code_rhoH (s : Spectrum) (density : ℕ → ℝ) (i : ℕ) : Py ℝ :=
  s.use (fun g => .ok (g.base.get_code_rhoH density i))

/-- The options of `RateNetworkSpectra`, ratenetworkspectra.py:130-133. -/
structure RateOpts where
  photo_factor : Val := .num 1
  sf_neutral : Val := .flag true
  selfshield : Val := .flag true
  temp_factor : Val := .num 1
  gamma_factor : Val := .num 1
  hubble : Val := .num 0.71
  fbar : Val := .num 0.17
  treecool_file : Val := .text "data/TREECOOL_ep_2018p"

/-- The dictionary of ratenetworkspectra.py:136-139. -/
def RateOpts.args (o : RateOpts) : Dict :=
  [("photo_factor", o.photo_factor), ("selfshield", o.selfshield), ("temp_factor", o.temp_factor),
   ("gamma_factor", o.gamma_factor), ("hubble", o.hubble), ("fbar", o.fbar), ("treecool_file", o.treecool_file)]

/-- `RateNetworkSpectra.__init__`, ratenetworkspectra.py:130-140. `gasprop` and `args` are the keywords of those names, if the
caller gives them: they are overwritten. -/
noncomputable def rateSpectra (treecool : Treecool) (inp : Input) (o : RateOpts) (_gasprop : Option (Dict → Py GasObj))
    (_args : Option Dict) : Py Spectrum :=
  init inp (some (rateGas treecool)) o.sf_neutral (some o.args)

end Verif.HandOff
