import Verif.Model.Extract
import Verif.Props.CReader
import Verif.Props.CExtract
import Verif.Props.CStatistic
import Verif.Props.Additive
import Verif.Props.EndToEnd

/-!
C105: what the stand-alone extractor, run with its options on a snapshot, leaves behind.
-/

namespace Verif.Props.Extract

open Verif Verif.Extract Verif.CReader Verif.CTools Verif.PartInt Verif.Absorption
open Verif.Props.CReader (Holds Particle nHI temperature expected)
open Verif.Props.CExtract (fileName Snapshot OnlyAtEnd Given full RowOk)

/-! ### Options -/

/-- Arguments of the options `-o`, `-i`, `-n`, `-t`. -/
def oArg : Opt → Option (List Char)
  | .o s => some s
  | _ => none
def iArg : Opt → Option (List Char)
  | .i s => some s
  | _ => none
def nArg : Opt → Option (List Char)
  | .n s => some s
  | _ => none
def tArg : Opt → Option (List Char)
  | .t s => some s
  | _ => none

/-- The argument an option was last given with. -/
def lastArg (f : Opt → Option (List Char)) (opts : List Opt) : Option (List Char) := (opts.filterMap f).getLast?

theorem lastArg_cons (f : Opt → Option (List Char)) (x : Opt) (opts : List Opt) :
    lastArg f (x :: opts) = (lastArg f opts).or (f x) := by
  unfold lastArg
  cases h : f x with
  | none => rw [List.filterMap_cons_none h]; simp
  | some s =>
    rw [List.filterMap_cons_some h, List.getLast?_cons]
    cases (opts.filterMap f).getLast? <;> simp

/-- Only options the program knows, and no `-h`. -/
def Plain (opts : List Opt) : Prop := ∀ x ∈ opts, x ≠ .h ∧ x ≠ .unknown

theorem options_from (opts : List Opt) (h : Plain opts) (a : Args) :
    options true opts a = .ok ⟨((lastArg oArg opts).map (· ++ datSuffix)).getD a.outname, (lastArg iArg opts).getD a.indir,
      ((lastArg nArg opts).map atoi).getD a.numLos, (lastArg tArg opts).or a.ext_table⟩ := by
  induction opts generalizing a with
  | nil => simp [options, lastArg]
  | cons x opts ih =>
    have ih := ih (fun y hy => h y (by simp [hy]))
    have hx := h x (by simp)
    simp only [lastArg_cons]
    cases x with
    | o s => rw [options, ih]; cases lastArg oArg opts <;> simp [oArg, iArg, nArg, tArg]
    | i s => rw [options, ih]; cases lastArg iArg opts <;> simp [oArg, iArg, nArg, tArg]
    | n s => rw [options, ih]; cases lastArg nArg opts <;> simp [oArg, iArg, nArg, tArg]
    | t s => rw [options, ih]; cases lastArg tArg opts <;> simp [oArg, iArg, nArg, tArg]
    | h => exact absurd rfl hx.1
    | unknown => exact absurd rfl hx.2

theorem options_bad (b : Bool) (opts : List Opt) (h : ¬ Plain opts) (a : Args) : options b opts a = .error (.exit 1) := by
  induction opts generalizing a with
  | nil => exact absurd (fun x hx => by cases hx) h
  | cons x opts ih =>
    have ih' : x ≠ .h → x ≠ .unknown → ∀ a, options b opts a = .error (.exit 1) := fun h1 h2 => ih (fun hp => h (by
      intro y hy
      rcases List.mem_cons.1 hy with rfl | hy
      · exact ⟨h1, h2⟩
      · exact hp y hy))
    cases x with
    | o s => rw [options]; exact ih' (by simp) (by simp) _
    | i s => rw [options]; exact ih' (by simp) (by simp) _
    | n s => rw [options]; exact ih' (by simp) (by simp) _
    | t s => rw [options]; exact ih' (by simp) (by simp) _
    | h => rw [options]
    | unknown => rw [options]

theorem leading_digits (w : List Char) (h : ∀ c ∈ w, 48 ≤ c.toNat ∧ c.toNat ≤ 57) (a : ℕ) :
    leading a w = w.foldl (fun a c => 10 * a + (c.toNat - 48)) a := by
  induction w generalizing a with
  | nil => rfl
  | cons c w ih => rw [leading, if_pos (h c (by simp)), List.foldl_cons, ih (fun d hd => h d (by simp [hd]))]

theorem dec_digits (n : ℕ) : ∀ c ∈ dec n, 48 ≤ c.toNat ∧ c.toNat ≤ 57 := by
  induction n using Nat.strong_induction_on with
  | _ n ih =>
    intro c hc
    rw [dec] at hc
    split at hc
    · rename_i h
      rw [List.mem_singleton] at hc
      rw [hc, CExtract.digit_toNat h]
      omega
    · rename_i h
      rw [List.mem_append, List.mem_singleton] at hc
      rcases hc with hc | rfl
      · exact ih _ (by omega) c hc
      · rw [CExtract.digit_toNat (by omega)]
        omega

/-- The number of sightlines is understood as written. -/
theorem atoi_dec (n : ℕ) : atoi (dec n) = n := by
  obtain ⟨c, w, hw⟩ := List.exists_cons_of_ne_nil (CExtract.dec_ne n)
  have hd := dec_digits n
  have hc := hd c (by rw [hw]; simp)
  have hb : isBlank c = false := by
    unfold isBlank
    simp only [Bool.or_eq_false_iff, beq_eq_false_iff_ne, ne_eq]
    refine ⟨⟨⟨⟨⟨?_, ?_⟩, ?_⟩, ?_⟩, ?_⟩, ?_⟩ <;> (rintro rfl; revert hc; decide)
  have h1 : (dec n).dropWhile isBlank = dec n := by
    rw [hw, List.dropWhile_cons, hb]
    rfl
  have hv : (leading 0 (dec n) : ℤ) = n := by
    rw [leading_digits _ hd]
    exact_mod_cast CExtract.value_dec n
  unfold atoi
  rw [h1]
  split
  · rename_i r hr
    exact absurd (hd '-' (by rw [hr]; simp)) (by decide)
  · rename_i r hr
    exact absurd (hd '+' (by rw [hr]; simp)) (by decide)
  · exact hv

/-- A number with a minus sign is understood as written: the program stops for it. -/
theorem atoi_minus (n : ℕ) : atoi ('-' :: dec n) = -n := by
  have h1 : ('-' :: dec n).dropWhile isBlank = '-' :: dec n := by
    rw [List.dropWhile_cons]
    rfl
  have hv : (leading 0 (dec n) : ℤ) = n := by
    rw [leading_digits _ (dec_digits n)]
    exact_mod_cast CExtract.value_dec n
  unfold atoi
  rw [h1]
  simp only [hv]

/-! ### Sightlines -/

/-- The sightline of a row of a table with positions in thousandths. -/
noncomputable def rowLine (r : ℤ × ℝ × ℝ × ℝ) : Line := ⟨r.1, ![r.2.1 * 1000, r.2.2.1 * 1000, r.2.2.2 * 1000]⟩

/-- The sightlines `lines` are those of the table, at least `n` valid rows of numbers, or drawn at random. -/
inductive Sightlines (disk : Disk) (drand : List ℝ) (n : ℕ) (box : ℝ) : Option (List Char) → List Line → Prop
  | table (name : List Char) (rows : List (ℤ × ℝ × ℝ × ℝ)) (rest : List Scan) (hlen : rows.length = n)
      (hfile : disk.table name = some (rows.map full ++ rest)) (hok : ∀ r ∈ rows, 1 ≤ r.1 ∧ RowOk (box / 1000) r) :
      Sightlines disk drand n box (some name) (rows.map rowLine)
  | random (los : List Los) (hu : ∀ u ∈ drand, 0 ≤ u ∧ u < 1) (hdraw : populateRandom box n drand = some los)
      (lines : List Line) (hlines : los.mapM lineOf = .ok lines) : Sightlines disk drand n box none lines

theorem mapM_lineOf (los : List Los) {lines : List Line} (h : los.mapM lineOf = .ok lines) :
    lines.length = los.length ∧ ∀ l ∈ lines, ∃ s ∈ los, lineOf s = .ok l := by
  induction los generalizing lines with
  | nil => rw [List.mapM_nil] at h; cases h; simp
  | cons s los ih =>
    rw [List.mapM_cons] at h
    simp only [bind, Except.bind] at h
    split at h
    · cases h
    · rename_i l hl
      split at h
      · cases h
      · rename_i ls hls
        cases h
        obtain ⟨i1, i2⟩ := ih hls
        refine ⟨by simp [i1], ?_⟩
        intro l' hl'
        rcases List.mem_cons.1 hl' with rfl | hl'
        · exact ⟨s, by simp, hl⟩
        · obtain ⟨t, ht, e⟩ := i2 l' hl'
          exact ⟨t, by simp [ht], e⟩

theorem mapM_rows (rows : List (ℤ × ℝ × ℝ × ℝ)) : (rows.map CExtract.losOf).mapM lineOf = .ok (rows.map rowLine) := by
  induction rows with
  | nil => rfl
  | cons r rows ih =>
    rw [List.map_cons, List.mapM_cons, ih]
    rfl

theorem sightlines_ok {disk : Disk} {drand : List ℝ} {n : ℕ} {box : ℝ} (hbox : 0 < box) {table : Option (List Char)}
    {lines : List Line} (h : Sightlines disk drand n box table lines) {a : Args} (hn : a.numLos = n)
    (ht : a.ext_table = table) :
    (∃ los, populate disk drand a box = some (.ok los) ∧ los.mapM lineOf = .ok lines) ∧ lines.length = n ∧
      ∀ l ∈ lines, GoodLine box l := by
  cases h with
  | table name rows rest hlen hfile hok =>
    refine ⟨⟨rows.map CExtract.losOf, ?_, mapM_rows rows⟩, by simpa using hlen, ?_⟩
    · unfold populate populateTable
      rw [ht]
      simp only [hfile, hn, Int.toNat_natCast]
      rw [← hlen, CExtract.table_read rows (fun r hr => (hok r hr).2)]
    · intro l hl
      obtain ⟨r, hr, rfl⟩ := List.mem_map.1 hl
      obtain ⟨h1, ⟨h2, h3⟩, hx, hy, hz⟩ := hok r hr
      refine ⟨by unfold rowLine; dsimp only; omega, ?_⟩
      intro i
      unfold rowLine
      fin_cases i
      · simp only [Matrix.cons_val_zero, Fin.zero_eta]; constructor <;> linarith
      · simp only [Fin.mk_one, Matrix.cons_val_one, Matrix.cons_val_zero]; constructor <;> linarith
      · simp only [Fin.reduceFinMk, Matrix.cons_val]; constructor <;> linarith
  | random los hu hdraw lines hlines =>
    obtain ⟨v1, v2⟩ := CExtract.random_valid hbox n hu hdraw
    obtain ⟨m1, m2⟩ := mapM_lineOf los hlines
    refine ⟨⟨los, ?_, hlines⟩, by omega, ?_⟩
    · unfold populate
      rw [ht, hn]
      simp only [Int.toNat_natCast, hdraw, Option.map_some]
    · intro l hl
      obtain ⟨s, hs, e⟩ := m2 l hl
      obtain ⟨h1, x, y, z, ex, ey, ez, hx, hy, hz⟩ := v2 s hs
      unfold lineOf at e
      rw [ex, ey, ez] at e
      cases e
      refine ⟨by dsimp only; omega, ?_⟩
      intro i
      fin_cases i
      · simp only [Matrix.cons_val_zero, Fin.zero_eta]; constructor <;> linarith
      · simp only [Fin.mk_one, Matrix.cons_val_one, Matrix.cons_val_zero]; constructor <;> linarith
      · simp only [Fin.reduceFinMk, Matrix.cons_val]; constructor <;> linarith

/-! ### Particles -/

/-- A gas particle of the snapshot in the units of the interpolator. -/
noncomputable def gasPart (hd : SnapHeader) (p : Particle) : Part :=
  ⟨p.pos, p.vel, nHI ⟨hd.atime, hd.h100⟩ p * (3.085678e21 * hd.atime / hd.h100), temperature p, p.h⟩

theorem mapM_partOf (hd : SnapHeader) (ps : List Particle) :
    (ps.map (expected ⟨hd.atime, hd.h100⟩)).mapM partOf = .ok (ps.map (gasPart hd)) := by
  induction ps with
  | nil => rfl
  | cons p ps ih =>
    rw [List.map_cons, List.mapM_cons, ih]
    rfl

theorem runFiles_eq {hd : SnapHeader} {L : LineAbsorption} (hk : L.kernel ≠ VORONOI_MESH) {box : ℝ} {lines : List Line}
    (hax : ∀ l ∈ lines, l.axis = 1 ∨ l.axis = 2 ∨ l.axis = 3) {fs : List HFile} {pss : List (List Particle)}
    (h : List.Forall₂ Holds fs pss) (P : Mem) {tau colden : List ℝ} (ht : tau.length = lines.length * NBINS)
    (hc : colden.length = lines.length * NBINS) :
    runFiles L ⟨hd.atime, hd.h100⟩ box lines fs P tau colden = (do
      let t ← compute_tau L NBINS box lines (pss.flatten.map (gasPart hd)) tau
      let c ← compute_colden L NBINS box lines (pss.flatten.map (gasPart hd)) colden
      pure (t, c)) := by
  have hn : 0 < NBINS := by decide
  induction h generalizing P tau colden with
  | nil =>
    rw [runFiles, List.flatten_nil, List.map_nil, compute_tau_eq L hk hn box lines hax [] tau ht,
      compute_colden_eq L hk hn box lines hax [] colden hc]
    simp only [List.map_nil, List.sum_nil, arrAdd_zero]
    rfl
  | cons hf _ ih =>
    rename_i f ps fs pss _
    have e1 := (interpolation_order_batches L hk hn box lines hax _ (Or.inr rfl) tau ht).2 (ps.map (gasPart hd))
      (pss.flatten.map (gasPart hd))
    have e2 := (interpolation_order_batches L hk hn box lines hax _ (Or.inl rfl) colden hc).2 (ps.map (gasPart hd))
      (pss.flatten.map (gasPart hd))
    rw [List.flatten_cons, List.map_append, e1, e2, runFiles, CReader.file_read_partial _ hf]
    simp only [bind, Except.bind, mapM_partOf]
    rw [compute_tau_eq L hk hn box lines hax (ps.map (gasPart hd)) tau ht,
      compute_colden_eq L hk hn box lines hax (ps.map (gasPart hd)) colden hc]
    simp only
    rw [ih _ (by simpa using ht) (by simpa using hc)]
    rfl

/-! ### The whole program -/

/-- The options ask for `n` sightlines, from `table` if there is one, through the snapshot `indir`, and for output under the
name `out`. -/
structure Request (opts : List Opt) (out indir : List Char) (n : ℕ) (table : Option (List Char)) : Prop where
  plain : Plain opts
  o : lastArg oArg opts = some out
  i : lastArg iArg opts = some indir
  n : lastArg nArg opts = some (dec n)
  t : lastArg tArg opts = table

/-- The snapshot `base` consists of `N` files, file `j` holding the gas particles `gas j`, all in the box and smaller than half
of it. -/
structure Stored (disk : Disk) (base : List Char) (N : ℕ) (hd : SnapHeader) (gas : ℕ → List Particle) : Prop where
  files : Snapshot disk.isHdf base N
  pos : 0 < N
  suffix : OnlyAtEnd base
  header : disk.header (fileName base 0) = some hd
  some : 0 < hd.npart
  box : 0 < hd.box100
  holds : ∀ j < N, Holds (disk.file (fileName base j)) (gas j)
  good : ∀ j < N, ∀ p ∈ gas j, GoodPart hd.box100 (p.pos, p.h)

open Classical in
/-- The optical depths `tau` of a sightline: what results from depositing, one after the other, the particles closer to it
than their length. -/
def SightlineTau (L : LineAbsorption) (box : ℝ) (parts : List Part) (l : Line) (tau : List ℝ) : Prop :=
  (parts.filter (fun p => Spec.transDist2 box l.axis p.pos l.cofm < p.h ^ 2)).foldlM
    (fun a p => add_tau_particle L a 0 1024 (Spec.transDist2 box l.axis p.pos l.cofm) p.dens (axisCoord p.pos l.axis)
      (axisCoord p.vel l.axis) p.temp p.h) (List.replicate 1024 0) = .ok tau

open Classical in
/-- The column densities of a sightline: the same. -/
def SightlineColden (L : LineAbsorption) (box : ℝ) (parts : List Part) (l : Line) (colden : List ℝ) : Prop :=
  (parts.filter (fun p => Spec.transDist2 box l.axis p.pos l.cofm < p.h ^ 2)).foldlM
    (fun a p => add_colden_particle L a 0 1024 (Spec.transDist2 box l.axis p.pos l.cofm) p.dens (axisCoord p.pos l.axis)
      p.h) (List.replicate 1024 0) = .ok colden

/-- The program ends well, having written, under the name `out` with `_spectra.dat` appended, the header and the spectra of
the given particles along the given sightlines. -/
def Writes (r : Option End) (bits : ℝ → Bits) (hd : SnapHeader) (L : LineAbsorption) (parts : List Part) (lines : List Line)
    (out : List Char) : Prop :=
  ∃ tau colden : List ℝ,
    r = some (.wrote (out ++ datSuffix)
      (specFile (bits hd.redshift) (bits hd.box100) lines.length (tau.map bits) (colden.map bits))) ∧
    tau.length = 1024 * lines.length ∧ colden.length = 1024 * lines.length ∧
    ∀ i l, lines[i]? = some l → SightlineTau L hd.box100 parts l (lineSpectrum tau 1024 i) ∧
      SightlineColden L hd.box100 parts l (lineSpectrum colden 1024 i)

/-- The Lyman alpha line of hydrogen with the cubic spline kernel, and the Hubble rate of the snapshot in km/s per unit of
length. -/
noncomputable def lyman (profile : ℝ → ℝ → ℝ) (hd : SnapHeader) : LineAbsorption :=
  LineAbsorption.mk' profile 1215.6701e-8 6.265e8 0.4164 1.00794
    (hd.atime / hd.h100 * (100 * hd.h100 * Real.sqrt (1 + hd.Omega0 * (1 / hd.atime - 1) + hd.OmegaLambda * (hd.atime ^ 2 - 1))
      / hd.atime) / 1e3) hd.box100 SPH_CUBIC_SPLINE 1e-5

theorem interpolator_lyman (profile : ℝ → ℝ → ℝ) (hd : SnapHeader) : interpolator profile hd = lyman profile hd := by
  unfold interpolator lyman mainVelfac headerHz HMASS SPH_CUBIC_SPLINE
  norm_num

theorem forall₂_map {α β γ : Type} {R : β → γ → Prop} (l : List α) (f : α → β) (g : α → γ) (h : ∀ x ∈ l, R (f x) (g x)) :
    List.Forall₂ R (l.map f) (l.map g) := by
  induction l with
  | nil => exact .nil
  | cons x l ih => exact .cons (h x (by simp)) (ih (fun y hy => h y (by simp [hy])))

theorem runReads_hdf (L : LineAbsorption) (c : Cosmo) (box : ℝ) (lines : List Line) (disk : Disk) (names : List (List Char))
    (tau colden : List ℝ) :
    runReads L c box lines disk (names.map Read.hdf) tau colden = runFiles L c box lines (names.map disk.file) .wild tau colden := by
  have e : (names.map Read.hdf).filterMap disk.fileOf = names.map disk.file := by
    rw [List.filterMap_map, ← List.filterMap_eq_map]
    rfl
  unfold runReads
  split
  · rename_i nm h
    cases names with
    | nil => simp at h
    | cons x xs => simp at h
  · rw [e]

/-- The first file of the snapshot is found, from its name or from that of the snapshot. -/
theorem header_found {disk : Disk} {base indir : List Char} {N : ℕ} {hd : SnapHeader} {gas : ℕ → List Particle}
    (hs : Stored disk base N hd gas) (hg : Given base indir) :
    (find_first_hdf_file disk.isHdf indir).bind (load_hdf5_header disk) = some (0, hd) := by
  have hfirst : disk.isHdf (fileName base 0) = true := (hs.files _).2 ⟨0, hs.pos, rfl⟩
  have hbase : disk.isHdf base = false := by
    rw [Bool.eq_false_iff]
    intro hb
    obtain ⟨j, _, hj⟩ := (hs.files _).1 hb
    have := congrArg List.length hj
    simp [fileName] at this
  have hfind : find_first_hdf_file disk.isHdf indir = some (fileName base 0) := by
    unfold find_first_hdf_file
    rcases hg with rfl | rfl
    · rw [hbase, CExtract.first_name, hfirst]
      rfl
    · rw [hfirst]
      rfl
  rw [hfind, Option.bind_some]
  unfold load_hdf5_header
  rw [hs.header]
  dsimp only
  rw [if_neg (by have := hs.some; omega)]

theorem extract_eq {profile : ℝ → ℝ → ℝ} {bits : ℝ → Bits} {disk : Disk} {drand : List ℝ} {fuel : ℕ} {opts : List Opt}
    {base out indir : List Char} {n N : ℕ} {table : Option (List Char)} {hd : SnapHeader} {gas : ℕ → List Particle}
    {lines : List Line} (hr : Request opts out indir n table) (hn : 0 < n) (hn2 : n * 1024 < 2 ^ 31) (hi : indir ≠ [])
    (hs : Stored disk base N hd gas) (hg : Given base indir) (hl : Sightlines disk drand n hd.box100 table lines) :
    extract true profile bits disk drand fuel opts =
      finish profile bits disk fuel ⟨out ++ datSuffix, indir, n, table⟩ 0 hd lines := by
  unfold extract
  rw [options_from opts hr.plain, hr.o, hr.i, hr.n, hr.t]
  simp only [Option.map_some, Option.getD_some, atoi_dec, Args.init, Option.or_none]
  obtain ⟨⟨los, h1, h2⟩, -, -⟩ := sightlines_ok hs.box hl (a := ⟨out ++ datSuffix, indir, n, table⟩) rfl rfl
  rw [if_neg (by omega), if_neg hi, if_neg (by unfold NBINS; push_cast; omega), header_found hs hg]
  simp only [h1, h2]

theorem wrote_of_reads {profile : ℝ → ℝ → ℝ} {bits : ℝ → Bits} {disk : Disk} {drand : List ℝ} {fuel : ℕ} {opts : List Opt}
    {base out indir : List Char} {n N : ℕ} {table : Option (List Char)} {hd : SnapHeader} {gas : ℕ → List Particle}
    {lines : List Line} (hr : Request opts out indir n table) (hn : 0 < n) (hn2 : n * 1024 < 2 ^ 31) (hi : indir ≠ [])
    (hs : Stored disk base N hd gas) (hg : Given base indir) (hl : Sightlines disk drand n hd.box100 table lines)
    (hw : disk.canWrite (out ++ datSuffix) = true) {js : List ℕ} (hjs : ∀ j ∈ js, j < N)
    (hread : filesRead disk.isHdf indir fuel = some (js.map (fun j => Read.hdf (fileName base j)))) :
    Writes (extract true profile bits disk drand fuel opts) bits hd (lyman profile hd)
      (js.flatMap (fun j => (gas j).map (gasPart hd))) lines out := by
  obtain ⟨-, hlen, hgood⟩ := sightlines_ok hs.box hl (a := ⟨out ++ datSuffix, indir, n, table⟩) rfl rfl
  have hk : (lyman profile hd).kernel ≠ VORONOI_MESH := by
    change SPH_CUBIC_SPLINE ≠ VORONOI_MESH
    decide
  have hp : ∀ p ∈ js.flatMap (fun j => (gas j).map (gasPart hd)), GoodPart hd.box100 (p.pos, p.h) := by
    intro p hp
    obtain ⟨j, hj, hp⟩ := List.mem_flatMap.1 hp
    obtain ⟨q, hq, rfl⟩ := List.mem_map.1 hp
    exact hs.good j (hjs j hj) q hq
  obtain ⟨tau, t1, t2, t3⟩ := tau_end_to_end (lyman profile hd) hk (nbins := NBINS) (by decide) hs.box hgood hp
  obtain ⟨colden, c1, c2, c3⟩ := colden_end_to_end (lyman profile hd) hk (nbins := NBINS) (by decide) hs.box hgood hp
  refine ⟨tau, colden, ?_, ?_, ?_, fun i l hi => ⟨t3 i l hi, c3 i l hi⟩⟩
  · rw [extract_eq hr hn hn2 hi hs hg hl]
    unfold finish particleFiles
    simp only [if_true, hw, hread, Bool.true_eq_false, if_false]
    have e0 : (((n : ℕ) : ℤ) * (NBINS : ℕ)).toNat = lines.length * NBINS := by rw [hlen]; exact_mod_cast Int.toNat_natCast _
    have e1 : js.map (fun j => Read.hdf (fileName base j)) = (js.map (fileName base)).map Read.hdf := by rw [List.map_map]; rfl
    have hF : List.Forall₂ Holds ((js.map (fileName base)).map disk.file) (js.map gas) := by
      rw [List.map_map]
      exact forall₂_map js _ _ (fun j hj => hs.holds j (hjs j hj))
    have e2 : (js.map gas).flatten.map (gasPart hd) = js.flatMap (fun j => (gas j).map (gasPart hd)) := by
      rw [List.map_flatten, List.map_map, List.flatMap_def]
      rfl
    rw [e0, e1, runReads_hdf, interpolator_lyman, runFiles_eq hk (fun l hm => (hgood l hm).1) hF .wild (by simp) (by simp), e2,
      t1, c1]
    simp only [bind, Except.bind, pure, Except.pure, hlen]
  · rw [t2, NBINS, mul_comm]
  · rw [c2, NBINS, mul_comm]

/-- C105 (partial: not all the files are read, see `one_file_empty` and `CExtract.rest_never_read`). Run on a snapshot, with a
table of sightlines or without, the program writes the spectra of the gas in the second to the eleventh file. -/
theorem extract_writes_partial {profile : ℝ → ℝ → ℝ} {bits : ℝ → Bits} {disk : Disk} {drand : List ℝ} {fuel : ℕ}
    {opts : List Opt} {base out indir : List Char} {n N : ℕ} {table : Option (List Char)} {hd : SnapHeader}
    {gas : ℕ → List Particle} {lines : List Line} (hr : Request opts out indir n table) (hn : 0 < n)
    (hn2 : n * 1024 < 2 ^ 31) (hi : indir ≠ []) (hs : Stored disk base N hd gas) (hN : N ≤ 110) (hg : Given base indir)
    (hl : Sightlines disk drand n hd.box100 table lines) (hw : disk.canWrite (out ++ datSuffix) = true) (hf : N ≤ fuel) :
    Writes (extract true profile bits disk drand fuel opts) bits hd (lyman profile hd)
      ((List.range' 1 (min (N - 1) 10)).flatMap (fun j => (gas j).map (gasPart hd))) lines out := by
  refine wrote_of_reads hr hn hn2 hi hs hg hl hw ?_ (CExtract.reads_ten hs.files hs.pos hN hs.suffix hg hf)
  intro j hj
  rw [List.mem_range'_1] at hj
  omega

/-- C105 (partial, in the same way). Whatever the number of files, the spectra written are those of the gas in some of them,
no file being counted twice. -/
theorem extract_writes_some_partial {profile : ℝ → ℝ → ℝ} {bits : ℝ → Bits} {disk : Disk} {drand : List ℝ}
    {opts : List Opt} {base out indir : List Char} {n N : ℕ} {table : Option (List Char)} {hd : SnapHeader}
    {gas : ℕ → List Particle} {lines : List Line} (hr : Request opts out indir n table) (hn : 0 < n)
    (hn2 : n * 1024 < 2 ^ 31) (hi : indir ≠ []) (hs : Stored disk base N hd gas) (hg : Given base indir)
    (hl : Sightlines disk drand n hd.box100 table lines) (hw : disk.canWrite (out ++ datSuffix) = true) :
    ∃ js : List ℕ, js.Nodup ∧ (∀ j ∈ js, j < N) ∧ ∀ fuel, N ≤ fuel →
      Writes (extract true profile bits disk drand fuel opts) bits hd (lyman profile hd)
        (js.flatMap (fun j => (gas j).map (gasPart hd))) lines out := by
  obtain ⟨js, h1, h2, h3⟩ := CExtract.reads_once_partial hs.files hs.pos hs.suffix hg
  exact ⟨js, h1, h2, fun fuel hf => wrote_of_reads hr hn hn2 hi hs hg hl hw h2 (h3 fuel hf)⟩

/-! ### Where the program fails -/

/-- C105 is false of a snapshot in one file, as of every snapshot: the first file is not read. Spectra without any absorption
are written, and the program ends well. -/
theorem one_file_empty {profile : ℝ → ℝ → ℝ} {bits : ℝ → Bits} {disk : Disk} {drand : List ℝ} {fuel : ℕ}
    {opts : List Opt} {base out indir : List Char} {n : ℕ} {table : Option (List Char)} {hd : SnapHeader}
    {gas : ℕ → List Particle} {lines : List Line} (hr : Request opts out indir n table) (hn : 0 < n)
    (hn2 : n * 1024 < 2 ^ 31) (hi : indir ≠ []) (hs : Stored disk base 1 hd gas) (hg : Given base indir)
    (hl : Sightlines disk drand n hd.box100 table lines) (hw : disk.canWrite (out ++ datSuffix) = true) (hf : 1 ≤ fuel) :
    extract true profile bits disk drand fuel opts = some (.wrote (out ++ datSuffix)
      (specFile (bits hd.redshift) (bits hd.box100) n (List.replicate (n * 1024) (bits 0)) (List.replicate (n * 1024) (bits 0)))) := by
  rw [extract_eq hr hn hn2 hi hs hg hl]
  unfold finish particleFiles
  rw [if_pos rfl, CExtract.reads_ten hs.files hs.pos (by norm_num) hs.suffix hg hf]
  simp only [hw, Bool.true_eq_false, if_false]
  have e0 : (((n : ℕ) : ℤ) * (NBINS : ℕ)).toNat = n * 1024 := by exact_mod_cast Int.toNat_natCast _
  rw [e0]
  simp [runReads, runFiles]

/-- C105 is false of an HDF5 file whose name does not contain `.0.hdf5`: the output file is emptied, and then memory that was
never allocated is freed. -/
theorem plain_name_undefined {profile : ℝ → ℝ → ℝ} {bits : ℝ → Bits} {disk : Disk} {drand : List ℝ} {fuel : ℕ}
    {opts : List Opt} {out indir : List Char} {n : ℕ} {table : Option (List Char)} {hd : SnapHeader} {lines : List Line}
    (hr : Request opts out indir n table) (hn : 0 < n) (hn2 : n * 1024 < 2 ^ 31) (hi : indir ≠ [])
    (hh : disk.isHdf indir = true) (hno : ¬ firstSuffix <:+: indir) (hd1 : disk.header indir = some hd)
    (hd2 : 0 < hd.npart) (hbox : 0 < hd.box100) (hl : Sightlines disk drand n hd.box100 table lines)
    (hw : disk.canWrite (out ++ datSuffix) = true) :
    extract true profile bits disk drand fuel opts = some (.undefined (some (out ++ datSuffix))) := by
  unfold extract
  rw [options_from opts hr.plain, hr.o, hr.i, hr.n, hr.t]
  simp only [Option.map_some, Option.getD_some, atoi_dec, Args.init, Option.or_none]
  obtain ⟨⟨los, h1, h2⟩, -, -⟩ := sightlines_ok hbox hl (a := ⟨out ++ datSuffix, indir, n, table⟩) rfl rfl
  have hfind : find_first_hdf_file disk.isHdf indir = some indir := by
    unfold find_first_hdf_file
    rw [hh]
    rfl
  have hload : load_hdf5_header disk indir = some (0, hd) := by
    unfold load_hdf5_header
    rw [hd1]
    dsimp only
    rw [if_neg (by omega)]
  rw [if_neg (by omega), if_neg hi, if_neg (by unfold NBINS; push_cast; omega), hfind, Option.bind_some, hload]
  simp only [h1, h2]
  unfold finish particleFiles
  rw [if_pos rfl, CExtract.single_hdf5 hh hno]
  simp only [hw, Bool.true_eq_false, if_false]
  rfl

/-- C105 is false of an input that is not there: the program goes on with a header it has not read. -/
theorem missing_input_undefined {profile : ℝ → ℝ → ℝ} {bits : ℝ → Bits} {disk : Disk} {drand : List ℝ} {fuel : ℕ}
    {opts : List Opt} {out indir : List Char} {n : ℕ} {table : Option (List Char)} (hr : Request opts out indir n table)
    (hn : 0 < n) (hi : indir ≠ []) (h1 : disk.isHdf indir = false) (h2 : disk.isHdf (indir ++ firstSuffix) = false) :
    extract true profile bits disk drand fuel opts = some (.undefined none) := by
  unfold extract
  rw [options_from opts hr.plain, hr.o, hr.i, hr.n, hr.t]
  simp only [Option.map_some, Option.getD_some, atoi_dec, Args.init, Option.or_none]
  have hfind : find_first_hdf_file disk.isHdf indir = none := by
    unfold find_first_hdf_file
    rw [h1, h2]
    rfl
  rw [if_neg (by omega), if_neg hi, hfind, Option.bind_none]
  split <;> rfl

/-- C105 is false of a snapshot without gas: the output file is emptied, and then memory that was never allocated is freed. -/
theorem no_gas_undefined {profile : ℝ → ℝ → ℝ} {bits : ℝ → Bits} {disk : Disk} {drand : List ℝ} {fuel : ℕ}
    {opts : List Opt} {out indir : List Char} {n : ℕ} {table : Option (List Char)} {hd : SnapHeader} {lines : List Line}
    (hr : Request opts out indir n table) (hn : 0 < n) (hn2 : n * 1024 < 2 ^ 31) (hi : indir ≠ [])
    (hh : disk.isHdf indir = true) (hd1 : disk.header indir = some hd) (hd2 : hd.npart = 0) (hbox : 0 < hd.box100)
    (hl : Sightlines disk drand n hd.box100 table lines) (hw : disk.canWrite (out ++ datSuffix) = true) :
    extract true profile bits disk drand fuel opts = some (.undefined (some (out ++ datSuffix))) := by
  unfold extract
  rw [options_from opts hr.plain, hr.o, hr.i, hr.n, hr.t]
  simp only [Option.map_some, Option.getD_some, atoi_dec, Args.init, Option.or_none]
  obtain ⟨⟨los, h1, h2⟩, -, -⟩ := sightlines_ok hbox hl (a := ⟨out ++ datSuffix, indir, n, table⟩) rfl rfl
  have hfind : find_first_hdf_file disk.isHdf indir = some indir := by
    unfold find_first_hdf_file
    rw [hh]
    rfl
  have hload : load_hdf5_header disk indir = some (-1, hd) := by
    unfold load_hdf5_header
    rw [hd1]
    dsimp only
    rw [if_pos (by omega)]
  rw [if_neg (by omega), if_neg hi, if_neg (by unfold NBINS; push_cast; omega), hfind, Option.bind_some, hload]
  simp only [h1, h2]
  unfold finish particleFiles
  simp only [hw, Bool.true_eq_false, if_false]
  rfl

/-- C105 is false for more than two million sightlines: the size of the arrays is computed as an `int`. -/
theorem many_sightlines_undefined {profile : ℝ → ℝ → ℝ} {bits : ℝ → Bits} {disk : Disk} {drand : List ℝ} {fuel : ℕ}
    {opts : List Opt} {out indir : List Char} {n : ℕ} {table : Option (List Char)} (hr : Request opts out indir n table)
    (hi : indir ≠ []) (hn : 2097152 ≤ n) :
    extract true profile bits disk drand fuel opts = some (.undefined none) := by
  unfold extract
  rw [options_from opts hr.plain, hr.o, hr.i, hr.n, hr.t]
  simp only [Option.map_some, Option.getD_some, atoi_dec, Args.init, Option.or_none]
  rw [if_neg (by omega), if_neg hi, if_pos (by unfold NBINS; push_cast; omega)]

/-- C105 is false on machines whose type `char` has no sign: the program stops with an error whatever it is asked for. -/
theorem unsigned_char_stops (profile : ℝ → ℝ → ℝ) (bits : ℝ → Bits) (disk : Disk) (drand : List ℝ) (fuel : ℕ) (opts : List Opt) :
    extract false profile bits disk drand fuel opts = some (.exit 1 none) := by
  have h : ∀ a, options false opts a = .error (.exit 1) := by
    induction opts with
    | nil => intro a; rfl
    | cons x opts ih => intro a; cases x <;> first | exact ih _ | rfl
  unfold extract
  rw [h]
  rfl

/-! ### Where the program stops with an error -/

/-- C105. Without the number of sightlines, with one that is not positive, without input, and with options it does not know the
program stops with an error before it touches a file. -/
theorem bad_options_stop (b : Bool) (profile : ℝ → ℝ → ℝ) (bits : ℝ → Bits) (disk : Disk) (drand : List ℝ) (fuel : ℕ) (opts : List Opt)
    (h : ¬ Plain opts ∨ ((lastArg nArg opts).map atoi).getD 0 ≤ 0 ∨ (lastArg iArg opts).getD [] = []) :
    ∃ code, code ≠ 0 ∧ extract b profile bits disk drand fuel opts = some (.exit code none) := by
  cases b with
  | false => exact ⟨1, by norm_num, unsigned_char_stops ..⟩
  | true =>
    by_cases hp : Plain opts
    · have h := h.resolve_left (not_not.2 hp)
      unfold extract
      rw [options_from opts hp]
      dsimp only [Args.init]
      by_cases h1 : ((lastArg nArg opts).map atoi).getD 0 ≤ 0
      · rw [if_pos h1]; exact ⟨99, by norm_num, rfl⟩
      · rw [if_neg h1, if_pos (h.resolve_left h1)]; exact ⟨99, by norm_num, rfl⟩
    · unfold extract
      rw [options_bad true opts hp]
      exact ⟨1, by norm_num, rfl⟩

/-- No `exit`. -/
structure NoExit {α : Type} (r : CRes α) : Prop where
  ne : ∀ k, r ≠ .error (.exit k)

theorem noExit_bind {α β : Type} {x : CRes α} {f : α → CRes β} (hx : NoExit x) (hf : ∀ a, NoExit (f a)) : NoExit (x >>= f) := by
  refine ⟨fun k hk => ?_⟩
  cases x with
  | error e =>
    cases e with
    | exit j => exact hx.ne j rfl
    | outOfBounds => cases hk
    | assertFailed => cases hk
  | ok a => exact (hf a).ne k hk

theorem noExit_ok {α : Type} (a : α) : NoExit (.ok a : CRes α) := ⟨fun k hk => by cases hk⟩

theorem noExit_oob {α : Type} : NoExit (.error .outOfBounds : CRes α) := ⟨fun k hk => by cases hk⟩

theorem noExit_assert {α : Type} : NoExit (.error .assertFailed : CRes α) := ⟨fun k hk => by cases hk⟩

theorem noExit_foldlM {α β : Type} {f : β → α → CRes β} (l : List α) (h : ∀ b a, NoExit (f b a)) (b : β) : NoExit (l.foldlM f b) := by
  induction l generalizing b with
  | nil => exact noExit_ok b
  | cons a l ih => rw [List.foldlM_cons]; exact noExit_bind (h b a) ih

theorem noExit_mapM {α β : Type} {f : α → CRes β} (l : List α) (h : ∀ a, NoExit (f a)) : NoExit (l.mapM f) := by
  induction l with
  | nil => rw [List.mapM_nil]; exact noExit_ok []
  | cons a l ih =>
    rw [List.mapM_cons]
    exact noExit_bind (h a) (fun b => noExit_bind ih (fun bs => noExit_ok _))

theorem noExit_addAt (a : List ℝ) (i : ℤ) (x : ℝ) : NoExit (addAt a i x) := by
  unfold addAt
  split
  · exact noExit_ok _
  · exact noExit_oob

theorem noExit_readAt {α : Type} (a : List α) (i : ℤ) : NoExit (readAt a i) := by
  unfold readAt
  split
  · split
    · exact noExit_ok _
    · exact noExit_oob
  · exact noExit_oob

theorem noExit_coord (v : Vec3) (axis : ℤ) : NoExit (coord v axis) := by
  unfold coord
  split_ifs
  · exact noExit_ok _
  · exact noExit_ok _
  · exact noExit_ok _
  · exact noExit_oob

theorem noExit_colden (L : LineAbsorption) (a : List ℝ) (off nbins : ℕ) (d r x h : ℝ) :
    NoExit (add_colden_particle L a off nbins d r x h) := by
  unfold add_colden_particle coldenLoop
  split
  · exact noExit_ok _
  · split
    · exact noExit_ok _
    · exact noExit_foldlM _ (fun _ _ => noExit_addAt _ _ _) _

theorem noExit_tauLoop (f : ℤ → ℝ) (tail : ℝ) (off nbins : ℕ) (dir : ℤ) (n : ℕ) (z : ℤ) (a : List ℝ) :
    NoExit (tauLoop f tail off nbins dir n z a) := by
  induction n generalizing z a with
  | zero => exact noExit_ok _
  | succ n ih =>
    rw [tauLoop]
    refine noExit_bind (noExit_addAt _ _ _) (fun b => ?_)
    split
    · exact noExit_ok _
    · exact ih _ _

theorem noExit_tau (L : LineAbsorption) (a : List ℝ) (off nbins : ℕ) (d r x v t h : ℝ) :
    NoExit (add_tau_particle L a off nbins d r x v t h) := by
  unfold add_tau_particle
  split
  · exact noExit_ok _
  · split
    · exact noExit_ok _
    · exact noExit_bind (noExit_tauLoop ..) (fun b => noExit_tauLoop ..)

theorem noExit_overLines {body : ℕ → Line → List ((ℕ × ℝ) × (ℝ × ℝ)) → List ℝ → CRes (List ℝ)} (hb : ∀ i l e a, NoExit (body i l e a))
    {kernel : ℤ} (hk : kernel ≠ VORONOI_MESH) (box : ℝ) (lines : List Line) (parts : List Part) (out : List ℝ) :
    NoExit (overLines body kernel box lines parts out) := by
  unfold overLines
  refine noExit_foldlM _ (fun a i => ?_) _
  refine noExit_bind (noExit_readAt _ _) (fun nb => noExit_bind (noExit_readAt _ _) (fun l => noExit_bind ?_ (fun e => hb _ _ _ _)))
  unfold lineEntries
  rw [if_neg hk]
  exact noExit_ok _

theorem noExit_oneFile (c : Cosmo) (f : HFile) (P : Mem) : NoExit (oneFile c f P) := by
  have hset : ∀ {α : Type} (a : List (Option α)) (i : ℕ), NoExit (readSet a i) := by
    intro α a i
    unfold readSet
    split
    · exact noExit_oob
    · exact noExit_assert
    · exact noExit_ok _
  have hpeek : ∀ {α : Type} (a : List (Option α)) (i : ℕ), NoExit (peek a i) := by
    intro α a i
    unfold peek
    split
    · exact noExit_oob
    · exact noExit_ok _
  unfold oneFile
  refine noExit_bind (noExit_mapM _ (fun ii => ?_)) (fun ps => noExit_bind ?_ (fun _ => noExit_ok _))
  · split
    · rename_i a _
      unfold convert
      refine noExit_bind (hset _ _) (fun m => ?_)
      have hrest : ∀ m : ℝ, NoExit (do
          let u ← readSet a.U ii
          let ne ← readSet a.Ne ii
          let pos ← peek a.Pos ii
          let vel ← peek a.Vel ii
          let h ← peek a.h ii
          pure (⟨pos, vel, m * c.rscale, Units.compute_temp u ne XH, h⟩ : Handed) : CRes Handed) := fun m =>
        noExit_bind (hset _ _) (fun u => noExit_bind (hset _ _) (fun ne => noExit_bind (hpeek _ _) (fun _ =>
          noExit_bind (hpeek _ _) (fun _ => noExit_bind (hpeek _ _) (fun _ => noExit_ok _)))))
      dsimp only
      split
      · exact noExit_bind (noExit_bind (hset _ _) (fun _ => noExit_ok _)) hrest
      · exact noExit_bind (noExit_ok _) hrest
    · exact noExit_assert
  · unfold free_parts
    split
    · exact noExit_ok _
    · exact noExit_assert

theorem noExit_runFiles {L : LineAbsorption} (hk : L.kernel ≠ VORONOI_MESH) (c : Cosmo) (box : ℝ) (lines : List Line) (fs : List HFile)
    (P : Mem) (tau colden : List ℝ) : NoExit (runFiles L c box lines fs P tau colden) := by
  induction fs generalizing P tau colden with
  | nil => exact noExit_ok _
  | cons f fs ih =>
    rw [runFiles]
    refine noExit_bind (noExit_oneFile c f P) (fun x => noExit_bind (noExit_mapM _ (fun h => ?_)) (fun parts =>
      noExit_bind (noExit_overLines ?_ hk ..) (fun t => noExit_bind (noExit_overLines ?_ hk ..) (fun _ => ih _ _ _))))
    · unfold partOf
      split
      · exact noExit_ok _
      · exact noExit_assert
    · intro i l e a
      unfold tauLine
      refine noExit_foldlM _ (fun a e => noExit_bind (noExit_readAt _ _) (fun p => noExit_bind (noExit_coord _ _) (fun _ =>
        noExit_bind (noExit_coord _ _) (fun _ => ?_)))) _
      split <;> exact noExit_tau ..
    · intro i l e a
      unfold coldenLine
      refine noExit_foldlM _ (fun a e => noExit_bind (noExit_readAt _ _) (fun p => noExit_bind (noExit_coord _ _) (fun _ => ?_))) _
      split <;> exact noExit_colden ..

theorem table_exit {boxm : ℝ} (n : ℕ) (input : List Scan) (v : Vars) {k : ℤ} (h : readTable boxm n input v = .error (.exit k)) : k = 3 := by
  induction n generalizing input v with
  | zero => rw [readTable] at h; cases h
  | succ n ih =>
    cases input with
    | nil => rw [readTable] at h; cases h; rfl
    | cons s rest =>
      cases s with
      | eof => rw [readTable] at h; cases h; rfl
      | items a x y z =>
        rw [readTable] at h
        dsimp only at h
        split at h
        · split at h
          · cases h; rfl
          · split at h
            · cases h; rfl
            · simp only [bind, Except.bind] at h
              split at h
              · rename_i e he
                cases h
                exact ih _ _ he
              · cases h
        · cases h

theorem ofErr_exit {opened : Option (List Char)} {e : CErr} {code : ℤ} {o : Option (List Char)} (h : End.ofErr opened e = .exit code o) :
    e = .exit code ∧ o = opened := by
  cases e <;> cases h
  exact ⟨rfl, rfl⟩

/-- C105. When the program stops by itself, its exit code tells that something was wrong, and it has not opened the output
file. -/
theorem exit_nonzero {b : Bool} {profile : ℝ → ℝ → ℝ} {bits : ℝ → Bits} {disk : Disk} {drand : List ℝ} {fuel : ℕ}
    {opts : List Opt} {code : ℤ} {opened : Option (List Char)}
    (h : extract b profile bits disk drand fuel opts = some (.exit code opened)) :
    (code = 1 ∨ code = 3 ∨ code = 99) ∧ opened = none := by
  unfold extract at h
  split at h
  · rename_i e he
    injection h with h
    obtain ⟨rfl, rfl⟩ := ofErr_exit h
    refine ⟨Or.inl ?_, rfl⟩
    cases b with
    | false =>
      have h2 := unsigned_char_stops profile bits disk drand fuel opts
      unfold extract at h2
      rw [he] at h2
      injection h2 with h2
      exact (End.exit.inj h2).1
    | true =>
      by_cases hp : Plain opts
      · rw [options_from opts hp] at he; cases he
      · rw [options_bad true opts hp] at he; cases he; rfl
  · rename_i a ha
    split at h
    · cases h; exact ⟨by omega, rfl⟩
    · split at h
      · cases h; exact ⟨by omega, rfl⟩
      · split at h
        · cases h
        · split at h
          · cases h
          · rename_i hd _
            split at h
            · cases h
            · rename_i e he
              injection h with h
              obtain ⟨rfl, rfl⟩ := ofErr_exit h
              refine ⟨Or.inr (Or.inl ?_), rfl⟩
              unfold populate at he
              split at he
              · split at he
                · cases he; rfl
                · injection he with he
                  exact table_exit _ _ _ he
              · cases hp : populateRandom hd.box100 a.numLos.toNat drand with
                | none => rw [hp] at he; cases he
                | some l => rw [hp] at he; cases he
            · rename_i los _
              split at h
              · rename_i e he
                injection h with h
                obtain ⟨rfl, rfl⟩ := ofErr_exit h
                exact absurd he ((noExit_mapM los (fun l => by
                  unfold lineOf
                  split
                  · exact noExit_ok _
                  · exact noExit_assert)).ne _)
              · unfold finish at h
                split at h
                · cases h; exact ⟨by omega, rfl⟩
                · split at h
                  · cases h
                  · dsimp only at h
                    split at h
                    · rename_i e he
                      injection h with h
                      obtain ⟨rfl, rfl⟩ := ofErr_exit h
                      unfold runReads at he
                      split at he
                      · cases he
                      · exact absurd he ((noExit_runFiles (by change (1 : ℤ) ≠ VORONOI_MESH; decide) ..).ne _)
                    · cases h

/-- The file the program has opened for writing. -/
def End.touched : End → Option (List Char)
  | .exit _ o => o
  | .wrote name _ => some name
  | .undefined o => o

/-- C105. The only file opened for writing is the one asked for with `-o`, with `_spectra.dat` appended. -/
theorem only_output {b : Bool} {profile : ℝ → ℝ → ℝ} {bits : ℝ → Bits} {disk : Disk} (hempty : disk.canWrite [] = false)
    {drand : List ℝ} {fuel : ℕ} {opts : List Opt} {e : End} {name : List Char}
    (h : extract b profile bits disk drand fuel opts = some e) (ht : End.touched e = some name) :
    ∃ out, lastArg oArg opts = some out ∧ name = out ++ datSuffix ∧ disk.canWrite name = true := by
  cases b with
  | false => rw [unsigned_char_stops] at h; cases h; cases ht
  | true =>
    have hofErr : ∀ e o, End.touched (End.ofErr o e) = o := fun e o => by cases e <;> rfl
    unfold extract at h
    by_cases hp : Plain opts
    swap
    · rw [options_bad true opts hp] at h; cases h; cases ht
    rw [options_from opts hp] at h
    dsimp only at h
    split at h
    · cases h; cases ht
    · split at h
      · cases h; cases ht
      · split at h
        · cases h; cases ht
        · split at h
          · cases h; cases ht
          · split at h
            · cases h
            · cases h; rw [hofErr] at ht; cases ht
            · split at h
              · cases h; rw [hofErr] at ht; cases ht
              · unfold finish at h
                split at h
                · cases h; cases ht
                · rename_i hw
                  have key : some (((lastArg oArg opts).map (· ++ datSuffix)).getD Args.init.outname) = some name := by
                    split at h
                    · cases h
                    · dsimp only at h
                      split at h
                      · cases h; rw [hofErr] at ht; exact ht
                      · cases h; exact ht
                  injection key with key
                  dsimp only at hw
                  rw [key, Bool.not_eq_false] at hw
                  cases ho : lastArg oArg opts with
                  | none =>
                    rw [ho] at key
                    simp only [Option.map_none, Option.getD_none, Args.init] at key
                    rw [← key, hempty] at hw
                    cases hw
                  | some out =>
                    rw [ho] at key
                    exact ⟨out, rfl, key.symm, hw⟩

/-! ### Together with `statistic` -/

/-- C105 and C98. From the file the program has written, `statistic` takes the redshift and the optical depths of the particles
along all the sightlines. -/
theorem statistic_takes {r : Option End} {bits : ℝ → Bits} {hd : SnapHeader} {L : LineAbsorption} {parts : List Part}
    {lines : List Line} {out : List Char} (h : Writes r bits hd L parts lines out) (hb : ∀ x, bits x < 2 ^ 64)
    (h0 : 0 < lines.length) (h1 : lines.length < 2 ^ 31) :
    ∃ (tau : List ℝ) (content : List ℕ), r = some (.wrote (out ++ datSuffix) content) ∧
      (∀ i l, lines[i]? = some l → SightlineTau L hd.box100 parts l (lineSpectrum tau 1024 i)) ∧
      ∀ (junk8 : List ℕ → ℕ) (junk4 : List ℕ → ℤ),
        readInput junk8 junk4 0 content = .ok ⟨some (bits hd.redshift), 1024, lines.length, tau.map bits⟩ := by
  obtain ⟨tau, colden, e, t1, c1, hspec⟩ := h
  refine ⟨tau, _, e, fun i l hi => (hspec i l hi).1, fun junk8 junk4 => ?_⟩
  refine CStatistic.spectra_read ⟨hb _, hb _, h0, h1, ?_, ?_, by simpa using t1, by simpa using c1⟩ junk8 junk4
  · intro x hx
    obtain ⟨y, -, rfl⟩ := List.mem_map.1 hx
    exact hb y
  · intro x hx
    obtain ⟨y, -, rfl⟩ := List.mem_map.1 hx
    exact hb y

/-! ### A run -/

/-- A snapshot `sn` of `N` files with two particles each in a box of 20, and a table of sightlines with two rows. -/
noncomputable def exDisk (N : ℕ) : Disk where
  isHdf := fun s => @decide (∃ j < N, s = fileName ['s', 'n'] j) (Classical.dec _)
  header := fun _ => some ⟨1 / 4, 3, 20, 0.7, 0.3, 0.7, 6⟩
  file := fun _ => CReader.twoFile
  table := fun _ => some [full (1, 0, 0.001, 0.001), full (3, 0.007, 0.006, 0)]
  canWrite := fun s => decide (s ≠ [])

/-- `extract -n 2 -i sn -t los -o spec`. -/
def exOpts : List Opt := [.n ['2'], .i ['s', 'n'], .t ['l', 'o', 's'], .o ['s', 'p', 'e', 'c']]

theorem exStored {N : ℕ} (hN : 0 < N) : Stored (exDisk N) ['s', 'n'] N ⟨1 / 4, 3, 20, 0.7, 0.3, 0.7, 6⟩ (fun _ => CReader.twoParts) where
  files := fun s => by simp [exDisk]
  pos := hN
  suffix := by
    intro i hi
    simp only [List.length_cons, List.length_nil] at hi
    interval_cases i <;> decide
  header := rfl
  some := by norm_num
  box := by norm_num
  holds := fun j _ => ⟨_, _, rfl, rfl, by simp [CReader.twoParts], by simp [CReader.twoParts], rfl, by simp,
    ⟨rfl, rfl, Or.inr ⟨rfl, rfl, by simp [CReader.twoParts]⟩, rfl, rfl, rfl, Or.inl ⟨rfl, rfl⟩⟩⟩
  good := by
    intro j _ p hp
    simp only [CReader.twoParts, List.mem_cons, List.not_mem_nil, or_false] at hp
    rcases hp with rfl | rfl <;> exact ⟨fun i => by norm_num, by norm_num, by norm_num⟩

theorem exRequest : Request exOpts ['s', 'p', 'e', 'c'] ['s', 'n'] 2 (some ['l', 'o', 's']) where
  plain := by intro x hx; simp only [exOpts, List.mem_cons, List.not_mem_nil, or_false] at hx; rcases hx with rfl | rfl | rfl | rfl <;> simp
  o := rfl
  i := rfl
  n := by rw [dec, if_pos (by norm_num)]; rfl
  t := rfl

theorem exSightlines (N : ℕ) (drand : List ℝ) : Sightlines (exDisk N) drand 2 20 (some ['l', 'o', 's'])
    [rowLine (1, 0, 0.001, 0.001), rowLine (3, 0.007, 0.006, 0)] := by
  refine .table ['l', 'o', 's'] [(1, 0, 0.001, 0.001), (3, 0.007, 0.006, 0)] [] rfl rfl ?_
  intro r hr
  simp only [List.mem_cons, List.not_mem_nil, or_false] at hr
  rcases hr with rfl | rfl <;> (refine ⟨by norm_num, ⟨by norm_num, by norm_num⟩, ⟨by norm_num, by norm_num⟩, ⟨by norm_num, by norm_num⟩, by norm_num, by norm_num⟩)

/-- The run leaves the spectra of the two last files. -/
example (profile : ℝ → ℝ → ℝ) (bits : ℝ → Bits) (drand : List ℝ) :
    Writes (extract true profile bits (exDisk 3) drand 3 exOpts) bits ⟨1 / 4, 3, 20, 0.7, 0.3, 0.7, 6⟩
      (lyman profile ⟨1 / 4, 3, 20, 0.7, 0.3, 0.7, 6⟩)
      ((CReader.twoParts ++ CReader.twoParts).map (gasPart ⟨1 / 4, 3, 20, 0.7, 0.3, 0.7, 6⟩))
      [rowLine (1, 0, 0.001, 0.001), rowLine (3, 0.007, 0.006, 0)] ['s', 'p', 'e', 'c'] := by
  have := extract_writes_partial (profile := profile) (bits := bits) (drand := drand) (fuel := 3) exRequest (by norm_num)
    (by norm_num) (by simp) (exStored (by norm_num)) (by norm_num) (Or.inl rfl) (exSightlines 3 drand) (by simp [exDisk]) le_rfl
  simpa [List.range'_succ] using this

/-- With one file the spectra are empty. -/
example (profile : ℝ → ℝ → ℝ) (bits : ℝ → Bits) (drand : List ℝ) :
    extract true profile bits (exDisk 1) drand 1 exOpts = some (.wrote (['s', 'p', 'e', 'c'] ++ datSuffix)
      (specFile (bits 3) (bits 20) (2 : ℕ) (List.replicate (2 * 1024) (bits 0)) (List.replicate (2 * 1024) (bits 0)))) :=
  one_file_empty exRequest (by norm_num) (by norm_num) (by simp) (exStored (by norm_num)) (Or.inl rfl) (exSightlines 1 drand)
    (by simp [exDisk]) le_rfl

/-- A file with another name. -/
example (profile : ℝ → ℝ → ℝ) (bits : ℝ → Bits) (drand : List ℝ) (fuel : ℕ) :
    extract true profile bits { exDisk 1 with isHdf := fun s => s == ['s', 'n'] } drand fuel exOpts =
      some (.undefined (some (['s', 'p', 'e', 'c'] ++ datSuffix))) :=
  plain_name_undefined (hd := ⟨1 / 4, 3, 20, 0.7, 0.3, 0.7, 6⟩) exRequest (by norm_num) (by norm_num) (by simp) rfl
    (by intro h; have := h.length_le; simp [firstSuffix] at this) rfl (by norm_num) (by norm_num)
    (lines := [rowLine (1, 0, 0.001, 0.001), rowLine (3, 0.007, 0.006, 0)])
    (.table ['l', 'o', 's'] [(1, 0, 0.001, 0.001), (3, 0.007, 0.006, 0)] [] rfl rfl (by
      intro r hr
      simp only [List.mem_cons, List.not_mem_nil, or_false] at hr
      rcases hr with rfl | rfl <;> (refine ⟨by norm_num, ⟨by norm_num, by norm_num⟩, ⟨by norm_num, by norm_num⟩, ⟨by norm_num, by norm_num⟩, by norm_num, by norm_num⟩)))
    (by simp [exDisk])

/-! The theorems of C101 at work on the options and the disk of the example. -/

example := options_from exOpts exRequest.plain

example (profile : ℝ → ℝ → ℝ) (bits : ℝ → Bits) (drand : List ℝ) := extract_writes_some_partial (profile := profile) (bits := bits) (drand := drand)
  exRequest (by norm_num) (by norm_num) (by simp) (exStored (N := 200) (by norm_num)) (Or.inl rfl) (exSightlines 200 drand) rfl

example (profile : ℝ → ℝ → ℝ) (bits : ℝ → Bits) (drand : List ℝ) (fuel : ℕ) := missing_input_undefined (profile := profile) (bits := bits)
  (drand := drand) (fuel := fuel) (disk := { exDisk 1 with isHdf := fun _ => false }) exRequest (by norm_num) (by simp) rfl rfl

example (profile : ℝ → ℝ → ℝ) (bits : ℝ → Bits) (disk : Disk) (drand : List ℝ) (fuel : ℕ) := bad_options_stop true profile bits disk drand fuel
  [.n ['0'], .i ['s', 'n']] (Or.inr (Or.inl (by decide)))

example (profile : ℝ → ℝ → ℝ) (bits : ℝ → Bits) (drand : List ℝ) (hb : ∀ x, bits x < 2 ^ 64) :=
  statistic_takes (extract_writes_partial (profile := profile) (bits := bits) (drand := drand) (fuel := 3)
    exRequest (by norm_num) (by norm_num) (by simp) (exStored (N := 3) (by norm_num)) (by norm_num) (Or.inl rfl) (exSightlines 3 drand) rfl le_rfl)
    hb (by simp) (by simp)

end Verif.Props.Extract
