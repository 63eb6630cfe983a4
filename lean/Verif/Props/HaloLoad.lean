import Verif.Model.HaloLoad
import Verif.Lemmas.Numpy
import Mathlib.Data.List.Sort
import Mathlib.Tactic.IntervalCases

/-!
C109: loading the halo catalogue beside the spectra.
-/

namespace Verif.Props.HaloLoad
open Verif Verif.Np Verif.Catalogue Verif.HaloLoad

/-! ### Specification -/

/-- The rows of an array in one file; none where the file does not have it. -/
def rowsAt (disk : Disk) (dset : Dset) (name : String) (f : Name) : List (List ℝ) :=
  match disk f with
  | some file =>
    match file.arrays dset name with
    | .data a => a.rows
    | _ => []
  | none => []

/-- All rows, file after file. -/
def rows (disk : Disk) (fs : List Name) (dset : Dset) (name : String) : List (List ℝ) :=
  (fs.map (rowsAt disk dset name)).flatten

/-- An array which is whole: the first file has it, and says how many rows there are; every file can be opened and has either nothing
or an undamaged array whose rows have the same shape; and the rows add up. -/
structure Whole (disk : Disk) (f : Name) (fs : List Name) (dset : Dset) (name : String) : Prop where
  first : ∃ file a, disk f = some file ∧ file.arrays dset name = .data a ∧
    (∀ g ∈ fs, ∃ other, disk g = some other ∧ (other.arrays dset name = .missing ∨
      ∃ b, other.arrays dset name = .data b ∧ b.tail = a.tail)) ∧
    (rows disk (f :: fs) dset name).length = file.header dset

/-- The arrays in the order in which they are asked for. -/
def wanted : List (Dset × String) :=
  [(.group, "GroupPos"), (.group, "Group_M_Crit200"), (.group, "Group_R_Crit200"), (.group, "GroupVel"),
   (.subhalo, "SubhaloHalfmassRad"), (.subhalo, "SubhaloPos"), (.subhalo, "SubhaloMass"), (.subhalo, "SubhaloGrNr"),
   (.subhalo, "SubhaloVel")]

/-- Masses in units of `1.989e33` grams. -/
noncomputable def solar (u : Units.UnitSystem) (a : List (List ℝ)) : List (List ℝ) :=
  a.map (fun row => row.map (fun m => m * u.UnitMass_in_g / 1.989e33))

/-- The object when the first `k` arrays have been loaded from the files `fs` and nothing else. -/
noncomputable def upTo (u : Units.UnitSystem) (disk : Disk) (fs : List Name) (k : ℕ) : Halos where
  sub_cofm := if 0 < k then some (rows disk fs .group "GroupPos") else none
  sub_mass := if 1 < k then some (solar u (rows disk fs .group "Group_M_Crit200")) else none
  sub_radii := if 2 < k then some (rows disk fs .group "Group_R_Crit200") else none
  sub_vel := if 3 < k then some (rows disk fs .group "GroupVel") else none
  sub_sub_radii := if 4 < k then some (rows disk fs .subhalo "SubhaloHalfmassRad") else none
  sub_sub_cofm := if 5 < k then some (rows disk fs .subhalo "SubhaloPos") else none
  sub_sub_mass := if 6 < k then some (rows disk fs .subhalo "SubhaloMass") else none
  sub_sub_index := if 7 < k then some (rows disk fs .subhalo "SubhaloGrNr") else none
  sub_sub_vel := if 8 < k then some (rows disk fs .subhalo "SubhaloVel") else none

/-! ### Reading one array -/

theorem readAll_rows {disk : Disk} {dset : Dset} {name : String} {fs : List Name} {size : ℕ} {a : Arr (List ℝ)}
    (hr : readAll disk fs size dset name = .ok a) : a.rows = rows disk fs dset name := by
  unfold readAll at hr
  simp only [bind, Except.bind] at hr
  split at hr
  · cases hr
  rename_i f hf
  split at hr
  · cases hr
  rename_i first hfirst
  split at hr
  · cases hr
  rename_i all hall
  split at hr
  · cases hr
  rename_i d hd
  split at hr
  swap
  · cases hr
  cases hr
  have key : ∀ (l : List Name) (bs : List (Arr (List ℝ))), l.mapM (fun f => singleArr disk f dset name (some first.tail)) = .ok bs →
      bs.map Arr.rows = l.map (rowsAt disk dset name) := by
    intro l
    induction l with
    | nil => intro bs h; cases h; rfl
    | cons g l ih =>
      intro bs h
      rw [List.mapM_cons] at h
      cases hs : singleArr disk g dset name (some first.tail) with
      | error e => rw [hs] at h; cases h
      | ok b =>
        rw [hs] at h
        cases hl : l.mapM (fun f => singleArr disk f dset name (some first.tail)) with
        | error e => rw [hl] at h; cases h
        | ok bs' =>
          rw [hl] at h
          cases h
          rw [List.map_cons, List.map_cons, ih bs' hl]
          congr 1
          unfold singleArr at hs
          unfold rowsAt
          cases hd : disk g with
          | none => rw [hd] at hs; cases hs
          | some file =>
            rw [hd] at hs
            dsimp only at hs ⊢
            cases ha : file.arrays dset name with
            | missing => rw [ha] at hs; cases hs; rfl
            | damaged => rw [ha] at hs; cases hs
            | data x => rw [ha] at hs; cases hs; rfl
  unfold rows
  rw [← key fs all hall]
  unfold concatenate at hd
  split at hd
  · cases hd
  · split at hd
    · cases hd; rfl
    · cases hd

theorem getArr_rows {disk : Disk} {c : Cat (List ℝ)} {dset : Dset} {name : String} {a : List (List ℝ)}
    (h : getArr disk c dset name = .ok a) : a = rows disk c.foffiles dset name := by
  unfold getArr at h
  cases hr : readAll disk c.foffiles (c.sizes dset) dset name with
  | error e => rw [hr] at h; cases h
  | ok b => rw [hr] at h; cases h; exact readAll_rows hr

theorem get_zero {f : Name} {fs : List Name} : get (f :: fs) 0 = .ok f := get_eq (k := 0) (by unfold index; simp) rfl

theorem getArr_whole {disk : Disk} {f : Name} {fs : List Name} {c : Cat (List ℝ)} {file : File} (hf : disk f = some file)
    (hc : c = ⟨f :: fs, file.header, fun _ _ => none⟩) {dset : Dset} {name : String} (h : Whole disk f fs dset name) :
    getArr disk c dset name = .ok (rows disk (f :: fs) dset name) := by
  obtain ⟨file', a, h1, h2, h3, h4⟩ := h.first
  rw [hf] at h1
  cases h1
  have hfirst : ∀ t, singleArr disk f dset name t = .ok a := by
    intro t
    unfold singleArr
    rw [hf]
    dsimp only
    rw [h2]
  obtain ⟨bs, hb1, hb2⟩ := mapM_ok (l := fs) (f := fun f => singleArr disk f dset name (some a.tail))
    (P := fun f b => b.tail = a.tail) (fun g hg => by
      obtain ⟨o, ho, hm | ⟨b, hb, ht⟩⟩ := h3 g hg
      · exact ⟨⟨a.tail, []⟩, by unfold singleArr; rw [ho]; dsimp only; rw [hm], rfl⟩
      · exact ⟨b, by unfold singleArr; rw [ho]; dsimp only; rw [hb], ht⟩)
  have htail : ∀ b ∈ bs, b.tail = a.tail := by
    intro b hb
    obtain ⟨k, hk, hke⟩ := List.getElem_of_mem hb
    have := List.forall₂_iff_get.1 hb2 |>.2 k (by have := hb2.length_eq; omega) hk
    rw [← hke]
    exact this
  have hall : (f :: fs).mapM (fun f => singleArr disk f dset name (some a.tail)) = .ok (a :: bs) := by
    rw [List.mapM_cons, hfirst, hb1]; rfl
  have hread : ∀ n, readAll disk (f :: fs) n dset name =
      if ((a :: bs).map Arr.rows).flatten.length = n then .ok ⟨a.tail, ((a :: bs).map Arr.rows).flatten⟩ else .error .assertionError := by
    intro n
    unfold readAll
    simp only [bind, Except.bind, get_zero, hfirst, hall, concatenate, if_pos htail]
    rfl
  have hrows : ((a :: bs).map Arr.rows).flatten = rows disk (f :: fs) dset name := by
    have := hread ((a :: bs).map Arr.rows).flatten.length
    rw [if_pos rfl] at this
    exact readAll_rows this
  unfold getArr
  rw [hc]
  dsimp only
  rw [hread, hrows, if_pos h4]
  rfl

/-- An array which is damaged in the first file: reading it raises IOError. -/
theorem getArr_damaged {disk : Disk} {f : Name} {fs : List Name} {c : Cat (List ℝ)} {file : File} (hf : disk f = some file)
    (hc : c.foffiles = f :: fs) {dset : Dset} {name : String} (h : file.arrays dset name = .damaged) :
    getArr disk c dset name = .error .ioError := by
  have hs : singleArr disk f dset name none = .error .ioError := by
    unfold singleArr
    rw [hf]
    dsimp only
    rw [h]
  unfold getArr
  rw [hc]
  unfold readAll
  simp only [bind, Except.bind, get_zero, hs]
  rfl

/-- An array which the first file does not have: reading it raises TypeError. -/
theorem getArr_missing {disk : Disk} {f : Name} {fs : List Name} {c : Cat (List ℝ)} {file : File} (hf : disk f = some file)
    (hc : c.foffiles = f :: fs) {dset : Dset} {name : String} (h : file.arrays dset name = .missing) :
    getArr disk c dset name = .error .typeError := by
  have hs : singleArr disk f dset name none = .error .typeError := by
    unfold singleArr
    rw [hf]
    dsimp only
    rw [h]
  unfold getArr
  rw [hc]
  unfold readAll
  simp only [bind, Except.bind, get_zero, hs]
  rfl

/-- A file that cannot be opened, or holds a damaged array. -/
def Faulty (disk : Disk) (f : Name) : Prop :=
  disk f = none ∨ ∃ file d n, disk f = some file ∧ file.arrays d n = .damaged

theorem singleArr_io {disk : Disk} {f : Name} {dset : Dset} {name : String} {t : Option (List ℕ)}
    (h : singleArr disk f dset name t = .error .ioError) : Faulty disk f := by
  unfold singleArr at h
  cases hd : disk f with
  | none => exact Or.inl hd
  | some file =>
    rw [hd] at h
    dsimp only at h
    cases ha : file.arrays dset name with
    | damaged => exact Or.inr ⟨file, dset, name, hd, ha⟩
    | data a => rw [ha] at h; cases h
    | missing =>
      rw [ha] at h
      dsimp only at h
      cases t <;> cases h

theorem mapM_io {disk : Disk} {dset : Dset} {name : String} {t : Option (List ℕ)} {l : List Name}
    (h : l.mapM (fun f => singleArr disk f dset name t) = .error .ioError) : ∃ f ∈ l, Faulty disk f := by
  induction l with
  | nil => cases h
  | cons f l ih =>
    rw [List.mapM_cons] at h
    cases hs : singleArr disk f dset name t with
    | error e =>
      rw [hs] at h
      cases h
      exact ⟨f, by simp, singleArr_io hs⟩
    | ok a =>
      rw [hs] at h
      cases hl : l.mapM (fun f => singleArr disk f dset name t) with
      | error e =>
        rw [hl] at h
        cases h
        obtain ⟨g, hg, hf⟩ := ih hl
        exact ⟨g, by simp [hg], hf⟩
      | ok as => rw [hl] at h; cases h

theorem getArr_io {disk : Disk} {c : Cat (List ℝ)} {dset : Dset} {name : String} (h : getArr disk c dset name = .error .ioError) :
    ∃ f ∈ c.foffiles, Faulty disk f := by
  unfold getArr at h
  cases hr : readAll disk c.foffiles (c.sizes dset) dset name with
  | ok a => rw [hr] at h; cases h
  | error e =>
    rw [hr] at h
    cases h
    unfold readAll at hr
    simp only [bind, Except.bind] at hr
    cases hfs : c.foffiles with
    | nil => rw [hfs] at hr; cases hr
    | cons f fs =>
      rw [hfs] at hr
      simp only [get_zero] at hr
      split at hr
      · rename_i e he
        cases hr
        exact ⟨f, by simp, singleArr_io he⟩
      split at hr
      · rename_i e he
        cases hr
        exact mapM_io he
      rename_i all _
      split at hr
      · rename_i e he
        cases hr
        unfold concatenate at he
        split at he
        · cases he
        · split at he <;> cases he
      · split at hr <;> cases hr

/-! ### The assignments -/

theorem steps_wanted (u : Units.UnitSystem) : (steps u).map (fun s => (s.dset, s.name)) = wanted := rfl

/-- Doing the first `k` assignments. -/
def setAll (disk : Disk) (fs : List Name) (ss : List Step) (h : Halos) : Halos :=
  ss.foldl (fun h s => s.set (rows disk fs s.dset s.name) h) h

theorem upTo_eq (u : Units.UnitSystem) (disk : Disk) (fs : List Name) {k : ℕ} (hk : k ≤ 9) :
    setAll disk fs ((steps u).take k) Halos.empty = upTo u disk fs k := by
  interval_cases k <;> rfl

theorem runSteps_ok {disk : Disk} {c : Cat (List ℝ)} {pre : List Step} (post : List Step)
    (hp : ∀ s ∈ pre, ∃ a, getArr disk c s.dset s.name = .ok a) (h : Halos) :
    runSteps disk c (pre ++ post) h = runSteps disk c post (setAll disk c.foffiles pre h) := by
  induction pre generalizing h with
  | nil => rfl
  | cons s pre ih =>
    obtain ⟨a, ha⟩ := hp s (by simp)
    rw [List.cons_append, runSteps, ha]
    dsimp only
    rw [ih (fun t ht => hp t (by simp [ht])), getArr_rows ha]
    rfl

theorem runSteps_prefix (disk : Disk) (c : Cat (List ℝ)) (ss : List Step) (h : Halos) :
    (runSteps disk c ss h = (.ok (), setAll disk c.foffiles ss h)) ∨
    ∃ k < ss.length, ∃ e, runSteps disk c ss h = (.error e, setAll disk c.foffiles (ss.take k) h) ∧
      (e = .ioError → ∃ f ∈ c.foffiles, Faulty disk f) := by
  induction ss generalizing h with
  | nil => exact Or.inl rfl
  | cons s ss ih =>
    cases ha : getArr disk c s.dset s.name with
    | error e => exact Or.inr ⟨0, by simp, e, by rw [runSteps, ha]; rfl, fun h => getArr_io (h ▸ ha)⟩
    | ok a =>
      have hr : runSteps disk c (s :: ss) h = runSteps disk c ss (s.set a h) := by rw [runSteps, ha]
      rw [hr]
      rcases ih (s.set a h) with h1 | ⟨k, hk, e, he, hio⟩
      · exact Or.inl (by rw [h1, getArr_rows ha]; rfl)
      · exact Or.inr ⟨k + 1, by simpa using hk, e, by rw [he, getArr_rows ha]; rfl, hio⟩

theorem sort_eq {found fs : List Name} (hp : fs.Perm found) (hs : fs.Pairwise (· ≤ ·)) : found.mergeSort (· ≤ ·) = fs := by
  have h1 : (found.mergeSort (· ≤ ·)).Pairwise (· ≤ ·) := by
    have := List.pairwise_mergeSort (le := fun a b : Name => decide (a ≤ b))
      (fun a b c h1 h2 => by simp only [decide_eq_true_eq] at *; exact le_trans h1 h2)
      (fun a b => by simp only [Bool.or_eq_true, decide_eq_true_eq]; exact le_total a b) found
    exact this.imp (fun h => by simpa using h)
  exact ((List.mergeSort_perm _ _).trans hp.symm).eq_of_pairwise (fun a b _ _ h1 h2 => le_antisymm h1 h2) h1 hs

theorem openCat_eq {disk : Disk} {found : List Name} {f : Name} {fs : List Name} (hp : (f :: fs).Perm found)
    (hs : (f :: fs).Pairwise (· ≤ ·)) {file : File} (hf : disk f = some file) :
    openCat disk found = .ok ⟨f :: fs, file.header, fun _ _ => none⟩ := by
  unfold openCat
  rw [sort_eq hp hs]
  dsimp only
  rw [hf]

theorem take_whole {disk : Disk} {f : Name} {fs : List Name} {file : File} (hf : disk f = some file) (u : Units.UnitSystem) {k : ℕ}
    (hw : ∀ q ∈ wanted.take k, Whole disk f fs q.1 q.2) :
    ∀ s ∈ (steps u).take k, ∃ a, getArr disk ⟨f :: fs, file.header, fun _ _ => none⟩ s.dset s.name = .ok a := by
  intro s hs
  refine ⟨_, getArr_whole hf rfl (hw (s.dset, s.name) ?_)⟩
  rw [← steps_wanted u, ← List.map_take]
  exact List.mem_map.2 ⟨s, hs, rfl⟩

/-! ### The property -/

/-- C109, partial: from a whole catalogue all nine arrays are loaded, each with the rows of all files in the order of their names, the
masses of groups converted to solar masses over h. -/
theorem load_partial {u : Units.UnitSystem} {disk : Disk} {found : List Name} {f : Name} {fs : List Name}
    (hp : (f :: fs).Perm found) (hs : (f :: fs).Pairwise (· ≤ ·)) (hw : ∀ q ∈ wanted, Whole disk f fs q.1 q.2) :
    load_halo u disk found Halos.empty = (.ok (), upTo u disk (f :: fs) 9) := by
  obtain ⟨file, a, hf, -⟩ := (hw (.group, "GroupPos") (by simp [wanted])).first
  have ht := take_whole hf u (k := 9) (fun q hq => hw q (List.mem_of_mem_take hq))
  have h9 : (steps u).take 9 = steps u := rfl
  rw [h9] at ht
  unfold load_halo
  rw [openCat_eq hp hs hf]
  dsimp only
  have := runSteps_ok (disk := disk) [] ht Halos.empty
  rw [List.append_nil] at this
  rw [this]
  have he : setAll disk (f :: fs) (steps u) Halos.empty = upTo u disk (f :: fs) 9 := upTo_eq u disk (f :: fs) le_rfl
  rw [he]
  rfl

/-- C109, partial: whatever is on the disk, what is loaded is some number of the arrays, in their order, and each of them has the rows of
all files; if no exception comes out, either all are loaded or a file or an array could not be read. -/
theorem load_prefix_partial (u : Units.UnitSystem) (disk : Disk) (found : List Name) :
    ∃ fs : List Name, fs.Perm found ∧ fs.Pairwise (· ≤ ·) ∧ ∃ k ≤ 9, (load_halo u disk found Halos.empty).2 = upTo u disk fs k ∧
      ((load_halo u disk found Halos.empty).1 = .ok () → k = 9 ∨ ∃ f ∈ fs, Faulty disk f) := by
  have hs : (found.mergeSort (· ≤ ·)).Pairwise (· ≤ ·) := by
    have := List.pairwise_mergeSort (le := fun a b : Name => decide (a ≤ b))
      (fun a b c h1 h2 => by simp only [decide_eq_true_eq] at *; exact le_trans h1 h2)
      (fun a b => by simp only [Bool.or_eq_true, decide_eq_true_eq]; exact le_total a b) found
    exact this.imp (fun h => by simpa using h)
  have hio : ∀ r : Py Unit × Halos, (exceptIO r).2 = r.2 := by
    intro r
    unfold exceptIO
    split <;> rfl
  have hok : ∀ e (h : Halos), (exceptIO (.error e, h)).1 = .ok () → e = .ioError := by
    intro e h hh
    unfold exceptIO at hh
    split at hh
    · rename_i he
      dsimp only at he
      cases he
      rfl
    · cases hh
  refine ⟨_, List.mergeSort_perm _ _, hs, ?_⟩
  unfold load_halo
  cases ho : openCat disk found with
  | error e =>
    refine ⟨0, by omega, ?_, fun h => Or.inr ?_⟩
    · dsimp only
      rw [hio]
      rfl
    · have := hok e _ h
      subst this
      unfold openCat at ho
      split at ho
      · cases ho
      · rename_i f fs hm
        split at ho
        · rename_i hd
          exact ⟨f, by rw [hm]; simp, Or.inl hd⟩
        · cases ho
  | ok c =>
    have hc : c.foffiles = found.mergeSort (· ≤ ·) := by
      unfold openCat at ho
      split at ho
      · cases ho
      · rename_i f fs hm
        split at ho
        · cases ho
        · cases ho; exact hm.symm
    dsimp only
    rw [hio, ← hc]
    rcases runSteps_prefix disk c (steps u) Halos.empty with h | ⟨k, hk, e, h, hf⟩
    · exact ⟨9, le_rfl, by rw [h]; exact upTo_eq u disk c.foffiles le_rfl, fun _ => Or.inl rfl⟩
    · have hk' : k < 9 := hk
      exact ⟨k, by omega, by rw [h]; exact upTo_eq u disk c.foffiles (by omega), fun hr => Or.inr (hf (hok e _ (by rw [h] at hr; exact hr)))⟩

/-- C109 is false of the code: without a catalogue the IndexError of `foffiles[0]` is not caught, so no object can be made. -/
theorem no_catalogue_raises (u : Units.UnitSystem) (disk : Disk) : (load_halo u disk [] Halos.empty).1 = .error .indexError := by
  unfold load_halo openCat
  rw [List.mergeSort_nil]
  rfl

/-- C109, partial: if the first file cannot be opened, nothing is loaded and nothing raised. -/
theorem unreadable_partial {u : Units.UnitSystem} {disk : Disk} {found : List Name} {f : Name} {fs : List Name}
    (hp : (f :: fs).Perm found) (hs : (f :: fs).Pairwise (· ≤ ·)) (hf : disk f = none) :
    load_halo u disk found Halos.empty = (.ok (), Halos.empty) := by
  unfold load_halo openCat
  rw [sort_eq hp hs]
  dsimp only
  rw [hf]
  rfl

theorem stops {u : Units.UnitSystem} {disk : Disk} {found : List Name} {f : Name} {fs : List Name}
    (hp : (f :: fs).Perm found) (hs : (f :: fs).Pairwise (· ≤ ·)) {k : ℕ} (hw : ∀ q ∈ wanted.take k, Whole disk f fs q.1 q.2)
    {q : Dset × String} (hq : wanted[k]? = some q) {file : File} (hf : disk f = some file) {e : PyErr}
    (he : getArr disk ⟨f :: fs, file.header, fun _ _ => none⟩ q.1 q.2 = .error e) :
    load_halo u disk found Halos.empty = exceptIO (.error e, upTo u disk (f :: fs) k) := by
  obtain ⟨hk, hqk⟩ := List.getElem?_eq_some_iff.1 hq
  have hk' : k < 9 := hk
  have hks : k < (steps u).length := hk
  have hstep : ((steps u)[k].dset, (steps u)[k].name) = q := by
    have h1 : ((steps u).map (fun s => (s.dset, s.name)))[k]? = some q := by rw [steps_wanted]; exact hq
    rw [List.getElem?_map, List.getElem?_eq_getElem hks] at h1
    simpa using h1
  have hsplit : steps u = (steps u).take k ++ (steps u)[k] :: (steps u).drop (k + 1) := by
    rw [List.getElem_cons_drop, List.take_append_drop]
  unfold load_halo
  rw [openCat_eq hp hs hf]
  dsimp only
  rw [← hstep] at he
  rw [hsplit, runSteps_ok _ (take_whole hf u hw), runSteps, he]
  dsimp only
  rw [upTo_eq u disk (f :: fs) (by omega)]

/-- C109 is false of the code: if one array is damaged, those before it stay loaded, those after it are not, and nothing is raised. -/
theorem half_loaded {u : Units.UnitSystem} {disk : Disk} {found : List Name} {f : Name} {fs : List Name}
    (hp : (f :: fs).Perm found) (hs : (f :: fs).Pairwise (· ≤ ·)) {k : ℕ} (hw : ∀ q ∈ wanted.take k, Whole disk f fs q.1 q.2)
    {q : Dset × String} (hq : wanted[k]? = some q) {file : File} (hf : disk f = some file) (hd : file.arrays q.1 q.2 = .damaged) :
    load_halo u disk found Halos.empty = (.ok (), upTo u disk (f :: fs) k) := by
  rw [stops hp hs hw hq hf (getArr_damaged hf rfl hd)]
  rfl

/-- C109 is false of the code: if the first file has groups but lacks one of the arrays, for instance because it has no subhalos, the
TypeError is not caught, so no object can be made. -/
theorem missing_raises {u : Units.UnitSystem} {disk : Disk} {found : List Name} {f : Name} {fs : List Name}
    (hp : (f :: fs).Perm found) (hs : (f :: fs).Pairwise (· ≤ ·)) {k : ℕ} (hw : ∀ q ∈ wanted.take k, Whole disk f fs q.1 q.2)
    {q : Dset × String} (hq : wanted[k]? = some q) {file : File} (hf : disk f = some file) (hd : file.arrays q.1 q.2 = .missing) :
    (load_halo u disk found Halos.empty).1 = .error .typeError := by
  rw [stops hp hs hw hq hf (getArr_missing hf rfl hd)]
  rfl

/-! ### Masses and velocities -/

/-- C109 is false of the code: the mass loaded here for a halo is smaller than the mass which the selection of halos gives for the same
halo, because the unit of mass and the solar mass differ in the fourth digit. -/
theorem masses_disagree {m : ℝ} (hm : 0 < m) (cat : List Grp) (i : ℕ) (g g' : Grp) (min_mass : ℝ) (hg : cat[i]? = some g)
    (hgm : g.mass = m) (hi : (i, g') ∈ find_all_halos cat min_mass) :
    ∃ x, inSolar Units.gadget [[m]] = [[x]] ∧ x < 0.99996 * g'.mass ∧ 0.99995 * g'.mass < x ∧ g'.mass = 1e10 * m := by
  refine ⟨_, rfl, ?_⟩
  unfold find_all_halos at hi
  rw [List.mem_map] at hi
  obtain ⟨⟨j, c⟩, hj, he⟩ := hi
  rw [List.mem_filter, List.mem_map] at hj
  obtain ⟨⟨⟨c', j'⟩, hz, hzz⟩, -⟩ := hj
  obtain ⟨rfl, rfl⟩ := Prod.mk.inj hzz
  obtain ⟨rfl, rfl⟩ := Prod.mk.inj he
  have hcg : cat[j']? = some c' := by simpa [List.mem_zipIdx_iff_getElem?] using hz
  have : g = c' := by rw [hg] at hcg; exact Option.some.inj hcg
  subst this
  dsimp only
  rw [hgm]
  unfold Units.gadget SolarMass_in_g
  dsimp only
  refine ⟨?_, ?_, ?_⟩
  · rw [← mul_div_assoc, div_lt_div_iff_of_pos_right (by norm_num)]
    nlinarith
  · rw [← mul_div_assoc, div_lt_div_iff_of_pos_right (by norm_num)]
    nlinarith
  · rw [mul_div_assoc, mul_comm]
    norm_num

/-- A halo of `2e12` solar masses over h. -/
example : ∃ (cat : List Grp) (g' : Grp), (0, g') ∈ find_all_halos cat 100 ∧ ∃ g, cat[0]? = some g ∧ 0 < g.mass :=
  ⟨[⟨200, ⟨1, 2, 3⟩, 150⟩], _, List.mem_map.2 ⟨(0, ⟨200, ⟨1, 2, 3⟩, 150⟩), by simp; norm_num, rfl⟩, _, rfl, by norm_num⟩

theorem select_none {a : List (List ℝ)} : select none (some a) = .ok a := rfl

theorem virial_scale {u : Units.UnitSystem} {hubble red m r c : ℝ} (hc : 0 ≤ c) :
    HaloAssigned.virial_vel u hubble red (m * c) r = √c * HaloAssigned.virial_vel u hubble red m r := by
  unfold HaloAssigned.virial_vel
  dsimp only
  generalize Units.gravcgs * (u.UnitMass_in_g / 1e10 / (u.UnitLength_in_cm / hubble / (1 + red))) = G
  generalize (if r = 0 then (1 : ℝ) else r) = R
  rw [show G * (m * c) / R = c * (G * m / R) by ring, Real.sqrt_mul hc]
  ring

/-- C109 is false of the code: the masses of subhalos are left in the internal unit, so the velocities of subhalos come out too small by
the root of the unit of mass over the solar mass, about a hundred thousand: for all halos `h` loaded from the same masses and radii. -/
theorem subhalo_velocities_wrong {u : Units.UnitSystem} (hu : 0 ≤ u.UnitMass_in_g) (hubble red : ℝ) {h : Halos} {m r : List (List ℝ)}
    (hm : h.sub_mass = some (inSolar u m)) (hms : h.sub_sub_mass = some m) (hr : h.sub_radii = some r) (hrs : h.sub_sub_radii = some r) :
    ∃ v, virialVel u hubble red h none true = .ok v ∧
      virialVel u hubble red h none false = .ok (v.map (fun x => √(u.UnitMass_in_g / SolarMass_in_g) * x)) := by
  refine ⟨List.zipWith (fun m r => HaloAssigned.virial_vel u hubble red m r) m.flatten r.flatten, ?_, ?_⟩
  · unfold virialVel
    rw [if_pos rfl, if_pos rfl, hms, hrs, select_none, select_none]
    rfl
  · unfold virialVel
    rw [if_neg (by decide), if_neg (by decide), hm, hr, select_none, select_none]
    change Except.ok _ = Except.ok _
    congr 1
    have hflat : (inSolar u m).flatten = m.flatten.map (fun x => x * (u.UnitMass_in_g / SolarMass_in_g)) := by
      unfold inSolar
      rw [List.map_flatten]
      congr 1
      apply List.map_congr_left
      intro row _
      apply List.map_congr_left
      intro x _
      rw [mul_div_assoc]
    have hc : 0 ≤ u.UnitMass_in_g / SolarMass_in_g := div_nonneg hu (by unfold SolarMass_in_g; norm_num)
    rw [hflat, List.zipWith_map_left, List.map_zipWith]
    congr 1
    funext a b
    exact virial_scale hc

/-- The factor for the default units. -/
theorem subhalo_factor : 99997 < √(Units.gadget.UnitMass_in_g / SolarMass_in_g) ∧ √(Units.gadget.UnitMass_in_g / SolarMass_in_g) < 100000 := by
  unfold Units.gadget SolarMass_in_g
  constructor
  · rw [Real.lt_sqrt (by norm_num)]; norm_num
  · rw [Real.sqrt_lt' (by norm_num)]; norm_num

/-- C109, partial: the velocities of the chosen groups are those of the loaded masses and radii, in the order of the choice. -/
theorem group_velocities_partial {u : Units.UnitSystem} {hubble red : ℝ} {h : Halos} {m r : List ℝ} (hlen : m.length = r.length)
    (hm : h.sub_mass = some (m.map ([·]))) (hr : h.sub_radii = some (r.map ([·]))) (is : List ℕ) (hi : ∀ i ∈ is, i < m.length) :
    virialVel u hubble red h (some (is.map (fun i : ℕ => (i : ℤ)))) false =
      .ok (is.map (fun i => HaloAssigned.virial_vel u hubble red (m.getD i 0) (r.getD i 0))) := by
  have hsel : ∀ a : List ℝ, (∀ i ∈ is, i < a.length) →
      select (some (is.map (fun i : ℕ => (i : ℤ)))) (some (a.map ([·]))) = .ok (is.map (fun i => [a.getD i 0])) := by
    intro a ha
    change (is.map (fun i : ℕ => (i : ℤ))).mapM (get (a.map ([·]))) = _
    clear hi
    induction is with
    | nil => rfl
    | cons i is ih =>
      have hil := ha i (by simp)
      have hg : get (a.map ([·])) ((i : ℕ) : ℤ) = .ok [a.getD i 0] := by
        refine get_eq (k := i) ?_ ?_
        · unfold index
          simp
          omega
        · rw [List.getElem?_map, List.getElem?_eq_getElem hil]
          simp [List.getD, hil]
      rw [List.map_cons, List.mapM_cons, hg, ih (fun j hj => ha j (by simp [hj]))]
      rfl
  unfold virialVel
  rw [if_neg (by decide), if_neg (by decide), hm, hr, hsel m hi, hsel r (fun i h => hlen ▸ hi i h)]
  change Except.ok _ = Except.ok _
  congr 1
  have hf : ∀ (l : List ℕ) (g : ℕ → ℝ), (l.map (fun i => [g i])).flatten = l.map g := by
    intro l g
    induction l with
    | nil => rfl
    | cons i l ih => rw [List.map_cons, List.flatten_cons, ih]; rfl
  rw [hf, hf, List.zipWith_map, List.zipWith_self]

/-- C109: when the catalogue could not be read, asking for velocities raises AttributeError. -/
theorem velocities_without_halos (u : Units.UnitSystem) (hubble red : ℝ) (halos : Option (List ℤ)) (subhalo : Bool) :
    virialVel u hubble red Halos.empty halos subhalo = .error .attributeError := by
  cases subhalo <;> rfl

/-! ### A catalogue meeting the hypotheses -/

/-- Two files; the second has one more group and no subhalos. -/
def twoFiles : Disk := fun f =>
  if f = [1] then some ⟨fun d => if d = .group then 2 else 1, fun d _ => if d = .group then .data ⟨[], [[3]]⟩ else .data ⟨[], [[5]]⟩⟩
  else if f = [2] then some ⟨fun _ => 0, fun d _ => if d = .group then .data ⟨[], [[4]]⟩ else .missing⟩ else none

theorem twoFiles_whole (d : Dset) (n : String) : Whole twoFiles [1] [[2]] d n := by
  cases d
  · refine ⟨_, ⟨[], [[3]]⟩, rfl, rfl, ?_, rfl⟩
    intro g hg
    rw [List.mem_singleton] at hg
    subst hg
    exact ⟨_, rfl, Or.inr ⟨⟨[], [[4]]⟩, rfl, rfl⟩⟩
  · refine ⟨_, ⟨[], [[5]]⟩, rfl, rfl, ?_, rfl⟩
    intro g hg
    rw [List.mem_singleton] at hg
    subst hg
    exact ⟨_, rfl, Or.inl rfl⟩

/-- The catalogue of two files, found in the other order, is loaded. -/
example (u : Units.UnitSystem) : load_halo u twoFiles [[2], [1]] Halos.empty = (.ok (), upTo u twoFiles [[1], [2]] 9) ∧
    (upTo u twoFiles [[1], [2]] 9).sub_radii = some [[3], [4]] ∧ (upTo u twoFiles [[1], [2]] 9).sub_sub_vel = some [[5]] :=
  ⟨load_partial (List.Perm.swap _ _ _) (by simp; decide) (fun q _ => twoFiles_whole q.1 q.2), rfl, rfl⟩

/-- The same with one array damaged, or missing, in the first file. -/
def withFault (name : String) (fault : Stored) : Disk := fun f =>
  (twoFiles f).map (fun file => { file with arrays := fun d n => if f = [1] ∧ n = name then fault else file.arrays d n })

theorem withFault_whole (name : String) (fault : Stored) (d : Dset) (n : String) (h : n ≠ name) :
    Whole (withFault name fault) [1] [[2]] d n := by
  have h1 : ∀ f, rowsAt (withFault name fault) d n f = rowsAt twoFiles d n f := by
    intro f
    unfold rowsAt withFault
    cases twoFiles f with
    | none => rfl
    | some file => simp [h]
  have hr : rows (withFault name fault) [[1], [2]] d n = rows twoFiles [[1], [2]] d n := by
    unfold rows
    rw [funext h1]
  cases d
  · refine ⟨_, ⟨[], [[3]]⟩, rfl, by simp [h], ?_, by rw [hr]; rfl⟩
    intro g hg
    rw [List.mem_singleton] at hg
    subst hg
    exact ⟨_, rfl, Or.inr ⟨⟨[], [[4]]⟩, by simp, rfl⟩⟩
  · refine ⟨_, ⟨[], [[5]]⟩, rfl, by simp [h], ?_, by rw [hr]; rfl⟩
    intro g hg
    rw [List.mem_singleton] at hg
    subst hg
    exact ⟨_, rfl, Or.inl (by simp)⟩

/-- Positions of subhalos damaged: groups and radii of subhalos are there, positions, masses and parents of subhalos are not. -/
example (u : Units.UnitSystem) : ∃ h, load_halo u (withFault "SubhaloPos" .damaged) [[2], [1]] Halos.empty = (.ok (), h) ∧
    h.sub_sub_radii ≠ none ∧ h.sub_sub_cofm = none ∧ h.sub_sub_index = none :=
  ⟨_, half_loaded (k := 5) (q := (.subhalo, "SubhaloPos")) (List.Perm.swap _ _ _) (by simp; decide)
    (fun q hq => withFault_whole _ _ _ _ (by simp [wanted] at hq; rcases hq with rfl | rfl | rfl | rfl | rfl <;> decide)) rfl rfl
    (by simp), by simp [upTo], by simp [upTo], by simp [upTo]⟩

/-- No subhalos in the first file. -/
example (u : Units.UnitSystem) : (load_halo u (withFault "SubhaloHalfmassRad" .missing) [[2], [1]] Halos.empty).1 = .error .typeError :=
  missing_raises (k := 4) (q := (.subhalo, "SubhaloHalfmassRad")) (List.Perm.swap _ _ _) (by simp; decide)
    (fun q hq => withFault_whole _ _ _ _ (by simp [wanted] at hq; rcases hq with rfl | rfl | rfl | rfl <;> decide)) rfl rfl (by simp)

/-- A first file which cannot be opened. -/
example : ∃ (disk : Disk) (f : Name), disk f = none ∧ disk [2] ≠ none := ⟨fun f => if f = [1] then none else twoFiles f, [1], rfl, by simp [twoFiles]⟩

/-- Groups and subhalos of the same masses and radii, for the two theorems about velocities. -/
example : ∃ h : Halos, h.sub_mass = some (inSolar Units.gadget [[100], [2]]) ∧ h.sub_sub_mass = some [[100], [2]] ∧
    h.sub_radii = some [[150], [0]] ∧ h.sub_sub_radii = some [[150], [0]] :=
  ⟨⟨none, _, _, none, _, none, _, none, none⟩, rfl, rfl, rfl, rfl⟩

/-- A choice of groups with repetition. -/
example : ∃ (h : Halos) (m r : List ℝ) (is : List ℕ), m.length = r.length ∧ h.sub_mass = some (m.map ([·])) ∧
    h.sub_radii = some (r.map ([·])) ∧ is = [1, 0, 1] ∧ ∀ i ∈ is, i < m.length :=
  ⟨⟨none, _, _, none, none, none, none, none, none⟩, [3, 4], [5, 6], [1, 0, 1], rfl, rfl, rfl, rfl, by simp⟩

example (u : Units.UnitSystem) := unreadable_partial (u := u) (disk := fun f => if f = [1] then none else twoFiles f) (found := [[2], [1]])
  (List.Perm.swap _ _ _) (by simp; decide : ([[1], [2]] : List Name).Pairwise (· ≤ ·)) rfl

example := subhalo_velocities_wrong (u := Units.gadget) (by norm_num [Units.gadget]) 0.7 3
  (h := ⟨none, some (inSolar Units.gadget [[100], [2]]), some [[150], [0]], none, some [[150], [0]], none, some [[100], [2]], none, none⟩) rfl rfl rfl rfl

example := group_velocities_partial (u := Units.gadget) (hubble := 0.7) (red := 3) (m := [3, 4]) (r := [5, 6]) rfl
  (h := ⟨none, _, _, none, none, none, none, none, none⟩) rfl rfl [1, 0, 1] (by simp)

end Verif.Props.HaloLoad
