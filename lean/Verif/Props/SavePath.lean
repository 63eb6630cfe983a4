import Verif.Model.SavePath
import Verif.Props.SnapNames
import Mathlib.Data.List.TakeWhile

/-!
C115: spectra are found again where they were saved.
-/

namespace Verif.Props.SavePath
open Verif Verif.SnapNames Verif.SavePath

variable {D : Type}

/-- A name for a file or directory: characters without a slash, and not the name of the directory itself. -/
def IsName (x : Name) : Prop := x ≠ [] ∧ 47 ∉ x ∧ x ≠ codes "."

/-- A path which begins at the root. -/
def Absolute (p : Name) : Prop := ∃ t, p = 47 :: t

/-! Paths. -/

theorem absolute_iff (p : Name) : p.head? = some 47 ↔ Absolute p := by
  cases p with
  | nil => simp [Absolute]
  | cons c t => simp [Absolute]

theorem split_ne_nil (p : Name) : split p ≠ [] := by
  cases p with
  | nil => simp [split]
  | cons c t =>
    rw [split]
    split
    · simp
    · split <;> simp

theorem split_slash (a b : Name) : split (a ++ 47 :: b) = split a ++ split b := by
  induction a with
  | nil => simp [split]
  | cons c a ih =>
    rw [List.cons_append, split, split]
    by_cases hc : c = 47
    · rw [if_pos hc, if_pos hc, ih]; rfl
    · rw [if_neg hc, if_neg hc, ih]
      cases h : split a with
      | nil => exact absurd h (split_ne_nil a)
      | cons x r => rfl

theorem split_name {x : Name} (hx : 47 ∉ x) : split x = [x] := by
  induction x with
  | nil => rfl
  | cons c t ih =>
    rw [List.mem_cons, not_or] at hx
    rw [split, if_neg (Ne.symm hx.1), ih hx.2]

theorem comps_slash (a b : Name) : comps (a ++ 47 :: b) = comps a ++ comps b := by
  unfold comps
  rw [split_slash, List.filter_append]

theorem comps_nil : comps [] = [] := rfl

theorem comps_name {x : Name} (hx : IsName x) : comps x = [x] := by
  unfold comps
  rw [split_name hx.2.1]
  have h1 := hx.1
  have h2 : x ≠ [46] := hx.2.2
  simp [h1, h2]

theorem comps_trailing {a : Name} (h : a.getLast? = some 47) (b : Name) : comps (a ++ b) = comps a ++ comps b := by
  obtain ⟨a', rfl⟩ := List.getLast?_eq_some_iff.1 h
  rw [List.append_assoc, List.singleton_append, comps_slash, comps_slash, comps_nil, List.append_nil]

theorem comps_join {a b : Name} (hb : ¬ Absolute b) : comps (join a b) = comps a ++ comps b := by
  unfold join
  rw [if_neg (fun h => hb ((absolute_iff b).1 h))]
  split
  · rename_i h
    rcases h with rfl | h
    · rfl
    · exact comps_trailing h b
  · exact comps_slash a b

theorem head_join {a b : Name} (hb : ¬ Absolute b) : (join a b).head? = some 47 ↔ a.head? = some 47 := by
  have hb' := fun h => hb ((absolute_iff b).1 h)
  unfold join
  rw [if_neg hb']
  cases a with
  | nil => simpa using hb'
  | cons c t =>
    split <;> simp

theorem resolve_join (cwd : List Name) {a b : Name} (hb : ¬ Absolute b) :
    resolve cwd (join a b) = resolve cwd a ++ comps b := by
  unfold resolve
  by_cases h : a.head? = some 47
  · rw [if_pos h, if_pos ((head_join hb).2 h), comps_join hb]
  · rw [if_neg h, if_neg (fun hj => h ((head_join hb).1 hj)), comps_join hb, List.append_assoc]

theorem join_absolute {b : Name} (hb : Absolute b) (a : Name) : join a b = b := by
  unfold join
  rw [if_pos ((absolute_iff b).2 hb)]

theorem name_relative {x : Name} (hx : IsName x) : ¬ Absolute x := by
  rintro ⟨t, rfl⟩
  exact hx.2.1 (by simp)

theorem snap_digits (n : ℕ) : 47 ∉ snap n := by
  unfold snap decimal
  rw [List.mem_append, not_or]
  constructor
  · simp
  · intro h
    obtain ⟨d, -, hd⟩ := List.mem_map.1 h
    omega

theorem name_of_prefix {p : Name} (h47 : 47 ∉ p) (hp : 2 ≤ p.length) (n : ℕ) : IsName (p ++ snap n) := by
  refine ⟨?_, ?_, ?_⟩
  · intro h
    have := congrArg List.length h
    rw [List.length_append] at this
    simp only [List.length_nil] at this
    omega
  · rw [List.mem_append, not_or]
    exact ⟨h47, snap_digits n⟩
  · intro h
    have := congrArg List.length h
    rw [List.length_append] at this
    have h1 : (codes ".").length = 1 := rfl
    omega

theorem snapdir_name (n : ℕ) : IsName (codes "snapdir_" ++ snap n) := name_of_prefix (by decide) (by decide) n
theorem specdir_name (n : ℕ) : IsName (codes "SPECTRA_" ++ snap n) := name_of_prefix (by decide) (by decide) n

theorem resolve_snapdir (cwd : List Name) (base : Name) (n : ℕ) :
    resolve cwd (snapdir base n) = resolve cwd base ++ [codes "snapdir_" ++ snap n] := by
  unfold snapdir
  rw [resolve_join cwd (name_relative (snapdir_name n)), comps_name (snapdir_name n)]

theorem resolve_specdir (cwd : List Name) (base : Name) (n : ℕ) :
    resolve cwd (specdir base n) = resolve cwd base ++ [codes "SPECTRA_" ++ snap n] := by
  unfold specdir
  rw [resolve_join cwd (name_relative (specdir_name n)), comps_name (specdir_name n)]

theorem dirs_apart (n m : ℕ) : codes "snapdir_" ++ snap n ≠ codes "SPECTRA_" ++ snap m := by
  intro h
  have h0 : ∀ r : Name, (codes "snapdir_" ++ r).head? = some 115 := fun _ => rfl
  have h1 : ∀ r : Name, (codes "SPECTRA_" ++ r).head? = some 83 := fun _ => rfl
  have := congrArg List.head? h
  rw [h0, h1] at this
  exact absurd this (by decide)

theorem snapdir_inj {n m : ℕ} (h : codes "snapdir_" ++ snap n = codes "snapdir_" ++ snap m) : n = m :=
  Props.SnapNames.snap_inj (List.append_cancel_left h)

theorem specdir_inj {n m : ℕ} (h : codes "SPECTRA_" ++ snap n = codes "SPECTRA_" ++ snap m) : n = m :=
  Props.SnapNames.snap_inj (List.append_cancel_left h)

theorem join_name_last (a : Name) {x : Name} (hx : IsName x) : join a x ≠ [] ∧ (join a x).getLast? ≠ some 47 := by
  have h : ∃ p, join a x = p ++ x := by
    unfold join
    rw [if_neg (fun h => name_relative hx ((absolute_iff x).1 h))]
    split
    · exact ⟨a, rfl⟩
    · exact ⟨a ++ [47], by simp⟩
  obtain ⟨p, hp⟩ := h
  rw [hp]
  refine ⟨by simp [hx.1], ?_⟩
  rw [List.getLast?_append_of_ne_nil _ hx.1]
  intro h
  exact hx.2.1 (List.mem_of_getLast? h)

theorem join_slash {s : Name} (h1 : s ≠ []) (h2 : s.getLast? ≠ some 47) {b : Name} (hb : ¬ Absolute b) :
    join s b = s ++ 47 :: b := by
  unfold join
  rw [if_neg (fun h => hb ((absolute_iff b).1 h)), if_neg (by simp [h1, h2])]

theorem headOf_slash (a b : Name) : headOf (a ++ 47 :: b) = a ++ 47 :: headOf b := by
  unfold headOf
  rw [List.reverse_append, List.reverse_cons, List.append_assoc, List.dropWhile_append]
  split
  · rename_i h
    have h' : b.reverse.dropWhile (fun c => c != 47) = [] := by simpa using h
    rw [h']
    simp
  · simp

theorem headOf_name {x : Name} (hx : 47 ∉ x) : headOf x = [] := by
  unfold headOf
  have h : x.reverse.dropWhile (fun c => c != 47) = [] := by
    refine List.dropWhile_eq_nil_iff.2 ?_
    intro c hc
    have : c ≠ 47 := fun h => hx (h ▸ List.mem_reverse.1 hc)
    simpa using this
  rw [h]
  rfl

theorem comps_rstrip (h : Name) : comps ((h.reverse.dropWhile (fun c => c == 47)).reverse) = comps h := by
  induction h using List.reverseRecOn with
  | nil => rfl
  | append_singleton h c ih =>
    rw [List.reverse_append, List.reverse_singleton, List.singleton_append, List.dropWhile_cons]
    by_cases hc : c = 47
    · subst hc
      rw [if_pos (by simp), ih, comps_slash, comps_nil, List.append_nil]
    · rw [if_neg (by simpa using hc)]
      simp

theorem head_rstrip {h : Name} (hn : ¬ h.all (fun c => c == 47) = true) :
    ((h.reverse.dropWhile (fun c => c == 47)).reverse).head? = h.head? := by
  induction h using List.reverseRecOn with
  | nil => simp at hn
  | append_singleton h c ih =>
    rw [List.reverse_append, List.reverse_singleton, List.singleton_append, List.dropWhile_cons]
    by_cases hc : c = 47
    · subst hc
      have hn' : ¬ h.all (fun c => c == 47) = true := by
        intro h'; apply hn; rw [List.all_append, h']; rfl
      rw [if_pos (by simp), ih hn']
      have : h ≠ [] := by rintro rfl; exact hn' rfl
      rw [List.head?_append_of_ne_nil _ this]
    · rw [if_neg (by simpa using hc)]
      simp

/-- The directory of a path which has a slash. -/
theorem resolve_dirname (cwd : List Name) {a : Name} (ha : a ≠ []) (b : Name) :
    resolve cwd (dirname (a ++ 47 :: b)) = resolve cwd a ++ comps (headOf b) := by
  have hc : comps (dirname (a ++ 47 :: b)) = comps a ++ comps (headOf b) := by
    unfold dirname
    rw [headOf_slash]
    split
    · exact comps_slash _ _
    · rw [comps_rstrip, comps_slash]
  have hh : (dirname (a ++ 47 :: b)).head? = a.head? := by
    unfold dirname
    rw [headOf_slash]
    split
    · exact List.head?_append_of_ne_nil _ ha
    · rename_i h
      rw [head_rstrip h]
      exact List.head?_append_of_ne_nil _ ha
  unfold resolve
  rw [hh, hc]
  split
  · rfl
  · rw [List.append_assoc]

/-! The file is found again. -/

theorem mkdir_ok {d d1 : Disk D} {cwd : List Name} {p : Name} (h : d.mkdir cwd p = .ok d1) :
    d1 = { d with isDir := fun q => if q = resolve cwd p then true else d.isDir q } := by
  unfold Disk.mkdir at h
  split at h
  · cases h
  · injection h with h
    exact h.symm

theorem write_ok {d d1 : Disk D} {cwd : List Name} {p : Name} {data : D} (h : d.write cwd p data = .ok d1) :
    d1 = { d with file := fun q => if q = resolve cwd p then some data else d.file q } := by
  unfold Disk.write at h
  split at h
  · cases h
  · injection h with h
    exact h.symm

theorem save_steps {d d' : Disk D} {cwd : List Name} {p : Name} {data : D} (h : save d cwd p data = .ok d') :
    ∃ d1 : Disk D, (d1 = d ∨ d.mkdir cwd (dirname p) = .ok d1) ∧
      (if d1.exist cwd p then d1.move cwd p (p ++ codes ".backup") else d1).write cwd p data = .ok d' := by
  unfold save at h
  by_cases he : d.exist cwd (dirname p) = true
  · exact ⟨d, Or.inl rfl, by simpa [he, bind, Except.bind] using h⟩
  · have he' : d.exist cwd (dirname p) = false := by simpa using he
    cases hm : d.mkdir cwd (dirname p) with
    | error e => simp [he', hm, bind, Except.bind] at h
    | ok d1 => exact ⟨d1, Or.inr rfl, by simpa [he', hm, bind, Except.bind] using h⟩

theorem save_read {d d' : Disk D} {cwd : List Name} {p : Name} {data : D} (h : save d cwd p data = .ok d') :
    d'.read cwd p = .ok data := by
  obtain ⟨d1, -, h2⟩ := save_steps h
  rw [write_ok h2]
  simp [Disk.read]

theorem save_isDir {d d' : Disk D} {cwd : List Name} {p : Name} {data : D} (h : save d cwd p data = .ok d')
    (q : List Name) : (d.isDir q = true → d'.isDir q = true) ∧
      (q ≠ resolve cwd (dirname p) → d'.isDir q = d.isDir q) := by
  obtain ⟨d1, h1, h2⟩ := save_steps h
  have e : d'.isDir = d1.isDir := by
    rw [write_ok h2]
    by_cases he : d1.exist cwd p = true <;> simp [he, Disk.move]
  rw [e]
  rcases h1 with rfl | h1
  · exact ⟨id, fun _ => rfl⟩
  · rw [mkdir_ok h1]
    simp only
    constructor
    · intro hq; simp [hq]
    · intro hq; rw [if_neg hq]

theorem save_file_other {d d' : Disk D} {cwd : List Name} {p : Name} {data : D} (h : save d cwd p data = .ok d')
    {q : List Name} (h1 : q ≠ resolve cwd p) (h2 : q ≠ resolve cwd (p ++ codes ".backup")) : d'.file q = d.file q := by
  obtain ⟨d1, hd, hw⟩ := save_steps h
  have e : d1.file = d.file := by
    rcases hd with rfl | hd
    · rfl
    · rw [mkdir_ok hd]
  rw [write_ok hw]
  by_cases he : d1.exist cwd p = true
  · simp [he, Disk.move, h1, h2, e]
  · simp [he, h1, e]

theorem backup_relative {x : Name} (hx : ¬ Absolute x) : ¬ Absolute (x ++ codes ".backup") := by
  rintro ⟨t, ht⟩
  cases x with
  | nil => exact absurd (congrArg List.head? ht) (by show (some 46 : Option ℕ) ≠ some 47; decide)
  | cons c r =>
    rw [List.cons_append] at ht
    injection ht with h1 h2
    exact hx ⟨r, by rw [h1]⟩

/-- **What is saved is found again.** After spectra are saved, new spectra made with the same arguments look for their savefile in
the same place, and read what was saved. This is so although the place depends on which directories exist, and saving makes one. -/
theorem found_again {d d' : Disk D} {cwd : List Name} {num : ℕ} {base : Name} {savedir : Option Name} {name : Name} {data : D}
    (hdir : d.file (resolve cwd (snapdir base num)) = none)
    (h : save d cwd (savePath d cwd num base savedir name) data = .ok d') :
    d'.read cwd (savePath d' cwd num base savedir name) = .ok data := by
  suffices hp : savePath d' cwd num base savedir name = savePath d cwd num base savedir name by
    rw [hp]; exact save_read h
  by_cases habs : Absolute name
  · unfold savePath
    rw [join_absolute habs, join_absolute habs]
  cases savedir with
  | some s => rfl
  | none =>
    suffices he : d'.exist cwd (snapdir base num) = d.exist cwd (snapdir base num) by
      unfold savePath
      simp only [he]
    by_cases hs : d.isDir (resolve cwd (snapdir base num)) = true
    · have := (save_isDir h _).1 hs
      unfold Disk.exist
      rw [this, hs]
      simp
    · have hex : d.exist cwd (snapdir base num) = false := by
        unfold Disk.exist
        simp [hs, hdir]
      have hpath : savePath d cwd num base none name = specdir base num ++ 47 :: name := by
        unfold savePath
        simp only [hex]
        have := join_name_last base (specdir_name num)
        exact join_slash this.1 this.2 habs
      rw [hpath] at h
      have hne : ∀ r, resolve cwd (snapdir base num) ≠ resolve cwd (specdir base num) ++ r := by
        intro r hr
        rw [resolve_snapdir, resolve_specdir, List.append_assoc] at hr
        have := List.append_cancel_left hr
        injection this with h1 h2
        exact dirs_apart num num h1
      have hsp : specdir base num ≠ [] ∧ (specdir base num).getLast? ≠ some 47 := join_name_last base (specdir_name num)
      have hres : ∀ b, ¬ Absolute b → resolve cwd (specdir base num ++ 47 :: b) = resolve cwd (specdir base num) ++ comps b := by
        intro b hb
        have : specdir base num ++ 47 :: b = join (specdir base num) b := (join_slash hsp.1 hsp.2 hb).symm
        rw [this, resolve_join cwd hb]
      have h1 : d'.isDir (resolve cwd (snapdir base num)) = d.isDir (resolve cwd (snapdir base num)) := by
        refine (save_isDir h _).2 ?_
        rw [resolve_dirname cwd hsp.1]
        exact hne _
      have h2 : d'.file (resolve cwd (snapdir base num)) = d.file (resolve cwd (snapdir base num)) := by
        refine save_file_other h ?_ ?_
        · rw [hres name habs]
          exact hne _
        · rw [List.append_assoc, List.cons_append, hres _ (backup_relative habs)]
          exact hne _
      unfold Disk.exist
      rw [h1, h2]

/-! Different spectra do not share a file. -/

theorem resolve_default (d : Disk D) (cwd : List Name) (num : ℕ) (base : Name) {name : Name} (hn : ¬ Absolute name) :
    resolve cwd (savePath d cwd num base none name) = resolve cwd base ++ (codes "snapdir_" ++ snap num) :: comps name ∨
    resolve cwd (savePath d cwd num base none name) = resolve cwd base ++ (codes "SPECTRA_" ++ snap num) :: comps name := by
  unfold savePath
  simp only
  rw [resolve_join cwd hn]
  split
  · left; rw [resolve_snapdir, List.append_assoc]; rfl
  · right; rw [resolve_specdir, List.append_assoc]; rfl

/-- **The spectra of different snapshots are saved to different files**, at whatever times the places are worked out. -/
theorem snapshots_apart (d e : Disk D) (cwd : List Name) {n m : ℕ} (hnm : n ≠ m) (base : Name) {x y : Name}
    (hx : ¬ Absolute x) (hy : ¬ Absolute y) :
    resolve cwd (savePath d cwd n base none x) ≠ resolve cwd (savePath e cwd m base none y) := by
  intro h
  rcases resolve_default d cwd n base hx with h1 | h1 <;> rcases resolve_default e cwd m base hy with h2 | h2 <;>
    rw [h1, h2] at h <;> have h' := List.append_cancel_left h <;> injection h' with h3 h4
  · exact hnm (snapdir_inj h3)
  · exact dirs_apart n m h3
  · exact dirs_apart m n h3.symm
  · exact hnm (specdir_inj h3)

/-- **Spectra saved under different names are saved to different files.** -/
theorem names_apart (d e : Disk D) (cwd : List Name) (n : ℕ) (base : Name) (savedir : Option Name) {x y : Name}
    (hx : IsName x) (hy : IsName y) (hxy : x ≠ y) :
    resolve cwd (savePath d cwd n base savedir x) ≠ resolve cwd (savePath e cwd n base savedir y) := by
  intro h
  cases savedir with
  | some s =>
    unfold savePath at h
    simp only at h
    rw [resolve_join cwd (name_relative hx), resolve_join cwd (name_relative hy), comps_name hx, comps_name hy] at h
    have := List.append_cancel_left h
    injection this with h1
    exact hxy h1
  | none =>
    rcases resolve_default d cwd n base (name_relative hx) with h1 | h1 <;>
    rcases resolve_default e cwd n base (name_relative hy) with h2 | h2 <;>
    rw [h1, h2, comps_name hx, comps_name hy] at h <;> have h' := List.append_cancel_left h <;>
    injection h' with h3 h4 <;> injection h4 with h5 <;> exact hxy h5

/-- The default names of the savefiles of `Spectra`, `RandSpectra`, `GriddedSpectra` and `HaloSpectra` are names, and all different. -/
theorem default_names :
    (∀ x ∈ [codes "spectra.hdf5", codes "rand_spectra_DLA.hdf5", codes "gridded_spectra.hdf5", codes "halo_spectra.hdf5"], IsName x) ∧
    [codes "spectra.hdf5", codes "rand_spectra_DLA.hdf5", codes "gridded_spectra.hdf5", codes "halo_spectra.hdf5"].Nodup := by
  constructor
  · intro x hx
    simp only [List.mem_cons, List.not_mem_nil, or_false] at hx
    rcases hx with rfl | rfl | rfl | rfl <;> exact ⟨by decide, by decide, by decide⟩
  · decide

/-- **Saving does not touch any other file**, but for the backup of the file that was there before. -/
theorem others_kept {d d' : Disk D} {cwd : List Name} {p : Name} {data : D} (h : save d cwd p data = .ok d')
    {q : List Name} (h1 : q ≠ resolve cwd p) (h2 : q ≠ resolve cwd (p ++ codes ".backup")) : d'.file q = d.file q :=
  save_file_other h h1 h2

theorem join_append (s : Name) {x : Name} (hx : x ≠ []) (b : Name) : join s x ++ b = join s (x ++ b) := by
  unfold join
  rw [List.head?_append_of_ne_nil _ hx]
  split
  · rfl
  · split <;> simp

theorem backup_name {x : Name} (hx : IsName x) : IsName (x ++ codes ".backup") := by
  refine ⟨by simp [hx.1], ?_, ?_⟩
  · rw [List.mem_append, not_or]
    exact ⟨hx.2.1, by decide⟩
  · intro h
    have := congrArg List.length h
    rw [List.length_append] at this
    have h1 : (codes ".").length = 1 := rfl
    have h2 : (codes ".backup").length = 7 := rfl
    omega

/-- **The file that was there before is kept as a backup**, with `.backup` after its name. -/
theorem backup_kept {d d' : Disk D} {cwd : List Name} {num : ℕ} {base : Name} {savedir : Option Name} {name : Name} (hn : IsName name)
    {data old : D} (hold : d.read cwd (savePath d cwd num base savedir name) = .ok old)
    (h : save d cwd (savePath d cwd num base savedir name) data = .ok d') :
    d'.read cwd (savePath d cwd num base savedir name ++ codes ".backup") = .ok old := by
  obtain ⟨s, hs⟩ : ∃ s, savePath d cwd num base savedir name = join s name := ⟨_, rfl⟩
  rw [hs] at hold h ⊢
  have hf : d.file (resolve cwd (join s name)) = some old := by
    unfold Disk.read at hold
    split at hold
    · rename_i x hx
      injection hold with e
      rw [hx, e]
    · cases hold
  obtain ⟨d1, hd, hw⟩ := save_steps h
  have hf1 : d1.file (resolve cwd (join s name)) = some old := by
    rcases hd with rfl | hd
    · exact hf
    · rw [mkdir_ok hd]; exact hf
  have hex : d1.exist cwd (join s name) = true := by
    unfold Disk.exist
    rw [hf1]
    simp [(join_name_last s hn).1]
  have hne : resolve cwd (join s name ++ codes ".backup") ≠ resolve cwd (join s name) := by
    rw [join_append s hn.1, resolve_join cwd (name_relative (backup_name hn)), resolve_join cwd (name_relative hn),
      comps_name hn, comps_name (backup_name hn)]
    intro h0
    have := congrArg List.length (List.cons.inj (List.append_cancel_left h0)).1
    rw [List.length_append] at this
    have h2 : (codes ".backup").length = 7 := rfl
    omega
  rw [write_ok hw]
  simp [Disk.read, Disk.move, hex, hne, hf1]

/-! Which directories are made. -/

/-- **The default place can always be saved to.** If the base directory exists, the spectra can be saved to the default place:
the directory for them is made if there is none. -/
theorem default_saves (d : Disk D) (cwd : List Name) (num : ℕ) (base : Name) {name : Name} (hn : IsName name) (data : D)
    (hbase : d.isDir (resolve cwd base) = true)
    (hdirs : d.file (resolve cwd (snapdir base num)) = none ∧ d.file (resolve cwd (specdir base num)) = none)
    (hfile : ∀ q : Name, d.isDir (resolve cwd base ++ [q, name]) = false) :
    ∃ d', save d cwd (savePath d cwd num base none name) data = .ok d' := by
  have key : ∀ dir : Name, IsName dir → d.file (resolve cwd base ++ [dir]) = none →
      ∃ d', save d cwd (join (join base dir) name) data = .ok d' := by
    intro dir hd hfd
    have hl := join_name_last base hd
    have hj : join (join base dir) name = join base dir ++ 47 :: name := join_slash hl.1 hl.2 (name_relative hn)
    have hdn : resolve cwd (dirname (join (join base dir) name)) = resolve cwd base ++ [dir] := by
      rw [hj, resolve_dirname cwd hl.1, headOf_name hn.2.1, comps_nil, List.append_nil,
        resolve_join cwd (name_relative hd), comps_name hd]
    have hdne : dirname (join (join base dir) name) ≠ [] := by
      rw [hj]
      unfold dirname
      rw [headOf_slash, headOf_name hn.2.1]
      split
      · simp
      · intro h0
        rename_i hall
        have := head_rstrip hall
        rw [h0] at this
        simp at this
    have hrp : resolve cwd (join (join base dir) name) = resolve cwd base ++ [dir, name] := by
      rw [resolve_join cwd (name_relative hn), resolve_join cwd (name_relative hd), comps_name hn, comps_name hd,
        List.append_assoc]
      rfl
    have hpne : join (join base dir) name ≠ [] := by rw [hj]; simp
    have hlast : (resolve cwd base ++ [dir, name]).dropLast = resolve cwd base ++ [dir] := by
      have : resolve cwd base ++ [dir, name] = (resolve cwd base ++ [dir]) ++ [name] := by simp
      rw [this, List.dropLast_concat]
    have hnd := hfile dir
    have hfin : ∀ d1 : Disk D, d1.isDir (resolve cwd base ++ [dir]) = true → d1.isDir (resolve cwd base ++ [dir, name]) = false →
        ∃ d', (let d2 := if d1.exist cwd (join (join base dir) name) then
            d1.move cwd (join (join base dir) name) (join (join base dir) name ++ codes ".backup") else d1
          d2.write cwd (join (join base dir) name) data) = .ok d' := by
      intro d1 h1 h2
      simp only
      unfold Disk.write
      rw [if_neg]
      · exact ⟨_, rfl⟩
      · rw [hrp, hlast]
        split <;> simp [Disk.move, h1, h2, hpne]
    unfold save
    simp only [bind, Except.bind]
    by_cases hex : d.exist cwd (dirname (join (join base dir) name)) = true
    · simp only [hex]
      refine hfin d ?_ hnd
      unfold Disk.exist at hex
      rw [hdn, hfd] at hex
      simpa [hdne] using hex
    · have hex' : d.exist cwd (dirname (join (join base dir) name)) = false := by simpa using hex
      have hmk : d.mkdir cwd (dirname (join (join base dir) name)) =
          .ok { d with isDir := fun q => if q = resolve cwd base ++ [dir] then true else d.isDir q } := by
        unfold Disk.mkdir
        rw [if_neg]
        · rw [hdn]
        · rw [hdn, List.dropLast_concat, hbase, hex']
          simp [hdne]
      simp only [hex', hmk]
      refine hfin _ (by simp) ?_
      simp [hnd]
  unfold savePath
  simp only
  split
  · exact key _ (snapdir_name num) (by rw [← resolve_snapdir]; exact hdirs.1)
  · exact key _ (specdir_name num) (by rw [← resolve_specdir]; exact hdirs.2)

/-- **Only one level of directories is made.** If neither the directory asked for nor the directory above it exists, the spectra are
not saved. -/
theorem parents_not_made (d : Disk D) (cwd : List Name) (num : ℕ) (base s : Name) {name : Name} (hn : IsName name) (data : D)
    (hs : s ≠ [] ∧ s.getLast? ≠ some 47)
    (hmiss : d.isDir (resolve cwd s) = false ∧ d.file (resolve cwd s) = none)
    (hparent : d.isDir (resolve cwd s).dropLast = false) :
    save d cwd (savePath d cwd num base (some s) name) data = .error .ioError := by
  have hj : savePath d cwd num base (some s) name = s ++ 47 :: name := join_slash hs.1 hs.2 (name_relative hn)
  have hdn : resolve cwd (dirname (s ++ 47 :: name)) = resolve cwd s := by
    rw [resolve_dirname cwd hs.1, headOf_name hn.2.1, comps_nil, List.append_nil]
  have hex : d.exist cwd (dirname (s ++ 47 :: name)) = false := by
    unfold Disk.exist
    rw [hdn, hmiss.1, hmiss.2]
    simp
  have hmk : d.mkdir cwd (dirname (s ++ 47 :: name)) = .error .ioError := by
    unfold Disk.mkdir
    rw [if_pos]
    rw [hdn, hparent]
    simp
  rw [hj]
  unfold save
  simp only [bind, Except.bind, hex, hmk]
  rfl

/-- **The current directory cannot be given as the empty string.** With an empty `savedir` the spectra are never saved, though the
file would be in the current directory, which exists. -/
theorem empty_savedir (d : Disk D) (cwd : List Name) (num : ℕ) (base : Name) {name : Name} (hn : IsName name) (data : D) :
    resolve cwd (savePath d cwd num base (some []) name) = cwd ++ [name] ∧
    save d cwd (savePath d cwd num base (some []) name) data = .error .ioError := by
  have hp : savePath d cwd num base (some []) name = name := by
    unfold savePath
    simp only
    unfold join
    rw [if_neg (fun h => name_relative hn ((absolute_iff name).1 h)), if_pos (Or.inl rfl), List.nil_append]
  have hdn : dirname name = [] := by
    unfold dirname
    rw [headOf_name hn.2.1]
    rfl
  rw [hp]
  constructor
  · unfold resolve
    rw [if_neg (fun h => name_relative hn ((absolute_iff name).1 h)), comps_name hn]
  · unfold save
    simp only [bind, Except.bind, hdn]
    rfl

/-! The working directory. -/

theorem resolve_absolute (cwd cwd' : List Name) {p : Name} (hp : Absolute p) : resolve cwd p = resolve cwd' p := by
  unfold resolve
  rw [if_pos ((absolute_iff p).2 hp), if_pos ((absolute_iff p).2 hp)]

/-- **With an absolute base directory the working directory does not matter**: the path is the same and leads to the same file
wherever the process is, so that arrays not yet loaded can be loaded after a change of directory. -/
theorem absolute_base (d : Disk D) (cwd cwd' : List Name) (num : ℕ) {base : Name} (hb : Absolute base) {name : Name}
    (hn : ¬ Absolute name) :
    savePath d cwd num base none name = savePath d cwd' num base none name ∧
    d.read cwd (savePath d cwd num base none name) = d.read cwd' (savePath d cwd num base none name) := by
  have habs : ∀ {a b : Name}, Absolute a → ¬ Absolute b → Absolute (join a b) := fun ha hb' =>
    (absolute_iff _).1 ((head_join hb').2 ((absolute_iff _).2 ha))
  have hsd : Absolute (snapdir base num) := habs hb (name_relative (snapdir_name num))
  have hsp : Absolute (specdir base num) := habs hb (name_relative (specdir_name num))
  constructor
  · unfold savePath Disk.exist
    simp only [resolve_absolute cwd cwd' hsd]
  · unfold Disk.read
    rw [resolve_absolute cwd cwd']
    unfold savePath
    simp only
    split
    · exact habs hsd hn
    · exact habs hsp hn

/-! The spectra of halos. -/

/-- **With absolute directories `HaloSpectra` saves to the file it looks for.** -/
theorem halo_absolute (d : Disk D) (cwd : List Name) (num : ℕ) (base : Name) (savedir : Option Name) {name : Name}
    (hn : ¬ Absolute name) (hdir : Absolute (savedir.getD base)) :
    haloSavesTo d cwd num base savedir name = haloLooksFor num base savedir name := by
  have habs : ∀ {a b : Name}, Absolute a → ¬ Absolute b → Absolute (join a b) := fun ha hb' =>
    (absolute_iff _).1 ((head_join hb').2 ((absolute_iff _).2 ha))
  have : Absolute (haloLooksFor num base savedir name) := by
    unfold haloLooksFor haloDir
    cases savedir with
    | some s => exact habs hdir hn
    | none => exact habs (habs hdir (name_relative (snapdir_name num))) hn
  unfold haloSavesTo savePath
  exact join_absolute this _

/-- **With relative directories it does not.** The directory is put before the path twice, and the file looked for is another one
than the file saved to. -/
theorem halo_relative (d : Disk D) (cwd : List Name) (num : ℕ) (base : Name) {name : Name} (hn : IsName name) (hb : ¬ Absolute base) :
    resolve cwd (haloLooksFor num base none name) = resolve cwd base ++ [codes "snapdir_" ++ snap num, name] ∧
    resolve cwd (haloSavesTo d cwd num base none name) =
      resolve cwd base ++ [codes "snapdir_" ++ snap num] ++ comps base ++ [codes "snapdir_" ++ snap num, name] := by
  have hsd : ¬ Absolute (snapdir base num) := fun h =>
    hb ((absolute_iff _).1 ((head_join (name_relative (snapdir_name num))).1 ((absolute_iff _).2 h)))
  have hlf : ¬ Absolute (haloLooksFor num base none name) := fun h =>
    hsd ((absolute_iff _).1 ((head_join (name_relative hn)).1 ((absolute_iff _).2 h)))
  constructor
  · unfold haloLooksFor haloDir
    rw [resolve_join cwd (name_relative hn), resolve_snapdir, comps_name hn, List.append_assoc]
    rfl
  · unfold haloSavesTo savePath
    simp only
    rw [resolve_join cwd hlf]
    unfold haloLooksFor
    simp only [haloDir]
    rw [comps_join (name_relative hn), comps_name hn, resolve_snapdir]
    unfold snapdir
    rw [comps_join (name_relative (snapdir_name num)), comps_name (snapdir_name num)]
    simp

/-- **So the spectra of halos cannot be saved** from a relative base directory, when the directory of the snapshot does not have a
directory of the same name as the base directory in it. -/
theorem halo_relative_fails (d : Disk D) (cwd : List Name) (num : ℕ) (base : Name) {name : Name} (hn : IsName name)
    (hb : ¬ Absolute base)
    (hno : d.isDir (resolve cwd base ++ [codes "snapdir_" ++ snap num] ++ comps base) = false)
    (hno' : d.isDir (resolve cwd base ++ [codes "snapdir_" ++ snap num] ++ comps base ++ [codes "snapdir_" ++ snap num]) = false ∧
      d.file (resolve cwd base ++ [codes "snapdir_" ++ snap num] ++ comps base ++ [codes "snapdir_" ++ snap num]) = none)
    (data : D) :
    save d cwd (haloSavesTo d cwd num base none name) data = .error .ioError := by
  have hsd : ¬ Absolute (snapdir base num) := fun h =>
    hb ((absolute_iff _).1 ((head_join (name_relative (snapdir_name num))).1 ((absolute_iff _).2 h)))
  have hl : snapdir base num ≠ [] ∧ (snapdir base num).getLast? ≠ some 47 := join_name_last base (snapdir_name num)
  have hp : haloSavesTo d cwd num base none name = savePath d cwd num base (some (join (snapdir base num) (snapdir base num))) name := by
    have e1 : join (snapdir base num) name = snapdir base num ++ 47 :: name := join_slash hl.1 hl.2 (name_relative hn)
    have hlf : ¬ Absolute (snapdir base num ++ 47 :: name) := by
      rw [← e1]
      exact fun h => hsd ((absolute_iff _).1 ((head_join (name_relative hn)).1 ((absolute_iff _).2 h)))
    have e2 : join (snapdir base num) (snapdir base num) = snapdir base num ++ 47 :: snapdir base num :=
      join_slash hl.1 hl.2 hsd
    unfold haloSavesTo savePath haloLooksFor
    simp only [haloDir]
    rw [e1, join_slash hl.1 hl.2 hlf, e2, join_slash _ _ (name_relative hn)]
    · simp
    · simp
    · rw [List.getLast?_append_of_ne_nil _ (by simp)]
      rw [List.getLast?_cons_of_ne_nil hl.1]
      exact hl.2
  have e2 : join (snapdir base num) (snapdir base num) = snapdir base num ++ 47 :: snapdir base num :=
    join_slash hl.1 hl.2 hsd
  have hr : resolve cwd (join (snapdir base num) (snapdir base num)) =
      resolve cwd base ++ [codes "snapdir_" ++ snap num] ++ (comps base ++ [codes "snapdir_" ++ snap num]) := by
    rw [resolve_join cwd hsd, resolve_snapdir]
    unfold snapdir
    rw [comps_join (name_relative (snapdir_name num)), comps_name (snapdir_name num)]
  rw [hp]
  refine parents_not_made d cwd num base _ hn data ?_ ?_ ?_
  · rw [e2]
    refine ⟨by simp, ?_⟩
    rw [List.getLast?_append_of_ne_nil _ (by simp), List.getLast?_cons_of_ne_nil hl.1]
    exact hl.2
  · rw [hr, ← List.append_assoc]
    exact hno'
  · rw [hr, ← List.append_assoc, List.dropLast_concat]
    exact hno

/-! Worked cases. -/

/-- A disk with some directories and no files. -/
def dirsOnly (dirs : List (List Name)) : Disk ℕ := { isDir := fun q => decide (q ∈ dirs), file := fun _ => none }

/-- The directory `/data` exists: the spectra of snapshot 3 are saved to it, and found again. -/
example (num : ℕ) : ∃ d', save (dirsOnly [[], [codes "data"]]) [] (savePath (dirsOnly [[], [codes "data"]]) [] num (codes "/data") none
    (codes "spectra.hdf5")) 7 = .ok d' ∧ d'.read [] (savePath d' [] num (codes "/data") none (codes "spectra.hdf5")) = .ok 7 := by
  have hb : resolve [] (codes "/data") = [codes "data"] := by decide
  obtain ⟨d', hd'⟩ := default_saves (dirsOnly [[], [codes "data"]]) [] num (codes "/data")
    (default_names.1 (codes "spectra.hdf5") (by simp)) 7 (by rw [hb]; decide) ⟨rfl, rfl⟩ (by
      intro q
      rw [hb]
      simp [dirsOnly])
  exact ⟨d', hd', found_again rfl hd'⟩

/-- With `savedir` given, twice: the first spectra are in the backup. -/
example : ∃ d1 d2 : Disk ℕ, save (dirsOnly [[], [codes "data"]]) [] (codes "/data/new/s.hdf5") 7 = .ok d1 ∧
    save d1 [] (codes "/data/new/s.hdf5") 8 = .ok d2 ∧ d2.read [] (codes "/data/new/s.hdf5") = .ok 8 ∧
    d2.read [] (codes "/data/new/s.hdf5" ++ codes ".backup") = .ok 7 := by
  have hp : ∀ d : Disk ℕ, savePath d [] 1 [] (some (codes "/data/new")) (codes "s.hdf5") = codes "/data/new/s.hdf5" := fun _ => by
    show join (codes "/data/new") (codes "s.hdf5") = codes "/data/new/s.hdf5"
    decide
  have h1 : ∃ d1, save (dirsOnly [[], [codes "data"]]) [] (codes "/data/new/s.hdf5") 7 = .ok d1 := ⟨_, rfl⟩
  obtain ⟨d1, h1⟩ := h1
  have hr := save_read h1
  have hdir : d1.isDir [codes "data", codes "new"] = true := by
    obtain ⟨e, he, hw⟩ := save_steps h1
    rcases he with rfl | he
    · cases hw
    · rw [write_ok hw, mkdir_ok he]
      rfl
  have hnd : d1.isDir [codes "data", codes "new", codes "s.hdf5"] = false := by
    rw [(save_isDir h1 _).2 (by decide)]
    decide
  have h2 : ∃ d2, save d1 [] (codes "/data/new/s.hdf5") 8 = .ok d2 := by
    have hex : d1.exist [] (dirname (codes "/data/new/s.hdf5")) = true := by
      have e1 : dirname (codes "/data/new/s.hdf5") = codes "/data/new" := by decide
      have e2 : resolve [] (codes "/data/new") = [codes "data", codes "new"] := by decide
      unfold Disk.exist
      rw [e1, e2, hdir, Bool.true_or, Bool.and_true]
      decide
    have e3 : resolve [] (codes "/data/new/s.hdf5") = [codes "data", codes "new", codes "s.hdf5"] := by decide
    have e4 : [codes "data", codes "new", codes "s.hdf5"].dropLast = [codes "data", codes "new"] := by decide
    have e5 : codes "/data/new/s.hdf5" ≠ [] := by decide
    unfold save
    simp only [bind, Except.bind, hex]
    unfold Disk.write
    simp only [Bool.not_true, Bool.false_eq_true, if_false]
    rw [if_neg]
    · exact ⟨_, rfl⟩
    · rw [e3, e4]
      by_cases hx : d1.exist [] (codes "/data/new/s.hdf5") = true <;> simp [hx, Disk.move, hdir, hnd, e5]
  obtain ⟨d2, h2⟩ := h2
  refine ⟨d1, d2, h1, h2, save_read h2, ?_⟩
  have hb := backup_kept (num := 1) (base := []) (savedir := some (codes "/data/new")) (name := codes "s.hdf5")
    ⟨by decide, by decide, by decide⟩ (by rw [hp]; exact hr) (by rw [hp]; exact h2)
  rw [hp] at hb
  exact hb

/-- Snapshots 3 and 30 with the default name. -/
example (d : Disk ℕ) : resolve [] (savePath d [] 3 (codes "/data") none (codes "spectra.hdf5")) ≠
    resolve [] (savePath d [] 30 (codes "/data") none (codes "spectra.hdf5")) :=
  snapshots_apart d d [] (by decide) _ (name_relative (default_names.1 _ (by simp))) (name_relative (default_names.1 _ (by simp)))

/-- Two kinds of spectra of one snapshot. -/
example (d : Disk ℕ) : resolve [] (savePath d [] 3 (codes "/data") none (codes "spectra.hdf5")) ≠
    resolve [] (savePath d [] 3 (codes "/data") none (codes "gridded_spectra.hdf5")) :=
  names_apart d d [] 3 _ none (default_names.1 _ (by simp)) (default_names.1 _ (by simp)) (by decide)

/-- `savedir="/data/a/b"` where there is only `/data`. -/
example : save (dirsOnly [[], [codes "data"]]) [] (savePath (dirsOnly [[], [codes "data"]]) [] 3 (codes "/data")
    (some (codes "/data/a/b")) (codes "spectra.hdf5")) 7 = .error .ioError :=
  parents_not_made _ _ 3 _ _ (default_names.1 _ (by simp)) 7 ⟨by decide, by decide⟩ ⟨by decide, rfl⟩ (by decide)

/-- A relative path: after a change of directory the file is not found. -/
example : ∃ d', save (dirsOnly [[], [codes "home"], [codes "tmp"]]) [codes "home"] (codes "out/s.hdf5") 7 = .ok d' ∧
    d'.read [codes "home"] (codes "out/s.hdf5") = .ok 7 ∧ d'.read [codes "tmp"] (codes "out/s.hdf5") = .error .ioError := by
  have h1 : ∃ d', save (dirsOnly [[], [codes "home"], [codes "tmp"]]) [codes "home"] (codes "out/s.hdf5") 7 = .ok d' := ⟨_, rfl⟩
  obtain ⟨d', h⟩ := h1
  refine ⟨d', h, save_read h, ?_⟩
  unfold Disk.read
  rw [save_file_other h (by decide) (by decide)]
  rfl

/-- The spectra of halos with `base="out"`: the file saved to is not the file looked for, and it cannot be made. -/
example (num : ℕ) : resolve [] (haloSavesTo (dirsOnly [[], [codes "out"], [codes "out", codes "snapdir_" ++ snap num]]) [] num
      (codes "out") none (codes "halo_spectra.hdf5")) ≠ resolve [] (haloLooksFor num (codes "out") none (codes "halo_spectra.hdf5")) ∧
    save (dirsOnly [[], [codes "out"], [codes "out", codes "snapdir_" ++ snap num]]) [] (haloSavesTo
      (dirsOnly [[], [codes "out"], [codes "out", codes "snapdir_" ++ snap num]]) [] num (codes "out") none (codes "halo_spectra.hdf5")) 7 =
      .error .ioError := by
  have hn := default_names.1 (codes "halo_spectra.hdf5") (by simp)
  have hb : ¬ Absolute (codes "out") := fun h => absurd ((absolute_iff _).2 h) (by decide)
  have hr : resolve [] (codes "out") = [codes "out"] := by decide
  have hc : comps (codes "out") = [codes "out"] := by decide
  constructor
  · obtain ⟨h1, h2⟩ := halo_relative (dirsOnly [[], [codes "out"], [codes "out", codes "snapdir_" ++ snap num]]) [] num (codes "out") hn hb
    rw [h1, h2, hr, hc]
    intro h
    have := congrArg List.length h
    simp at this
  · refine halo_relative_fails _ _ num _ hn hb ?_ ⟨?_, rfl⟩ 7
    · rw [hr, hc]
      simp [dirsOnly]
    · rw [hr, hc]
      simp [dirsOnly]

/-- With `base="/out"` they are the same. -/
example (d : Disk ℕ) : haloSavesTo d [codes "home"] 3 (codes "/out") none (codes "halo_spectra.hdf5") =
    haloLooksFor 3 (codes "/out") none (codes "halo_spectra.hdf5") :=
  halo_absolute d _ 3 _ none (name_relative (default_names.1 _ (by simp))) ⟨codes "out", by decide⟩

/-- And the working directory does not matter. -/
example (d : Disk ℕ) : d.read [codes "home"] (savePath d [codes "home"] 3 (codes "/out") none (codes "spectra.hdf5")) =
    d.read [codes "tmp"] (savePath d [codes "home"] 3 (codes "/out") none (codes "spectra.hdf5")) :=
  (absolute_base d _ _ 3 ⟨codes "out", by decide⟩ (name_relative (default_names.1 _ (by simp)))).2

/-- Saving to the current directory with `savedir=""`. -/
example : save (dirsOnly [[], [codes "home"]]) [codes "home"] (savePath (dirsOnly [[], [codes "home"]]) [codes "home"] 3 (codes "/data")
    (some []) (codes "spectra.hdf5")) 7 = .error .ioError :=
  (empty_savedir _ _ 3 _ (default_names.1 _ (by simp)) 7).2

end Verif.Props.SavePath
