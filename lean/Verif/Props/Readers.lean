import Verif.Model.Readers
import Verif.Props.Snapshot
import Verif.Props.NearLines
import Verif.Props.Additive

/-!
C74: smoothing lengths and kernels. C75: peculiar velocities of both formats. C76: the particles near sightlines. C77: opening a
snapshot. C78: the baryon density.
-/

namespace Verif.Props.Readers
open Verif Verif.Snapshot Verif.Readers Verif.ComputeSpectra Verif.IndexTable Verif.Spec

/-! ### C74 -/

/-- Reading a block of an open snapshot: the file of the segment is open afterwards. -/
theorem get_data_file {F D : Type} {s : Hdf5 F} (hok : HandleOk s) (hne : s.handle ≠ none) {canOpen : F → Bool} (read : F → Option D)
    {k : ℕ} {f : F} (hf : s.files[k]? = some f) (hc : canOpen f = true) :
    s.get_data canOpen read k = (⟨s.files, some f, k⟩, readHandle read (some f)) := by
  unfold Hdf5.get_data Hdf5.select
  by_cases hk : s.handle_num ≠ k
  · rw [if_pos hk, hf]
    simp only [hc, if_true]
  · rw [if_neg hk]
    push Not at hk
    obtain ⟨g, hg⟩ := Option.ne_none_iff_exists'.1 hne
    have := hok g hg
    rw [hk, hf] at this
    cases this
    obtain ⟨files, handle, num⟩ := s
    simp only at hg hk
    subst hg hk
    rfl

theorem opened_ok {F : Type} {files : List F} {k : ℕ} {f : F} (hf : files[k]? = some f) : HandleOk (⟨files, some f, k⟩ : Hdf5 F) := by
  intro g hg
  cases hg
  exact hf

/-- What `get_smooth_length` does with the blocks of the file. -/
noncomputable def radii (volume smoothing density mass : Option (List ℝ)) : Py (List ℝ) :=
  match volume, smoothing, density, mass with
  | some v, _, _, _ => .ok (v.map cbrt)
  | none, some h, _, _ => .ok (h.map (fun x => x / 2))
  | none, none, some d, some m => .ok ((List.zipWith (fun m d => m / d) m d).map cbrt)
  | none, none, _, _ => .error .keyError

theorem smooth_eq {F : Type} {s : Hdf5 F} (hok : HandleOk s) (hne : s.handle ≠ none) {canOpen : F → Bool} (file : F → HFile)
    {k : ℕ} {f : F} (hf : s.files[k]? = some f) (hc : canOpen f = true) :
    get_smooth_length canOpen file s k = (⟨s.files, some f, k⟩,
      radii (block file "Volume" f) (block file "SmoothingLength" f) (block file "Density" f) (block file "Masses" f)) := by
  have step : ∀ name, (⟨s.files, some f, k⟩ : Hdf5 F).get_data canOpen (block file name) k = (⟨s.files, some f, k⟩,
      readHandle (block file name) (some f)) := by
    intro name
    exact get_data_file (s := ⟨s.files, some f, k⟩) (opened_ok hf) (by simp) (block file name) hf hc
  unfold get_smooth_length
  rw [get_data_file hok hne (block file "Volume") hf hc, readHandle]
  cases hv : block file "Volume" f with
  | some v => rfl
  | none =>
    dsimp only
    rw [step "SmoothingLength", readHandle]
    cases hs : block file "SmoothingLength" f with
    | some h => rfl
    | none =>
      dsimp only
      rw [step "Density", readHandle]
      cases hd : block file "Density" f with
      | none => cases block file "Masses" f <;> rfl
      | some d =>
        dsimp only
        rw [step "Masses", readHandle]
        cases hm : block file "Masses" f <;> rfl

theorem cbrt_cube {x : ℝ} (h : 0 ≤ x) : cbrt x ^ 3 = x := by
  unfold cbrt
  rw [← Real.rpow_natCast, ← Real.rpow_mul h]
  norm_num

theorem cbrt_pos {x : ℝ} (h : 0 < x) : 0 < cbrt x := Real.rpow_pos_of_pos h _

/-- What a segment's file holds about its gas. -/
structure Gas (b : String → Option (List ℝ)) (n : ℕ) : Prop where
  volume : ∀ v, b "Volume" = some v → v.length = n ∧ ∀ x ∈ v, 0 < x
  smoothing : ∀ v, b "SmoothingLength" = some v → v.length = n ∧ ∀ x ∈ v, 0 < x
  density : ∃ d, b "Density" = some d ∧ d.length = n ∧ ∀ x ∈ d, 0 < x
  mass : ∃ m, b "Masses" = some m ∧ m.length = n ∧ ∀ x ∈ m, 0 < x

/-- The radius that suits the kernel: of a mesh cell (kernel 0), the side of the cube of the same volume, so that the density times
the cube of the radius is the mass; of an SPH particle (kernel 1) half the smoothing length of the file. -/
def Suits (b : String → Option (List ℝ)) (kernel : ℤ) (r : List ℝ) : Prop :=
  (kernel = 0 ∧ ((∃ v, b "Volume" = some v ∧ ∀ i (hi : i < r.length), v[i]? = some (r[i] ^ 3)) ∨
    b "Volume" = none ∧ ∃ d m, b "Density" = some d ∧ b "Masses" = some m ∧
      ∀ i (hi : i < r.length), ∃ di mi, d[i]? = some di ∧ m[i]? = some mi ∧ di * r[i] ^ 3 = mi)) ∨
  (kernel = 1 ∧ b "Volume" = none ∧ ∃ h, b "SmoothingLength" = some h ∧ ∀ i (hi : i < r.length), h[i]? = some (2 * r[i]))

theorem radii_suit {b : String → Option (List ℝ)} {n : ℕ} (hg : Gas b n) :
    ∃ r, radii (b "Volume") (b "SmoothingLength") (b "Density") (b "Masses") = .ok r ∧ r.length = n ∧ (∀ x ∈ r, 0 < x) ∧
      Suits b (if (b "Volume").isSome then 0 else if (b "SmoothingLength").isSome then 1 else 0) r := by
  cases hv : b "Volume" with
  | some v =>
    obtain ⟨hl, hp⟩ := hg.volume v hv
    refine ⟨v.map cbrt, rfl, by simpa using hl, ?_, ?_⟩
    · intro x hx
      obtain ⟨y, hy, rfl⟩ := List.mem_map.1 hx
      exact cbrt_pos (hp y hy)
    · rw [Option.isSome_some, if_pos rfl]
      refine Or.inl ⟨rfl, Or.inl ⟨v, hv, ?_⟩⟩
      intro i hi
      rw [List.length_map] at hi
      rw [List.getElem_map, cbrt_cube (le_of_lt (hp _ (List.getElem_mem hi))), List.getElem?_eq_getElem hi]
  | none =>
    cases hs : b "SmoothingLength" with
    | some h =>
      obtain ⟨hl, hp⟩ := hg.smoothing h hs
      refine ⟨h.map (fun x => x / 2), rfl, by simpa using hl, ?_, ?_⟩
      · intro x hx
        obtain ⟨y, hy, rfl⟩ := List.mem_map.1 hx
        have := hp y hy
        linarith
      · rw [Option.isSome_none, if_neg (by simp), Option.isSome_some, if_pos rfl]
        refine Or.inr ⟨rfl, hv, h, hs, ?_⟩
        intro i hi
        rw [List.length_map] at hi
        rw [List.getElem_map, List.getElem?_eq_getElem hi]
        congr 1
        ring
    | none =>
      obtain ⟨d, hd, dl, dp⟩ := hg.density
      obtain ⟨m, hm, ml, mp⟩ := hg.mass
      rw [hd, hm]
      refine ⟨_, rfl, by simp [ml, dl], ?_, ?_⟩
      · intro x hx
        obtain ⟨y, hy, rfl⟩ := List.mem_map.1 hx
        obtain ⟨i, hi, rfl⟩ := List.getElem_of_mem hy
        rw [List.length_zipWith] at hi
        rw [List.getElem_zipWith]
        exact cbrt_pos (div_pos (mp _ (List.getElem_mem _)) (dp _ (List.getElem_mem _)))
      · rw [Option.isSome_none, if_neg (by simp), if_neg (by simp)]
        refine Or.inl ⟨rfl, Or.inr ⟨hv, d, m, hd, hm, ?_⟩⟩
        intro i hi
        rw [List.length_map, List.length_zipWith] at hi
        have hid : i < d.length := by omega
        have him : i < m.length := by omega
        refine ⟨d[i], m[i], List.getElem?_eq_getElem hid, List.getElem?_eq_getElem him, ?_⟩
        have h1 := dp _ (List.getElem_mem hid)
        have h2 := mp _ (List.getElem_mem him)
        rw [List.getElem_map, List.getElem_zipWith, cbrt_cube (le_of_lt (div_pos h2 h1))]
        field_simp

/-- Which of the two deciding blocks there are. -/
def SameKind (b b' : String → Option (List ℝ)) : Prop :=
  (b "Volume").isSome = (b' "Volume").isSome ∧ (b "SmoothingLength").isSome = (b' "SmoothingLength").isSome

/-- C74, when all files hold gas of one kind: after any history of reads without failures, every segment's radii are positive and suit
the kernel that the reader reports. Missing: snapshots with a file without gas. -/
theorem radii_suit_kernel_partial {F : Type} [LinearOrder F] {d : Disk F} {canOpen : F → Bool} {comm : Option Comm} {s : Hdf5 F}
    (hs : Hdf5.init d canOpen comm = .ok s) (history : List (Call F)) (hh : NoFailure s history) (file : F → HFile)
    (hgas : ∀ f ∈ s.files, ∃ b n, (file f).gas = some b ∧ Gas b n)
    (hsame : ∀ f ∈ s.files, ∀ g ∈ s.files, ∀ b b', (file f).gas = some b → (file g).gas = some b' → SameKind b b')
    (k : ℕ) (f : F) (hf : s.files[k]? = some f) (canOpen' : F → Bool) (hc : canOpen' f = true) :
    ∃ kernel r b, hdf5_get_kernel file s = .ok kernel ∧ hdf5_get_kernel file (after s history) = .ok kernel ∧
      (get_smooth_length canOpen' file (after s history) k).2 = .ok r ∧
      (file f).gas = some b ∧ Suits b kernel r ∧ (∀ x ∈ r, 0 < x) ∧ (kernel = 0 ∨ kernel = 1) := by
  obtain ⟨hok, _, hhead, hopen⟩ := init_ok hs
  have hok' := after_ok hok history
  have hfl := after_files s history
  have hop' := after_open hopen hh
  obtain ⟨b, n, hb, hg⟩ := hgas f (List.mem_of_getElem? hf)
  obtain ⟨r, h1, _, h3, h4⟩ := radii_suit hg
  have hker : ∀ t : Hdf5 F, HandleOk t → t.handle ≠ none → t.files = s.files → hdf5_get_kernel file t =
      .ok (if (b "Volume").isSome then 0 else if (b "SmoothingLength").isSome then 1 else 0) := by
    intro t ht hn hfs
    obtain ⟨g, hg⟩ := Option.ne_none_iff_exists'.1 hn
    have hmem : g ∈ s.files := by
      have := ht g hg
      rw [hfs] at this
      exact List.mem_of_getElem? this
    obtain ⟨b', _, hb', _⟩ := hgas g hmem
    have hsk := hsame f (List.mem_of_getElem? hf) g hmem b b' hb hb'
    unfold hdf5_get_kernel
    rw [hg]
    dsimp only
    rw [hb']
    dsimp only
    rw [hsk.1, hsk.2]
  refine ⟨_, r, b, hker s hok hopen rfl, hker _ hok' hop' hfl, ?_, hb, h4, h3, ?_⟩
  · rw [smooth_eq hok' hop' file (by rw [hfl]; exact hf) hc]
    dsimp only
    unfold block
    rw [hb]
    exact h1
  · split
    · exact Or.inl rfl
    · split
      · exact Or.inr rfl
      · exact Or.inl rfl

/-- Two files, of which the last holds no gas. -/
noncomputable def exFile (f : ℕ) : HFile :=
  if f = 0 then ⟨some (fun b => if b = "SmoothingLength" then some [2] else if b = "Masses" ∨ b = "Density" then some [1] else none), 1, 3, 0.3⟩
  else ⟨none, 1, 3, 0.3⟩

/-- Where they are found. -/
def exDisk (names : List ℕ) : Disk ℕ := ⟨false, fun _ => names, fun _ => [], fun _ => true⟩

theorem exInit : Hdf5.init (exDisk [0, 1]) (fun _ => true) none = .ok ⟨[1, 0], some 1, 0⟩ := by
  have h : pySort [0, 1] = [0, 1] := List.mergeSort_of_pairwise (by simp)
  unfold Hdf5.init get_all_files findFiles exDisk
  simp [h, Bind.bind, Except.bind]

theorem exInit_one : Hdf5.init (exDisk [0]) (fun _ => true) none = .ok ⟨[0], some 0, 0⟩ := by
  have h : pySort [0] = [0] := List.mergeSort_of_pairwise (by simp)
  unfold Hdf5.init get_all_files findFiles exDisk
  simp [h, Bind.bind, Except.bind]

/-- C74 is false when the file that is opened first holds no gas: no kernel is found, although the gas can be read. -/
theorem kernel_no_gas : ∃ s : Hdf5 ℕ, Hdf5.init (exDisk [0, 1]) (fun _ => true) none = .ok s ∧
    hdf5_get_kernel exFile s = .error .keyError ∧ hdf5_get_omega_baryon exFile s = .error .keyError ∧
    (get_smooth_length (fun _ => true) exFile s 1).2 = .ok [1] := by
  refine ⟨_, exInit, rfl, ?_, ?_⟩
  · unfold hdf5_get_omega_baryon readHandle block exFile
    rfl
  · rw [smooth_eq (opened_ok rfl) (by simp) exFile (f := 0) rfl rfl]
    simp [block, exFile, radii]

example : ∃ s : Hdf5 ℕ, Hdf5.init (exDisk [0]) (fun _ => true) none = .ok s ∧
    (∀ f ∈ s.files, ∃ b n, (exFile f).gas = some b ∧ Gas b n) ∧
    (∀ f ∈ s.files, ∀ g ∈ s.files, ∀ b b', (exFile f).gas = some b → (exFile g).gas = some b' → SameKind b b') := by
  refine ⟨_, exInit_one, ?_, ?_⟩
  · intro f hf
    simp only [List.mem_singleton] at hf
    subst hf
    refine ⟨_, 1, rfl, ⟨?_, ?_, ⟨[1], by simp, rfl, by simp⟩, ⟨[1], by simp, rfl, by simp⟩⟩⟩
    · intro v hv
      simp at hv
    · intro v hv
      simp at hv
      subst hv
      exact ⟨rfl, by simp⟩
  · intro f hf g hg b b' hb hb'
    simp only [List.mem_singleton] at hf hg
    subst hf hg
    rw [hb] at hb'
    cases hb'
    exact ⟨rfl, rfl⟩

/-- BigFile: the kernels of MP-Gadget's numbering that have a counterpart are translated (cubic 1 to 1, quintic 2 to 3), a missing
attribute is cubic, others are an `AssertionError`; the number 3, which MP-Gadget does not use, is passed on. Radii are half the
smoothing lengths. -/
theorem big_kernel (attr : Option ℤ) :
    (attr = none → big_get_kernel attr = .ok 1) ∧ (attr = some 1 → big_get_kernel attr = .ok 1) ∧
    (attr = some 2 → big_get_kernel attr = .ok 3) ∧ (attr = some 3 → big_get_kernel attr = .ok 3) ∧
    (∀ k, attr = some k → k ≠ 1 → k ≠ 2 → k ≠ 3 → big_get_kernel attr = .error .assertionError) ∧
    (∀ k, big_get_kernel attr = .ok k → k = 1 ∨ k = 3) := by
  unfold big_get_kernel
  refine ⟨?_, ?_, ?_, ?_, ?_, ?_⟩
  · rintro rfl; rfl
  · rintro rfl; rfl
  · rintro rfl; rfl
  · rintro rfl; rfl
  · rintro k rfl h1 h2 h3
    simp [h1, h2, h3]
  · intro k h
    cases attr with
    | none => cases h; exact Or.inl rfl
    | some j =>
      dsimp only at h
      split_ifs at h with h1 h2
      · cases h; exact Or.inr rfl
      · cases h; exact h2

theorem big_smooth (h : List ℝ) : ∃ r, big_get_smooth_length (.ok h) = .ok r ∧ r.length = h.length ∧
    (∀ i (hi : i < r.length), h[i]? = some (2 * r[i])) ∧ ∀ e, big_get_smooth_length (.error e) = .error e := by
  refine ⟨h.map (fun x => x / 2), rfl, by simp, ?_, fun _ => rfl⟩
  intro i hi
  rw [List.length_map] at hi
  rw [List.getElem_map, List.getElem?_eq_getElem hi]
  congr 1
  ring

example := big_smooth [2, 3, 0.5]

/-! ### C75 -/

/-- What Gadget writes to HDF5 for a peculiar velocity `v`, `v / sqrt(a)`, and MP-Gadget to a BigFile: `v * a`, or `v` itself if the
header says so. All three are read back as `v`. -/
theorem velocities (v : List Vec3) (a : ℝ) (ha : 0 < a) :
    hdf5_get_velocity (.ok (v.map (fun x => fun k => x k / √a))) a = .ok v ∧
    big_get_velocity (.ok (v.map (fun x => fun k => x k * a))) (some false) a = .ok v ∧
    big_get_velocity (.ok v) (some true) a = .ok v := by
  have hs := Real.sqrt_pos.2 ha
  refine ⟨?_, ?_, rfl⟩
  · unfold hdf5_get_velocity
    rw [show (Except.ok (v.map (fun (x : Vec3) => fun k => x k / √a)) >>= fun vel => (Except.ok (vel.map (fun v => fun k => v k * √a)) : Py (List Vec3))) =
      .ok ((v.map (fun (x : Vec3) => fun k => x k / √a)).map (fun v => fun k => v k * √a)) from rfl, List.map_map]
    congr 1
    conv_rhs => rw [← List.map_id v]
    apply List.map_congr_left
    intro x _
    funext k
    simp [div_mul_cancel₀ _ hs.ne']
  · unfold big_get_velocity
    rw [show (Except.ok (v.map (fun (x : Vec3) => fun k => x k * a)) >>= fun vel => (match some false with
        | none => (Except.error PyErr.keyError : Py (List Vec3))
        | some pecvel => .ok (if (!pecvel) = true then vel.map (fun v => fun k => v k / a) else vel))) =
      .ok ((v.map (fun (x : Vec3) => fun k => x k * a)).map (fun v => fun k => v k / a)) from rfl, List.map_map]
    congr 1
    conv_rhs => rw [← List.map_id v]
    apply List.map_congr_left
    intro x _
    funext k
    simp [mul_div_cancel_right₀ _ ha.ne']

example := velocities [![1, 2, 3], ![-1, 0, 0]] 0.25 (by norm_num)

/-- A BigFile header that does not say is a `KeyError`, so the velocities of such a snapshot cannot be read. -/
theorem velocities_unknown (v : List Vec3) (a : ℝ) : big_get_velocity (.ok v) none a = .error .keyError := rfl

/-! ### C76 -/

/-- The gas near a sightline, from the geometry alone. -/
def NearSome (c : Config) (r : Raw) : Prop := ∃ l ∈ c.lines, transDist2 c.box l.axis r.pos l.cofm < r.h ^ 2

theorem findLoop_eq {c : Config} (hc : GoodAxes c) (hsp : c.sp = .all) (segs : List (List Raw)) (acc : List Vec3 × List ℝ) :
    findLoop c segs acc = .ok (acc.1 ++ (by classical exact (segs.flatten.filter (fun r => decide (Near c r))).map (fun r => r.pos)),
      acc.2 ++ (by classical exact (segs.flatten.filter (fun r => decide (Near c r))).map (fun r => r.h))) := by
  classical
  induction segs generalizing acc with
  | nil => simp [findLoop]
  | cons seg segs ih =>
    have hprep : ∀ (rs : List Raw), (rs.filterMap (prep c false)).map (fun (p : PartInt.Part) => p.pos) = rs.map (fun r => r.pos) ∧
        (rs.filterMap (prep c false)).map (fun (p : PartInt.Part) => p.h) = rs.map (fun r => r.h) := by
      intro rs
      induction rs with
      | nil => exact ⟨rfl, rfl⟩
      | cons r rs ih =>
        obtain ⟨p, hp⟩ : ∃ p, prep c false r = some p := by
          unfold prep
          rw [hsp]
          exact ⟨_, rfl⟩
        rw [List.filterMap_cons, hp]
        obtain ⟨e1, e2⟩ := prep_pos hp
        simp only [List.map_cons, ih.1, ih.2, e1, e2]
        exact ⟨trivial, trivial⟩
    obtain ⟨o, ho, hcase⟩ := read_particle_data_eq hc false (by rw [hsp]; trivial) seg
    rw [findLoop, ho]
    change (match o with
      | none => findLoop c segs acc
      | some parts => findLoop c segs (acc.1 ++ parts.map (fun (p : PartInt.Part) => p.pos), acc.2 ++ parts.map (fun (p : PartInt.Part) => p.h))) = _
    obtain ⟨p1, p2⟩ := hprep (seg.filter (fun r => decide (Near c r)))
    rcases hcase with ⟨rfl, he⟩ | ⟨rfl, he⟩
    · dsimp only
      rw [ih, List.flatten_cons, List.filter_append, List.map_append, List.map_append, ← p1, ← p2]
      rw [he]
      rfl
    · dsimp only
      rw [ih, List.flatten_cons, List.filter_append, List.map_append, List.map_append, p1, p2, List.append_assoc, List.append_assoc]

/-- C76: positions and lengths of the gas near sightlines, once each, in the order of the segments. Everything within its length of
a line is among them, and all of them are. Missing: BigFile snapshots. -/
theorem find_all_partial (c : Config) (hbox : 0 < c.box) (hl : ∀ l ∈ c.lines, GoodLine c.box l) (segs : List (List Raw))
    (hr : ∀ r ∈ segs.flatten, GoodPart c.box (r.pos, r.h)) :
    ∃ near : Raw → Bool, find_all_particles c (.ok segs.length) segs =
        .ok ((segs.flatten.filter near).map (fun r => r.pos), (segs.flatten.filter near).map (fun r => r.h)) ∧
      (∀ r ∈ segs.flatten, NearSome c r → near r = true) ∧
      (∀ r ∈ segs.flatten, near r = true → ∃ l ∈ c.lines, transDist2 c.box l.axis r.pos l.cofm ≤ r.h ^ 2) := by
  classical
  have hax : GoodAxes { c with sp := .all } := fun l h => (hl l h).1
  refine ⟨fun r => decide (Near { c with sp := .all } r), ?_, ?_, ?_⟩
  · unfold find_all_particles
    change findLoop { c with sp := .all } (segs.take segs.length) ([], []) = _
    rw [List.take_of_length_le (le_refl _), findLoop_eq hax rfl]
    simp only [List.nil_append]
  · intro r hm hn
    rw [decide_eq_true_eq]
    obtain ⟨l, hmem, hd⟩ := hn
    obtain ⟨k, hk⟩ := List.mem_iff_getElem?.1 hmem
    have := near_line_found hbox hl (hr r hm) hk hd
    unfold Near
    intro he
    dsimp only at he this
    rw [he] at this
    simp [StdMap.find?] at this
  · intro r hm hn
    rw [decide_eq_true_eq] at hn
    unfold Near at hn
    dsimp only at hn
    obtain ⟨e, es, he⟩ := List.exists_cons_of_ne_nil hn
    have hf : StdMap.find? (get_near_lines (build c.lines c.box) r.pos r.h) e.1 = some e.2 := by
      rw [he]
      simp [StdMap.find?]
    obtain ⟨l, h1, h2, h3⟩ := pair_distance hbox hl (hr r hm).1 r.h e.1 e.2 hf
    exact ⟨l, List.mem_of_getElem? h1, by rw [← h2]; exact h3⟩

/-- Of a BigFile snapshot no particles are found: the number of segments is asked for without a particle type. -/
theorem find_all_bigfile_fails (c : Config) (npart : ℕ → ℕ) (size rank chunk : ℕ) (segs : List (List Raw)) :
    find_all_particles c (big_n_segments npart size rank chunk none) segs = .error .typeError := rfl

/-! ### C77 -/

/-- What opening an HDF5 snapshot can raise. -/
theorem init_errors {F : Type} [LinearOrder F] (d : Disk F) (canOpen : F → Bool) (comm : Option Comm) (hcomm : ∀ m, comm = some m → 0 < m.size) (e : PyErr)
    (h : Hdf5.init d canOpen comm = .error e) : e = .ioError ∨ e = .indexError := by
  unfold Hdf5.init at h
  cases hg : get_all_files d comm with
  | error e' =>
    rw [hg] at h
    cases h
    unfold get_all_files at hg
    cases hf : findFiles d comm with
    | error e'' =>
      rw [hf] at hg
      cases hg
      unfold findFiles at hf
      dsimp only at hf
      split_ifs at hf
      all_goals first | (cases hf; exact Or.inl rfl) | cases hf
    | ok fs =>
      rw [hf] at hg
      cases comm with
      | none => cases hg
      | some m =>
        change (rankFiles fs m.rank m.size >>= _) = _ at hg
        rw [rankFiles_eq fs (hcomm m rfl)] at hg
        cases hg
  | ok files =>
    rw [hg] at h
    change (match (pySort files).reverse[0]? with
      | none => (Except.error PyErr.indexError : Py (Hdf5 F))
      | some f => if canOpen f then .ok ⟨(pySort files).reverse, some f, 0⟩ else .error .ioError) = .error e at h
    split at h
    · cases h; exact Or.inr rfl
    · split at h
      · cases h
      · cases h; exact Or.inl rfl

/-- C77: HDF5 is preferred; BigFile is tried when opening HDF5 was an `IOError`; then both failing is an `IOError`, unless BigFile
raised something else. Missing: the other exception of the HDF5 reader, `IndexError`. -/
theorem factory_partial {F B : Type} [LinearOrder F] (d : Disk F) (canOpen : F → Bool) (comm : Option Comm) (big : Option (Except BigErr B)) :
    (∀ s, Hdf5.init d canOpen comm = .ok s → factory (Hdf5.init d canOpen comm) big = .ok (.inl s)) ∧
    (Hdf5.init d canOpen comm = .error .ioError →
      (∀ b, big = some (.ok b) → factory (Hdf5.init d canOpen comm) big = .ok (.inr b)) ∧
      ((big = none ∨ big = some (.error .bigFileError) ∨ big = some (.error (.py .ioError))) →
        factory (Hdf5.init d canOpen comm) big = .error .ioError)) := by
  refine ⟨?_, ?_⟩
  · intro s h
    rw [h]
    rfl
  · intro h
    rw [h]
    refine ⟨?_, ?_⟩
    · rintro b rfl
      rfl
    · rintro (rfl | rfl | rfl) <;> rfl

/-- C77 is false when names like those of a snapshot exist but none is an HDF5 file: `IndexError`, and BigFile is not tried. -/
theorem factory_index_error {F B : Type} [LinearOrder F] {d : Disk F} (names : List F) (hne : names ≠ [])
    (hn : d.snap d.snapdirExists = names) (hbad : ∀ f, d.isHdf5 f = false) (canOpen : F → Bool) (big : Option (Except BigErr B)) :
    factory (Hdf5.init d canOpen none) big = .error .indexError := by
  have : Hdf5.init d canOpen none = .error .indexError := by
    unfold Hdf5.init get_all_files findFiles
    simp only [Option.isNone_none, Bool.true_and]
    have hlen : ¬ names.length = 0 := by simpa using hne
    rw [hn, if_neg hlen, if_neg hlen]
    change (match (pySort ((pySort names).filter d.isHdf5)).reverse[0]? with
      | none => (Except.error PyErr.indexError : Py (Hdf5 F))
      | some f => if canOpen f then .ok ⟨(pySort ((pySort names).filter d.isHdf5)).reverse, some f, 0⟩ else .error .ioError) = _
    have : (pySort names).filter d.isHdf5 = [] := by
      rw [List.filter_eq_nil_iff]
      intro a _
      rw [hbad a]
      simp
    rw [this]
    simp [pySort]
  rw [this]
  rfl

/-- Two names, a module that can open a BigFile. -/
example : factory (S := Hdf5 ℕ) (B := Unit) (Hdf5.init ⟨true, fun _ => [1, 0], fun _ => [], fun _ => false⟩ (fun _ => true) none)
    (some (.ok ())) = .error .indexError :=
  factory_index_error (d := ⟨true, fun _ => [1, 0], fun _ => [], fun _ => false⟩) [1, 0] (by simp) rfl (fun _ => rfl) _ _

/-! ### C78 -/

/-- The gas mass in a file, its dark matter mass. -/
noncomputable def gasMass {F : Type} (file : F → HFile) (f : F) : ℝ := ((block file "Masses" f).getD []).sum
noncomputable def dmMass {F : Type} (file : F → HFile) (f : F) : ℝ := (file f).dmMass * (file f).dmNum

/-- C78 when every file has the baryon fraction of the simulation: the baryon density is the baryon fraction times Omega0, whatever
was read before; it lies between 0 and Omega0. Missing: files of different composition. -/
theorem omega_baryon_partial {F : Type} [LinearOrder F] {d : Disk F} {canOpen : F → Bool} {comm : Option Comm} {s : Hdf5 F}
    (hs : Hdf5.init d canOpen comm = .ok s) (history : List (Call F)) (hh : NoFailure s history) (file : F → HFile) (Om : ℝ) (hOm : 0 ≤ Om)
    (hm : ∀ f ∈ s.files, (file f).Omega0 = Om ∧ (∃ m, block file "Masses" f = some m) ∧ 0 < gasMass file f ∧ 0 ≤ dmMass file f)
    (hfrac : ∀ f ∈ s.files, gasMass file f * ((s.files.map (gasMass file)).sum + (s.files.map (dmMass file)).sum) =
      (s.files.map (gasMass file)).sum * (gasMass file f + dmMass file f)) :
    ∃ o, hdf5_get_omega_baryon file (after s history) = .ok o ∧
      o = (s.files.map (gasMass file)).sum / ((s.files.map (gasMass file)).sum + (s.files.map (dmMass file)).sum) * Om ∧ 0 ≤ o ∧ o ≤ Om := by
  obtain ⟨hok, _, _, hopen⟩ := init_ok hs
  have hok' := after_ok hok history
  have hfl := after_files s history
  have hop' := after_open hopen hh
  obtain ⟨f, hf⟩ := Option.ne_none_iff_exists'.1 hop'
  have hmem : f ∈ s.files := by
    have := hok' f hf
    rw [hfl] at this
    exact List.mem_of_getElem? this
  obtain ⟨h0, ⟨m, h1⟩, h2, h3⟩ := hm f hmem
  have hgm : gasMass file f = m.sum := by
    unfold gasMass
    rw [h1]
    rfl
  have hval : hdf5_get_omega_baryon file (after s history) = .ok (gasMass file f / (gasMass file f + dmMass file f) * Om) := by
    unfold hdf5_get_omega_baryon readHandle
    rw [hf]
    dsimp only
    rw [h1, hgm, ← h0]
    rfl
  have hsum : 0 < (s.files.map (gasMass file)).sum := by
    have hall : ∀ x ∈ s.files.map (gasMass file), 0 ≤ x := by
      intro x hx
      obtain ⟨g, hg, rfl⟩ := List.mem_map.1 hx
      exact le_of_lt (hm g hg).2.2.1
    exact lt_of_lt_of_le h2 (List.single_le_sum hall _ (List.mem_map_of_mem hmem))
  have hsumd : 0 ≤ (s.files.map (dmMass file)).sum := by
    apply List.sum_nonneg
    intro x hx
    obtain ⟨g, hg, rfl⟩ := List.mem_map.1 hx
    exact (hm g hg).2.2.2
  have hfr : gasMass file f / (gasMass file f + dmMass file f) =
      (s.files.map (gasMass file)).sum / ((s.files.map (gasMass file)).sum + (s.files.map (dmMass file)).sum) := by
    rw [div_eq_div_iff (by positivity) (by positivity)]
    exact hfrac f hmem
  refine ⟨_, hval, by rw [hfr], by positivity, ?_⟩
  have : gasMass file f / (gasMass file f + dmMass file f) ≤ 1 := by
    rw [div_le_one (by positivity)]
    linarith
  nlinarith

/-- Two files of different composition. -/
noncomputable def exMixed (f : ℕ) : HFile := ⟨some (fun b => if b = "Masses" then some [1] else none), 1, f, 1⟩

/-- C78 is false in general: of a simulation with two parts gas and one part dark matter the reader says that half, or all, the
matter is baryons, and which depends on what was read before. -/
theorem omega_baryon_history : ∃ s : Hdf5 ℕ, Hdf5.init (exDisk [0, 1]) (fun _ => true) none = .ok s ∧
    hdf5_get_omega_baryon exMixed s = .ok (1 / 2) ∧
    hdf5_get_omega_baryon exMixed (after s [⟨fun _ => true, 1⟩]) = .ok 1 := by
  refine ⟨_, exInit, ?_, ?_⟩
  · unfold hdf5_get_omega_baryon readHandle block exMixed
    simp [Bind.bind, Except.bind]
    norm_num
  · simp [after, Hdf5.select, hdf5_get_omega_baryon, readHandle, block, exMixed, Bind.bind, Except.bind]

example : ∃ s : Hdf5 ℕ, Hdf5.init (exDisk [0]) (fun _ => true) none = .ok s ∧
    (∀ f ∈ s.files, (exMixed f).Omega0 = 1 ∧ (∃ m, block exMixed "Masses" f = some m) ∧ 0 < gasMass exMixed f ∧ 0 ≤ dmMass exMixed f) ∧
    (∀ f ∈ s.files, gasMass exMixed f * ((s.files.map (gasMass exMixed)).sum + (s.files.map (dmMass exMixed)).sum) =
      (s.files.map (gasMass exMixed)).sum * (gasMass exMixed f + dmMass exMixed f)) := by
  refine ⟨_, exInit_one, ?_, ?_⟩
  · intro f hf
    simp only [List.mem_singleton] at hf
    subst hf
    simp [exMixed, block, gasMass, dmMass]
  · intro f hf
    simp only [List.mem_singleton] at hf
    subst hf
    simp

end Verif.Props.Readers
