import Verif.Model.HaloSpectra
import Verif.Props.Catalogue
import Verif.Props.Construct

/-!
C71: sightlines around halos. C72: the halos of a savefile.
-/

namespace Verif.Props.HaloSpectra
open Verif Verif.HaloSpectra Verif.Catalogue Verif.SpecTools

/-- C71. Which halos get sightlines: those with a mass in solar masses over h between the two limits, and with no more massive
halo above the lower limit within their own radius in every coordinate. -/
theorem wanted_halos_spec (cat : List Grp) (min_mass max_mass : ℝ) (g : Grp) :
    g ∈ wanted cat min_mass max_mass ↔
      ∃ h ∈ cat, g = ⟨h.mass * 1e10, h.pos, h.radius⟩ ∧ min_mass < g.mass ∧ g.mass < max_mass ∧
        ∀ h' ∈ cat, min_mass < h'.mass * 1e10 → h.mass < h'.mass → ¬ Props.Near h.radius h h' := by
  unfold wanted
  rw [List.mem_filter, List.mem_map, decide_eq_true_eq]
  have hdiv : ∀ m : ℝ, min_mass / 1e10 < m ↔ min_mass < m * 1e10 := fun m => div_lt_iff₀ (by norm_num)
  constructor
  · rintro ⟨⟨⟨i, g'⟩, h1, rfl⟩, h2⟩
    obtain ⟨h, h3, h4, h5, h6⟩ := (Props.wanted_spec cat _ _ i g').1 h1
    rw [mul_one] at h5 h6
    refine ⟨h, List.mem_of_getElem? h3, h5, ?_, h2, ?_⟩
    · have := (hdiv _).1 h4
      dsimp only
      rw [h5]
      exact this
    · intro h' hm' hlt hlt2
      obtain ⟨j, hj⟩ := List.getElem?_of_mem hm'
      exact h6 j h' hj ((hdiv _).2 hlt) hlt2
  · rintro ⟨h, hm, hg, h1, h2, h3⟩
    obtain ⟨i, hi⟩ := List.getElem?_of_mem hm
    refine ⟨⟨(i, g), (Props.wanted_spec cat _ _ i g).2 ⟨h, hi, ?_, ?_, ?_⟩, rfl⟩, h2⟩
    · rw [hdiv]
      rw [hg] at h1
      exact h1
    · rw [mul_one]; exact hg
    · intro j h' hj hlt hlt2
      rw [mul_one]
      exact h3 h' (List.mem_of_getElem? hj) ((hdiv _).1 hlt) hlt2

/-- A catalogue (in units of `10^10` solar masses) with one halo in the range, one above and one below. -/
example : ∃ g, g ∈ wanted [⟨100, ⟨1, 1, 1⟩, 2⟩, ⟨1, ⟨20, 20, 20⟩, 1⟩, ⟨0.01, ⟨5, 5, 5⟩, 1⟩] 1e9 1e11 := by
  refine ⟨⟨1 * 1e10, ⟨20, 20, 20⟩, 1⟩, (wanted_halos_spec _ _ _ _).2 ⟨⟨1, ⟨20, 20, 20⟩, 1⟩, by simp, rfl, by norm_num,
    by norm_num, ?_⟩⟩
  intro h' hm _ hlt
  simp only [List.mem_cons, List.not_mem_nil, or_false] at hm
  rcases hm with rfl | rfl | rfl
  · unfold Props.Near; norm_num [abs_of_neg]
  · exact absurd hlt (lt_irrefl _)
  · norm_num at hlt

theorem npRepeat_spec {α : Type} (n : ℕ) : ∀ a : List α, (npRepeat a n).length = a.length * n ∧
    ∀ i, i < a.length * n → (npRepeat a n)[i]? = a[i / n]? := by
  intro a
  induction a with
  | nil => simp [npRepeat]
  | cons x a ih =>
    obtain ⟨h1, h2⟩ := ih
    have hc : npRepeat (x :: a) n = List.replicate n x ++ npRepeat a n := rfl
    constructor
    · rw [hc, List.length_append, List.length_replicate, h1, List.length_cons]
      ring
    · intro i hi
      rw [hc]
      by_cases h : i < n
      · rw [List.getElem?_append_left (by simpa using h), Nat.div_eq_of_lt h, List.getElem?_replicate, if_pos h]
        rfl
      · have hn : 0 < n := by
          rcases Nat.eq_zero_or_pos n with rfl | h'
          · simp at hi
          · exact h'
        rw [List.getElem?_append_right (by simpa using h), List.length_replicate]
        have hi' : i - n < a.length * n := by
          rw [List.length_cons, Nat.succ_mul] at hi
          omega
        rw [h2 _ hi']
        have hd : i / n = (i - n) / n + 1 := by
          rw [← Nat.add_div_right _ hn]
          congr 1
          omega
        rw [hd, List.getElem?_cons_succ]

/-- The square of the distance of two points. -/
def dist2 (p q : Pos3) : ℝ := (p.x - q.x) ^ 2 + (p.y - q.y) ^ 2 + (p.z - q.z) ^ 2

theorem perturb_dist (h : Grp) (offset u1 u2 u3 : ℝ) :
    dist2 (perturb h offset u1 u2 u3) h.pos = (h.radius * offset * u3) ^ 2 := by
  unfold dist2 perturb
  dsimp only
  set t := 2 * Real.pi * u1 - Real.pi
  set f := 2 * Real.pi * u2
  have h1 := Real.sin_sq_add_cos_sq t
  have h2 := Real.sin_sq_add_cos_sq f
  have e : (h.pos.x + h.radius * offset * u3 * Real.sin t * Real.cos f - h.pos.x) ^ 2 +
      (h.pos.y + h.radius * offset * u3 * Real.sin t * Real.sin f - h.pos.y) ^ 2 +
      (h.pos.z + h.radius * offset * u3 * Real.cos t - h.pos.z) ^ 2 =
      (h.radius * offset * u3) ^ 2 * (Real.sin t ^ 2 * (Real.sin f ^ 2 + Real.cos f ^ 2) + Real.cos t ^ 2) := by ring
  rw [e, h2, mul_one, h1, mul_one]

/-- Random numbers, as `random_sample` returns them. -/
def Unit01 (u : List ℝ) : Prop := ∀ x ∈ u, 0 ≤ x ∧ x < 1

/-- C71. There are `repeat` sightlines per halo, in the order of the halos, and each starts within `offset` radii of the
centre of its own halo (strictly, unless that distance is 0), whatever the random numbers. -/
theorem cofm_near_halo (halos : List Grp) (rep : ℕ) (offset : ℝ) (hoff : 0 ≤ offset) (hr : ∀ h ∈ halos, 0 ≤ h.radius)
    (u1 u2 u3 : List ℝ) (h1 : u1.length = halos.length * rep) (h2 : u2.length = halos.length * rep)
    (h3 : u3.length = halos.length * rep) (hu : Unit01 u3) :
    ∃ c, get_cofm halos rep offset u1 u2 u3 = .ok c ∧ c.length = halos.length * rep ∧
      ∀ (k j : ℕ) h, halos[k]? = some h → j < rep → ∃ p, c[k * rep + j]? = some p ∧
        dist2 p h.pos ≤ (offset * h.radius) ^ 2 ∧ (0 < offset → 0 < h.radius → dist2 p h.pos < (offset * h.radius) ^ 2) := by
  obtain ⟨r1, r2⟩ := npRepeat_spec rep halos
  refine ⟨((npRepeat halos rep).zip (u1.zip (u2.zip u3))).map (fun p => perturb p.1 offset p.2.1 p.2.2.1 p.2.2.2), ?_, ?_, ?_⟩
  · unfold get_cofm
    dsimp only
    rw [if_pos ⟨by rw [h1, r1], by rw [h2, r1], by rw [h3, r1]⟩]
  · simp [r1, h1, h2, h3]
  · intro k j h hk hj
    have hkl : k < halos.length := (List.getElem?_eq_some_iff.mp hk).1
    have hlt : k * rep + j < halos.length * rep := by
      calc k * rep + j < k * rep + rep := by omega
        _ = (k + 1) * rep := by ring
        _ ≤ _ := Nat.mul_le_mul_right _ hkl
    have hdiv : (k * rep + j) / rep = k := by
      rw [Nat.add_comm, Nat.add_mul_div_right _ _ (by omega : 0 < rep), Nat.div_eq_of_lt hj, Nat.zero_add]
    have hget := r2 _ hlt
    rw [hdiv, hk] at hget
    refine ⟨perturb h offset (u1[k * rep + j]'(by omega)) (u2[k * rep + j]'(by omega)) (u3[k * rep + j]'(by omega)), ?_, ?_, ?_⟩
    · rw [List.getElem?_map]
      have : ((npRepeat halos rep).zip (u1.zip (u2.zip u3)))[k * rep + j]? = some (h, u1[k * rep + j]'(by omega),
          u2[k * rep + j]'(by omega), u3[k * rep + j]'(by omega)) := by
        rw [List.getElem?_zip_eq_some]
        refine ⟨hget, ?_⟩
        rw [List.getElem?_zip_eq_some]
        refine ⟨List.getElem?_eq_getElem _, ?_⟩
        rw [List.getElem?_zip_eq_some]
        exact ⟨List.getElem?_eq_getElem _, List.getElem?_eq_getElem _⟩
      rw [this]
      rfl
    · rw [perturb_dist]
      obtain ⟨a, b⟩ := hu _ (List.getElem_mem (l := u3) (n := k * rep + j) (by omega))
      have hrh := hr h (List.mem_of_getElem? hk)
      have : h.radius * offset * u3[k * rep + j]'(by omega) ≤ offset * h.radius := by
        nlinarith [mul_nonneg hrh hoff]
      apply pow_le_pow_left₀ (by positivity) this
    · intro ho hrp
      rw [perturb_dist]
      obtain ⟨a, b⟩ := hu _ (List.getElem_mem (l := u3) (n := k * rep + j) (by omega))
      have : h.radius * offset * u3[k * rep + j]'(by omega) < offset * h.radius := by
        nlinarith [mul_pos hrp ho]
      apply pow_lt_pow_left₀ this (by positivity) (by norm_num)

/-- Two halos, three sightlines each. -/
example : ∃ (halos : List Grp) (u : List ℝ), (∀ h ∈ halos, 0 ≤ h.radius) ∧ u.length = halos.length * 3 ∧ Unit01 u :=
  ⟨[⟨1e10, ⟨1, 2, 3⟩, 4⟩, ⟨2e10, ⟨5, 6, 7⟩, 8⟩], List.replicate 6 (1 / 2), by simp, by simp,
    fun x hx => by rw [List.mem_replicate] at hx; rw [hx.2]; norm_num⟩

/-- C71 is false of `find_associated_halo`: it never returns, not even for one sightline per halo, because the quotient is a
float and floats are not indices. -/
theorem associated_halo_fails (halos : List Grp) (rep : ℕ) (hrep : 0 < rep) (num : ℤ) :
    find_associated_halo halos rep num = .error .indexError := by
  unfold find_associated_halo haloIndex
  rw [if_neg (by omega)]
  rfl

/-- C71 is false of `line_offsets`: the distances of sightlines from their halos are never given, whatever the sightlines. -/
theorem line_offsets_fails (halos : List Grp) (rep : ℕ) (hrep : 0 < rep) (axis : List ℤ) (cofm : List Pos3)
    (hlen : axis.length = cofm.length) : line_offsets halos rep axis cofm = .error .indexError := by
  cases cofm with
  | nil =>
    rw [List.length_nil, List.length_eq_zero_iff] at hlen
    subst hlen
    rfl
  | cons p ps =>
    unfold line_offsets
    have : (List.range (p :: ps).length).mapM (fun i : ℕ => find_associated_halo halos rep i) = .error .indexError := by
      rw [List.length_cons, List.range_succ_eq_map, List.mapM_cons, associated_halo_fails halos rep hrep]
      rfl
    rw [this]
    rfl

/-- Two sightlines for one halo. -/
example : ∃ (axis : List ℤ) (cofm : List Pos3), axis.length = cofm.length ∧ cofm.length = 2 ∧ 0 < 2 :=
  ⟨[1, 1], [⟨1, 2, 3⟩, ⟨1, 2, 4⟩], rfl, rfl, by norm_num⟩

/-! ### The savefile -/

/-- C72 is false of the code: the halos are written into the old file, which then becomes the backup; whatever was in the
directory, the new file has no halos, and loading it fails. -/
theorem halos_lost (d d' : Dir) (h : save_file d = .ok d') :
    load_halos d' = .error .keyError ∧ (∃ g, d'.backup = some g ∧ "halos" ∈ g) ∧ d'.file = some baseGroups := by
  unfold save_file at h
  dsimp only at h
  split at h
  · cases h
  · cases h
    refine ⟨by simp [load_halos, baseSave, baseGroups], ⟨d.file.getD [] ++ ["halos"], by simp [baseSave], by simp⟩,
      by simp [baseSave]⟩

/-- Any number of saves from an empty directory succeed, and never leave a file which can be loaded. -/
theorem saves_never_load (n : ℕ) (d : Dir) (hd : d.file = none) :
    ∃ d', (fun s : Py Dir => s >>= save_file)^[n] (.ok d) = .ok d' ∧ ∀ u, load_halos d' ≠ .ok u := by
  have key : ∀ n, ∃ d', (fun s : Py Dir => s >>= save_file)^[n] (.ok d) = .ok d' ∧ (d'.file = none ∨ d'.file = some baseGroups) := by
    intro n
    induction n with
    | zero => exact ⟨d, rfl, Or.inl hd⟩
    | succ n ih =>
      obtain ⟨d', h1, h2⟩ := ih
      rw [Function.iterate_succ_apply', h1]
      have : ∃ d'', save_file d' = .ok d'' := by
        unfold save_file
        dsimp only
        rw [if_neg]
        · exact ⟨_, rfl⟩
        · rcases h2 with h2 | h2 <;> rw [h2] <;> simp [baseGroups]
      obtain ⟨d'', h3⟩ := this
      exact ⟨d'', h3, Or.inr (halos_lost d' d'' h3).2.2⟩
  obtain ⟨d', h1, h2⟩ := key n
  refine ⟨d', h1, ?_⟩
  intro u
  rcases h2 with h2 | h2 <;> simp [load_halos, h2, baseGroups]

/-- A directory with no savefile. -/
example : (⟨none, none⟩ : Dir).file = none := rfl

/-! ### The constructor -/

/-- C71. A pixel width cannot be chosen: giving one raises an error, whatever the snapshot. -/
theorem res_fails (r : ℝ) (loaded : Py Unit) (halos : List Grp) (rep : ℕ) (offset : ℝ) (u1 u2 u3 : List ℝ)
    (snap : Option Construct.Snap) (saved : Py Construct.Saved) (o : Construct.Obj) :
    init (some r) loaded halos rep offset u1 u2 u3 snap saved ≠ .ok o := by
  unfold HaloSpectra.init
  intro h
  cases hl : loaded with
  | ok _ => rw [hl] at h; cases h
  | error e =>
    rw [hl] at h
    cases hc : get_cofm halos rep offset u1 u2 u3 with
    | error e' => rw [hc] at h; cases e <;> cases h
    | ok c => rw [hc] at h; cases e <;> cases h

/-- C72. Even a savefile with halos would be of no use: once it is loaded the constructor fails. -/
theorem loaded_fails (res : Option ℝ) (u : Unit) (halos : List Grp) (rep : ℕ) (offset : ℝ) (u1 u2 u3 : List ℝ)
    (snap : Option Construct.Snap) (saved : Py Construct.Saved) (o : Construct.Obj) :
    init res (.ok u) halos rep offset u1 u2 u3 snap saved ≠ .ok o := by
  cases res with
  | some r => exact res_fails r _ _ _ _ _ _ _ _ _ _
  | none =>
    intro h
    unfold HaloSpectra.init at h
    simp only [bind, Except.bind, Construct.construct, Construct.fromSnapshot, Construct.cofmOf] at h
    split at h
    · cases h
    · simp only [if_true] at h
      split at h <;> cases h

/-- C71. Without a savefile and with the default pixel width, the object has the sightlines of `get_cofm`, all along the
first axis, one row per random number. -/
theorem init_fresh {e : PyErr} (he : e = .ioError ∨ e = .keyError) (halos : List Grp) (rep : ℕ) (offset : ℝ) (u1 u2 u3 : List ℝ)
    {c : List Pos3} (hc : get_cofm halos rep offset u1 u2 u3 = .ok c) (s : Construct.Snap) {k : ℤ} (hk : s.kernel = .ok k)
    (saved : Py Construct.Saved) :
    ∃ o, init none (.error e) halos rep offset u1 u2 u3 (some s) saved = .ok o ∧ o.cofm = c.map (fun p => (p.x, p.y, p.z)) ∧
      o.axis = List.replicate (halos.length * rep) 1 ∧ o.numLos = halos.length * rep := by
  have hax : npRepeat (halos.map (fun _ => (1 : ℤ))) rep = List.replicate (halos.length * rep) 1 := by
    clear hc
    induction halos with
    | nil => simp [npRepeat]
    | cons x xs ih =>
      have : npRepeat ((x :: xs).map (fun _ => (1 : ℤ))) rep =
          List.replicate rep 1 ++ npRepeat (xs.map (fun _ => (1 : ℤ))) rep := rfl
      rw [this, ih, List.length_cons, Nat.succ_mul, Nat.add_comm, List.replicate_append_replicate]
  have hi : init none (.error e) halos rep offset u1 u2 u3 (some s) saved =
      Construct.construct { cofm := .table (c.map (fun p => (p.x, p.y, p.z))), axis := .array (List.replicate (halos.length * rep) 1), reload := true }
        (some s) saved := by
    unfold HaloSpectra.init
    rw [hc, ← hax]
    rcases he with rfl | rfl <;> rfl
  rw [hi]
  simp [Construct.construct, Construct.kernelOf, hk, Construct.fromSnapshot, Construct.cofmOf, Construct.axisOf,
    Construct.noneCheck, Construct.get_units, Construct.pixels, bind, Except.bind, pure, Except.pure, Except.map]

/-- The hypotheses hold for one halo and a snapshot with a cubic kernel. -/
example : ∃ (c : List Pos3) (s : Construct.Snap), get_cofm [⟨1e10, ⟨1, 2, 3⟩, 4⟩] 1 1 [0] [0] [0] = .ok c ∧ s.kernel = .ok 1 :=
  ⟨_, ⟨.ok 1, 1, 1, 1, 1, 0, none⟩, by simp [get_cofm, npRepeat]; rfl, rfl⟩

example := associated_halo_fails [⟨1e10, ⟨1, 2, 3⟩, 4⟩] 3 (by norm_num) 2

end Verif.Props.HaloSpectra
