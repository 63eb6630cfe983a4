import Verif.Model.SaveSteps

/-!
C14: a crash while saving. C15: halo spectra on disk.
-/

namespace Verif.Props
open Verif Verif.SaveSteps

/-- There is a complete copy of `old` under one of the two names. -/
def Holds {D : Type} (old : D) (d : Disk D) : Prop := d.main = .complete old ∨ d.backup = .complete old

theorem crash_cases {D : Type} (new : D) (n k : ℕ) (d : Disk D) :
    crash (saveSteps new n) k d = d ∨ crash (saveSteps new n) k d = moveToBackup d ∨
    crash (saveSteps new n) k d = create (moveToBackup d) ∨
    crash (saveSteps new n) k d = close new (create (moveToBackup d)) := by
  unfold crash saveSteps
  match k with
  | 0 => left; rfl
  | 1 => right; left; rfl
  | k + 2 =>
    right; right
    simp only [List.cons_append, List.nil_append, List.take_succ_cons, List.foldl_cons]
    have hw : ∀ m (e : Disk D), e.main = .broken → (List.replicate m write).foldl (fun d f => f d) e = e := by
      intro m
      induction m with
      | zero => intro e _; rfl
      | succ m ih =>
        intro e he
        rw [List.replicate_succ, List.foldl_cons]
        have : write e = e := by cases e; simp only [write] at he ⊢; rw [he]
        rw [this]; exact ih e he
    rw [List.take_append, List.take_replicate, List.foldl_append, hw _ _ rfl]
    rcases Nat.eq_zero_or_pos (k - (List.replicate n (write (D := D))).length) with h | h
    · left; rw [h]; rfl
    · right
      obtain ⟨j, hj⟩ := Nat.exists_eq_succ_of_ne_zero h.ne'
      rw [hj, List.take_succ_cons, List.take_nil]; rfl

/-- C14 (partial): if the savefile holds complete data, then whenever the process stops during a save, a
complete copy of that data is on disk under one of the two names; the same if there is no savefile and the
backup is complete. What is missing: `retry_loses_backup`. -/
theorem crash_safe_partial {D : Type} (old new : D) (n k : ℕ) (d : Disk D)
    (h : d.main = .complete old ∨ (d.main = .absent ∧ d.backup = .complete old)) :
    Holds old (crash (saveSteps new n) k d) := by
  obtain ⟨m, b⟩ := d
  rcases h with h | ⟨h, h'⟩
  · simp only at h
    subst h
    rcases crash_cases new n k ⟨.complete old, b⟩ with e | e | e | e <;> rw [e]
    · exact .inl rfl
    · exact .inr rfl
    · exact .inr rfl
    · exact .inr rfl
  · simp only at h h'
    subst h; subst h'
    rcases crash_cases new n k ⟨.absent, .complete old⟩ with e | e | e | e <;> rw [e] <;> exact .inr rfl

/-- C14: a save that is not interrupted leaves the new data under the savefile name. -/
theorem save_completes {D : Type} (new : D) (n : ℕ) (d : Disk D) :
    (crash (saveSteps new n) (saveSteps new n).length d).main = .complete new := by
  unfold crash
  rw [List.take_length]
  unfold saveSteps
  rw [List.foldl_append]
  rfl

/-- Witness: the process stops in the middle of the third write. -/
example : crash (saveSteps "new" 5) 4 ⟨.complete "old", .absent⟩ = ⟨.broken, .complete "old"⟩ := rfl

/-- Disagreement: after a crash during the writing, saving again moves the broken file over the good backup.
Once the second save has begun, no complete copy of the old data is left, and if it is interrupted too there
is no complete file at all. -/
theorem retry_loses_backup {D : Type} (old new new' : D) (hne : new' ≠ old) (b : FState D) (n n' k k' : ℕ) (hk : 2 ≤ k)
    (hk2 : k < (saveSteps new n).length) (hk' : 1 ≤ k') :
    ¬Holds old (crash (saveSteps new' n') k' (crash (saveSteps new n) k ⟨.complete old, b⟩)) ∧
    (k' < (saveSteps new' n').length → ∀ x,
      ¬Holds x (crash (saveSteps new' n') k' (crash (saveSteps new n) k ⟨.complete old, b⟩))) := by
  have h1 : crash (saveSteps new n) k ⟨.complete old, b⟩ = ⟨.broken, .complete old⟩ := by
    unfold crash saveSteps at *
    obtain ⟨k, rfl⟩ := Nat.exists_eq_add_of_le hk
    simp only [List.cons_append, List.nil_append, List.length_cons, List.length_append, List.length_replicate,
      List.length_nil] at hk2
    rw [Nat.add_comm]
    simp only [List.cons_append, List.nil_append, List.take_succ_cons, List.foldl_cons]
    have hw : ∀ m (e : Disk D), e.main = .broken → (List.replicate m write).foldl (fun d f => f d) e = e := by
      intro m
      induction m with
      | zero => intro e _; rfl
      | succ m ih =>
        intro e he
        rw [List.replicate_succ, List.foldl_cons]
        have : write e = e := by cases e; simp only [write] at he ⊢; rw [he]
        rw [this]; exact ih e he
    rw [List.take_append, List.take_replicate, List.foldl_append, hw _ _ rfl]
    have : k - (List.replicate n (write (D := D))).length = 0 := by simp; omega
    rw [this]; rfl
  rw [h1]
  have h2 : ∀ k', 1 ≤ k' → ∃ m, crash (saveSteps new' n') k' ⟨.broken, .complete old⟩ = ⟨m, .broken⟩ ∧
      (m = .absent ∨ m = .broken ∨ m = .complete new') := by
    intro k' hk'
    rcases crash_cases new' n' k' ⟨.broken, .complete old⟩ with e | e | e | e
    · exfalso
      -- after at least one step the backup has changed
      have : (crash (saveSteps new' n') k' ⟨.broken, .complete old⟩).backup = .broken := by
        unfold crash
        obtain ⟨j, rfl⟩ := Nat.exists_eq_add_of_le hk'
        rw [Nat.add_comm]
        unfold saveSteps
        simp only [List.cons_append, List.nil_append, List.take_succ_cons, List.foldl_cons]
        have hb : ∀ (l : List (Disk D → Disk D)), (∀ f ∈ l, ∀ d : Disk D, (f d).backup = d.backup) →
            ∀ d : Disk D, (l.foldl (fun d f => f d) d).backup = d.backup := by
          intro l
          induction l with
          | nil => intro _ d; rfl
          | cons f l ih =>
            intro hl d
            rw [List.foldl_cons, ih (fun f hf => hl f (by simp [hf])), hl f (by simp)]
        rw [hb]
        · rfl
        · intro f hf d
          have hf' := List.mem_of_mem_take hf
          rcases List.mem_cons.1 hf' with rfl | hf'
          · rfl
          · rcases List.mem_append.1 hf' with hf' | hf'
            · rw [List.eq_of_mem_replicate hf']; rfl
            · rw [List.mem_singleton.1 hf']; rfl
      rw [e] at this
      cases this
    · exact ⟨.absent, e, .inl rfl⟩
    · exact ⟨.broken, e, .inr (.inl rfl)⟩
    · exact ⟨.complete new', e, .inr (.inr rfl)⟩
  obtain ⟨m, hm, hm2⟩ := h2 k' hk'
  rw [hm]
  constructor
  · rintro (h | h)
    · simp only at h
      rcases hm2 with rfl | rfl | rfl
      · cases h
      · cases h
      · exact hne (FState.complete.inj h)
    · cases h
  · intro hlt x hx
    have hm3 : m ≠ .complete new' := by
      rintro rfl
      -- without the last step the file is not complete
      have hnc : ∀ k, k < (saveSteps new' n').length →
          (crash (saveSteps new' n') k ⟨.broken, .complete old⟩).main ≠ .complete new' := by
        intro k hk
        unfold crash
        have hlen : (saveSteps new' n').length = (([moveToBackup, create] ++ List.replicate n' write :
            List (Disk D → Disk D))).length + 1 := by simp [saveSteps]
        have ht : (saveSteps new' n').take k =
            (([moveToBackup, create] ++ List.replicate n' write : List (Disk D → Disk D))).take k := by
          unfold saveSteps
          rw [List.take_append_of_le_length (by omega)]
        rw [ht]
        have hf : ∀ (l : List (Disk D → Disk D)), (∀ f ∈ l, ∀ d : Disk D, d.main ≠ .complete new' →
            (f d).main ≠ .complete new') → ∀ d : Disk D, d.main ≠ .complete new' →
            (l.foldl (fun d f => f d) d).main ≠ .complete new' := by
          intro l
          induction l with
          | nil => intro _ d hd; exact hd
          | cons f l ih =>
            intro hl d hd
            rw [List.foldl_cons]
            exact ih (fun f hf => hl f (by simp [hf])) _ (hl f (by simp) d hd)
        apply hf
        · intro f hf d hd
          have hf' := List.mem_of_mem_take hf
          simp only [List.cons_append, List.nil_append, List.mem_cons, List.mem_replicate] at hf'
          rcases hf' with rfl | rfl | ⟨-, rfl⟩
          · unfold moveToBackup
            split
            · simp
            · exact hd
          · simp [create]
          · simp [write]
        · simp
      have := hnc k' hlt
      rw [hm] at this
      exact this rfl
    rcases hx with h | h
    · simp only at h
      rcases hm2 with rfl | rfl | rfl
      · cases h
      · cases h
      · exact hm3 rfl
    · cases h

/-- C15, the claim fails: whatever was on disk, once `HaloSpectra.save_file` has finished the savefile has
no halo catalogue, and loading it fails with `KeyError`, so the catalogue is generated again. -/
theorem halo_save_not_loadable {S H : Type} (s : S) (h : H) (n : ℕ) (d : Disk (HaloFile S H))
    {steps : List (Disk (HaloFile S H) → Disk (HaloFile S H))} (hs : haloSteps s h n d = .ok steps) :
    haloLoad (crash steps steps.length d) = .error .keyError := by
  have hmain : (crash steps steps.length d).main = .complete ⟨some s, none⟩ := by
    unfold haloSteps at hs
    cases ha : appendHalos h d with
    | error e => rw [ha] at hs; cases hs
    | ok l =>
      rw [ha] at hs
      obtain rfl := Except.ok.inj hs
      unfold crash
      rw [List.take_length, List.foldl_append]
      have := save_completes (⟨some s, none⟩ : HaloFile S H) n (l.foldl (fun d f => f d) d)
      unfold crash at this
      rw [List.take_length] at this
      exact this
  unfold haloLoad
  rw [hmain]

/-- C15 (partial): the spectra are in the savefile and the catalogue is in the backup. -/
theorem halo_save_partial {S H : Type} (s : S) (h : H) (n : ℕ) (d : Disk (HaloFile S H))
    {steps : List (Disk (HaloFile S H) → Disk (HaloFile S H))} (hs : haloSteps s h n d = .ok steps) :
    (crash steps steps.length d).main = .complete ⟨some s, none⟩ ∧
    ∃ f : HaloFile S H, (crash steps steps.length d).backup = .complete f ∧ f.halos = some h ∧
      ∀ o, d.main = .complete o → f.spectra = o.spectra := by
  obtain ⟨m, b⟩ := d
  unfold haloSteps appendHalos at hs
  have fin : ∀ (f : HaloFile S H) (b : FState (HaloFile S H)),
      (saveSteps ⟨some s, none⟩ n).foldl (fun d f => f d) (⟨.complete f, b⟩ : Disk (HaloFile S H)) =
        ⟨.complete ⟨some s, none⟩, .complete f⟩ := by
    intro f b
    rcases crash_cases (⟨some s, none⟩ : HaloFile S H) n (saveSteps (⟨some s, none⟩ : HaloFile S H) n).length
      ⟨.complete f, b⟩ with e | e | e | e
    all_goals
      have hc := save_completes (⟨some s, none⟩ : HaloFile S H) n ⟨.complete f, b⟩
      unfold crash at e hc
      rw [List.take_length] at e hc
    · -- at least the backup differs unless equal; compute directly
      unfold saveSteps
      simp only [List.cons_append, List.nil_append, List.foldl_cons, List.foldl_append, List.foldl_nil]
      have hw : ∀ m (e : Disk (HaloFile S H)), ((List.replicate m write).foldl (fun d f => f d) e).backup = e.backup := by
        intro m
        induction m with
        | zero => intro e; rfl
        | succ m ih => intro e; rw [List.replicate_succ, List.foldl_cons, ih]; rfl
      unfold close
      rw [hw]
      rfl
    · rw [e] at hc; cases hc
    · rw [e] at hc; cases hc
    · rw [e]; rfl
  cases m with
  | absent =>
    obtain rfl := Except.ok.inj hs
    unfold crash
    rw [List.take_length, List.foldl_append]
    simp only [List.foldl_cons, List.foldl_nil]
    rw [fin]
    exact ⟨rfl, _, rfl, rfl, fun o ho => by cases ho⟩
  | broken => cases hs
  | complete f =>
    cases hf : f.halos with
    | some x =>
      simp only [hf] at hs
      cases hs
    | none =>
      simp only [hf] at hs
      obtain rfl := Except.ok.inj hs
      unfold crash
      rw [List.take_length, List.foldl_append]
      simp only [List.foldl_cons, List.foldl_nil]
      rw [fin]
      exact ⟨rfl, _, rfl, rfl, fun o ho => by rw [FState.complete.inj ho]⟩

/-- C15: the constructor never gets its sightlines from a savefile: where loading works, it fails with
`AttributeError`. -/
theorem halo_reload_fails {S H C : Type} (resGiven : Bool) (d : Disk (HaloFile S H)) (generate : Py C) {x : S × H}
    (h : haloLoad d = .ok x) : haloInit resGiven d generate = .error .attributeError := by
  unfold haloInit haloSightlines
  rw [h]
  cases resGiven <;> rfl

/-- C15: the constructor works only when nothing is loaded and no pixel width is given. -/
theorem halo_init_iff {S H C : Type} (resGiven : Bool) (d : Disk (HaloFile S H)) (generate : Py C) (c : C) :
    haloInit resGiven d generate = .ok c ↔ (∀ x, haloLoad d ≠ .ok x) ∧ resGiven = false ∧ generate = .ok c := by
  constructor
  · intro h
    have hl : ∀ x, haloLoad d ≠ .ok x := by
      intro x hx
      rw [halo_reload_fails resGiven d generate hx] at h
      cases h
    unfold haloInit haloSightlines at h
    cases he : haloLoad d with
    | ok x => exact absurd he (hl x)
    | error e =>
      rw [he] at h
      refine ⟨by simp, ?_⟩
      cases resGiven <;> cases e <;> cases generate <;> first | exact ⟨rfl, h⟩ | (cases h; done) | (cases h; exact ⟨rfl, rfl⟩)
  · rintro ⟨h1, rfl, rfl⟩
    unfold haloInit haloSightlines
    cases he : haloLoad d with
    | ok x => exact absurd he (h1 x)
    | error e =>
      unfold haloLoad at he
      have : e = .ioError ∨ e = .keyError := by
        split at he
        · left; cases he; rfl
        · left; cases he; rfl
        · split at he
          · right; cases he; rfl
          · split at he
            · right; cases he; rfl
            · cases he
      rcases this with rfl | rfl <;> rfl

/-- C15: while the catalogue is being appended the old savefile itself is open for writing; a crash then
leaves no complete copy of the old spectra, unless an older backup happens to hold them. -/
theorem halo_crash_loses {S H : Type} (s : S) (h : H) (n : ℕ) (old : HaloFile S H) (ho : old.halos = none)
    (b : FState (HaloFile S H)) :
    ∃ steps, haloSteps s h n ⟨.complete old, b⟩ = .ok steps ∧
      crash steps 1 ⟨.complete old, b⟩ = ⟨.broken, b⟩ := by
  obtain ⟨sp, hl⟩ := old
  simp only at ho
  subst ho
  exact ⟨_, rfl, rfl⟩

/-- Witness: halo spectra saved twice. -/
example : ∃ steps, haloSteps (H := ℕ) "new" 7 2 ⟨.complete ⟨some "old", none⟩, .absent⟩ = .ok steps ∧
    crash steps steps.length ⟨.complete ⟨some "old", none⟩, .absent⟩ =
      ⟨.complete ⟨some "new", none⟩, .complete ⟨some "old", some 7⟩⟩ := ⟨_, rfl, rfl⟩

/-! The theorems at work on a file of five groups. -/

example := crash_safe_partial "old" "new" 5 3 ⟨.complete "old", .absent⟩ (Or.inl rfl)

/-- A crash after three steps and then another. -/
example := retry_loses_backup "old" "new" "newer" (by decide) .absent 5 5 3 2 (by norm_num) (by simp [saveSteps]) (by norm_num)

example : ∃ steps, haloSteps (H := ℕ) "new" 7 2 ⟨.complete ⟨some "old", none⟩, .absent⟩ = .ok steps ∧
    haloLoad (crash steps steps.length ⟨.complete ⟨some "old", none⟩, .absent⟩) = .error .keyError :=
  ⟨_, rfl, halo_save_not_loadable "new" 7 2 _ rfl⟩

example : ∃ steps, haloSteps (H := ℕ) "new" 7 2 ⟨.complete ⟨some "old", none⟩, .absent⟩ = .ok steps ∧
    (crash steps steps.length ⟨.complete ⟨some "old", none⟩, .absent⟩).main = .complete ⟨some "new", none⟩ :=
  ⟨_, rfl, (halo_save_partial "new" 7 2 _ rfl).1⟩

example := halo_reload_fails (C := ℕ) true ⟨.complete ⟨some "old", some 7⟩, .absent⟩ (.ok 3) (x := ("old", (7 : ℕ))) rfl

end Verif.Props
