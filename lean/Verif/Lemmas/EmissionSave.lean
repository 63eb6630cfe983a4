import Verif.Model.EmissionSave
import Verif.Lemmas.Store

/-! Helper lemmas for the saving of emission spectra. -/

namespace Verif.EmissionSave
open Verif.Store

variable {T : Truth} {good : Grp → Key → Prop}

/-- The dictionaries whose entries this `save_file` does not load first. -/
def ELossy (g : Grp) : Prop := g = .temperature ∨ g = .density_weight_density ∨ g = .velocity

/-- Everything but those is known to be right. -/
def EGoodBut (good : Grp → Key → Prop) : Prop := ∀ g k, ¬ELossy g → good g k

theorem EGoodBut.colden (h : EGoodBut good) (k : Key) : good .colden k := h _ _ (by rintro (h | h | h) <;> cases h)

/-- Once the column densities are in memory the crossed load does nothing. -/
theorem loadAllCrossed_loaded {s : St} (h : ∀ k, LoadedIf T s .colden k) : loadAllCrossed s = (.ok (), s) := by
  have F : ∀ ks : List Key, (∀ k ∈ ks, (s.entry .colden k).isSome) → ks.foldl (fun acc k => match acc with
      | ((.ok _ : Py Unit), s1) => loadCrossed k s1
      | (.error e, s1) => (.error e, s1)) ((.ok () : Py Unit), s) = (.ok (), s) := by
    intro ks
    induction ks with
    | nil => intro _; rfl
    | cons k ks ih =>
      intro hk
      rw [List.foldl_cons]
      have h1 : loadCrossed k s = (.ok (), s) := by
        obtain ⟨r, a, e1, -, e3, e4⟩ := h k (hk k (by simp))
        unfold loadCrossed
        rw [show (s.dicts .colden).lookup k = some r from e1]
        dsimp only
        rw [e4, if_pos e3]
      dsimp only
      rw [h1]
      exact ih (fun k' hk' => hk k' (by simp [hk']))
  refine F _ ?_
  intro k hk
  obtain ⟨p, hp, rfl⟩ := List.mem_map.1 hk
  obtain ⟨r, hr⟩ := mem_lookup (k := p.1) (b := p.2) hp
  unfold St.entry; rw [hr]; rfl

theorem loadForSave_eq {s : St} (h : Inv T good s) (hg : EGoodBut good) :
    loadForSave s = (.ok (), (loadAll .colden (loadAll .tau (loadAll .tau_obs s).2).2).2) := by
  have hn : ∀ g : Grp, ¬ELossy g → ∀ k, good g k := fun g h k => hg g k h
  obtain ⟨a1, a2, a3, a4, a5⟩ := loadAll_spec h (hn .tau_obs (by rintro (h | h | h) <;> cases h))
  obtain ⟨b1, b2, b3, b4, b5⟩ := loadAll_spec a2 (hn .tau (by rintro (h | h | h) <;> cases h))
  obtain ⟨c1, c2, c3, c4, c5⟩ := loadAll_spec b2 (hn .colden (by rintro (h | h | h) <;> cases h))
  have pe : ∀ x : Py Unit × St, x.1 = .ok () → x = (.ok (), x.2) := by
    rintro ⟨a, b⟩ h; simp at h; rw [h]
  unfold loadForSave
  rw [pe _ a1]; dsimp only
  rw [pe _ b1]; dsimp only
  rw [pe _ c1]; dsimp only
  rw [loadAllCrossed_loaded c5]

/-- Before writing, everything but temperatures, weighted densities and velocities is in memory. -/
theorem loadForSave_spec {s : St} (h : Inv T good s) (hg : EGoodBut good) :
    (loadForSave s).1 = .ok () ∧ Inv T good (loadForSave s).2 ∧ Ext T good s (loadForSave s).2 ∧
    (∀ g' k', ((loadForSave s).2.entry g' k').isSome = (s.entry g' k').isSome) ∧
    (∀ g k, ¬ELossy g → g ≠ .num_important → LoadedIf T (loadForSave s).2 g k) ∧
    (loadForSave s).2.entry .velocity = s.entry .velocity := by
  have hn : ∀ g : Grp, ¬ELossy g → ∀ k, good g k := fun g h k => hg g k h
  obtain ⟨a1, a2, a3, a4, a5⟩ := loadAll_spec h (hn .tau_obs (by rintro (h | h | h) <;> cases h))
  obtain ⟨b1, b2, b3, b4, b5⟩ := loadAll_spec a2 (hn .tau (by rintro (h | h | h) <;> cases h))
  obtain ⟨c1, c2, c3, c4, c5⟩ := loadAll_spec b2 (hn .colden (by rintro (h | h | h) <;> cases h))
  rw [loadForSave_eq h hg]
  refine ⟨rfl, c2, (a3.trans b3).trans c3, fun g' k' => by rw [c4, b4, a4], ?_, ?_⟩
  · intro g k h1 h2
    have hgk := hg g k h1
    cases g with
    | tau_obs => exact c3.loaded _ k hgk (b3.loaded _ k hgk (a5 k))
    | tau => exact c3.loaded _ k hgk (b5 k)
    | colden => exact c5 k
    | velocity => exact absurd (.inr (.inr rfl)) h1
    | temperature => exact absurd (.inl rfl) h1
    | num_important => exact absurd rfl h2
    | density_weight_density => exact absurd (.inr (.inl rfl)) h1
  · rw [loadAll_frame (by decide), loadAll_frame (by decide), loadAll_frame (by decide)]

/-- Arrays of more than one number are not loaded. -/
theorem loadStellar_big (file : Option (List (List String × Arr))) {d : List (List String × Arr)} (h : ∀ p ∈ d, 1 < p.2.length) :
    loadStellar file d = .ok d := by
  unfold loadStellar
  induction d with
  | nil => rfl
  | cons p d ih =>
    rw [List.mapM_cons, if_pos (h p (by simp)), ih (fun q hq => h q (by simp [hq]))]
    rfl

theorem save_spec {env : Env} {b : St} (h : Inv (truth env) good b) (hw : Wf b) (hg : EGoodBut good)
    (hl : ∀ g k, good g k → ELossy g → LoadedIf (truth env) b g k) {d : List (List String × Arr)}
    (hd : ∀ p ∈ d, 1 < p.2.length) (file : Option (List (List String × Arr))) :
    ∃ s1 f, save_file ⟨b, d, file⟩ = .ok s1 ∧ s1.saved = some ⟨f, d⟩ ∧ f = saveGroup (loadForSave b).2 ∧
      FileOk (truth env) good f ∧ ∀ g k, (b.entry g k).isSome → InFile f g k := by
  obtain ⟨a1, a2, a3, a4, a5, -⟩ := loadForSave_spec h hg
  have hw' := a3.wf hw
  refine ⟨⟨{ (loadForSave b).2 with disk := some (saveGroup (loadForSave b).2) }, d, some d⟩,
    saveGroup (loadForSave b).2, ?_, rfl, rfl, ?_, ?_⟩
  · unfold save_file
    dsimp only
    rw [loadStellar_big file hd]
    dsimp only
    rw [show loadForSave b = (.ok (), (loadForSave b).2) from by rw [← a1]]
  · intro g p a hpa
    obtain ⟨k, r, hr, rfl, rfl⟩ := (mem_saveGroup hw' g p a).1 hpa
    refine ⟨k, rfl, fun hgk => ?_⟩
    have hL : LoadedIf (truth env) (loadForSave b).2 g k := by
      by_cases hlo : ELossy g
      · exact a3.loaded g k hgk (hl g k hgk hlo)
      · by_cases hn : g = .num_important
        · subst hn
          obtain ⟨b, hb, -⟩ := (a2 _ k r hr).2 hgk
          have : truth env .num_important k = none := by
            unfold truth expected
            cases k.line <;> rfl
          rw [this] at hb
          cases hb
        · exact a5 g k hlo hn
    obtain ⟨r', b, e1, e2, e3, e4⟩ := hL (by rw [hr]; rfl)
    rw [hr] at e1
    obtain rfl := Option.some.inj e1
    rw [e4]
    exact ⟨e2, e3⟩
  · intro g k hk
    rw [← a4] at hk
    obtain ⟨r, hr⟩ := Option.isSome_iff_exists.1 hk
    exact ⟨_, (mem_saveGroup hw' g _ _).2 ⟨k, r, hr, rfl, rfl⟩⟩

end Verif.EmissionSave
