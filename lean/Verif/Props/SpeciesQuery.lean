import Verif.Model.SpeciesQuery
import Verif.Props.Metallicity
import Verif.Props.Additive
import Verif.Props.AtomDat

/-!
C113: a query for an element, an ion and a line.
-/

namespace Verif.Props.SpeciesQuery
open Verif Verif.SpeciesQuery Verif.WeightMean Verif.Props.Metallicity Verif.IndexTable Verif.PartInt Verif.Absorption

/-! ### Specification -/

/-- The mass of an element in atomic units; for all metals together 1 stands in its place. -/
noncomputable def massOf (elem : String) : Option ℝ := if elem = "Z" then some 1 else masses elem

/-- The mass fraction of an element in particle `i`: the total metallicity, or the column of the element, negative entries counting as 0, or
the primordial values. -/
noncomputable def abundance (b : Blocks) (elem : String) (i : ℕ) : ℝ :=
  if elem = "Z" then max 0 ((b.metallicity.getD []).getD i 0)
  else match b.gfm with
    | some rows => max 0 ((rows.getD i []).getD ((column elem).getD 0) 0)
    | none => if elem = "H" then 0.76 else 0.24

/-- The snapshot can say what the abundance of the element is in its first `n` particles. -/
def HasAbundance (b : Blocks) (elem : String) (n : ℕ) : Prop :=
  if elem = "Z" then ∃ z, b.metallicity = some z ∧ n ≤ z.length
  else ∃ j, column elem = some j ∧ match b.gfm with
    | some rows => (∀ row ∈ rows, j < row.length) ∧ n ≤ rows.length
    | none => j < 2 ∧ n ≤ b.nvalues

/-- A number moved into an interval. -/
noncomputable def clamp (lo hi x : ℝ) : ℝ := max lo (min x hi)

/-- The species meant by an element and an ion. -/
noncomputable def speciesOf (cl : Cloudy) (f : ℝ → ℝ → ℝ) (elem : String) (ion : ℤ) : ComputeSpectra.Species :=
  if elem = "H" ∧ ion = 1 then .HI
  else if ion = -1 then .all
  else if elem = "H" then .Hion (fun d t => f (clamp cl.dlo cl.dhi d) (clamp cl.tlo cl.thi t))
  else .ion (fun d t => f (clamp cl.dlo cl.dhi d) (clamp cl.tlo cl.thi t))

/-- The computation for a line `ln` of atoms of mass `m`: wavelength in cm, oscillator strength, and damping constant, which is 0 if
self-shielding is turned off. -/
noncomputable def configFor (o : Obj) (elem : String) (ion : ℤ) (f : ℝ → ℝ → ℝ) (m : ℝ) (ln : LineData.Line) : ComputeSpectra.Config where
  L := LineAbsorption.mk' o.profile (ln.lambda * 1e-8) (if o.turn_off_selfshield then 0 else ln.gamma) ln.fosc m o.velfac o.box o.kernel o.tautail
  nbins := o.nbins
  box := o.box
  lines := o.sightlines
  rscale := o.rscale
  amumass := m
  sp := speciesOf o.cloudy f elem ion

/-- A particle with an abundance. -/
def withFrac (g : Gas) (x : ℝ) : ComputeSpectra.Raw := ⟨g.pos, g.vel, g.h, g.den, x, g.temp, g.nHI⟩

/-- The particles of a segment with the abundance of an element. -/
noncomputable def gasOf (elem : String) (seg : Seg) : List ComputeSpectra.Raw :=
  seg.gas.zipIdx.map (fun gi => withFrac gi.1 (abundance seg.blocks elem gi.2))

/-- The table of ions answers for this ion, if it is asked. -/
def TableAnswers (o : Obj) (elem : String) (ion : ℤ) (f : ℝ → ℝ → ℝ) : Prop :=
  (elem = "H" ∧ ion = 1) ∨ ion = -1 ∨ o.cloudy.ion elem ion = .ok f

/-! ### Parts -/

theorem frac_eq {b : Blocks} {elem : String} {n : ℕ} (h : HasAbundance b elem n) {ind : List ℕ} (hind : ∀ i ∈ ind, i < n) :
    get_mass_frac b elem ind = .ok (ind.map (abundance b elem)) := by
  unfold HasAbundance at h
  by_cases hz : elem = "Z"
  · subst hz
    rw [if_pos rfl] at h
    obtain ⟨z, h1, h2⟩ := h
    rw [mass_frac_metals h1 (fun i hi => lt_of_lt_of_le (hind i hi) h2)]
    congr 1
    apply List.map_congr_left
    intro i _
    unfold abundance
    rw [if_pos rfl, h1]
    rfl
  · rw [if_neg hz] at h
    obtain ⟨j, hj, h⟩ := h
    cases hg : b.gfm with
    | some rows =>
      rw [hg] at h
      rw [mass_frac_table hg hj h.1 (fun i hi => lt_of_lt_of_le (hind i hi) h.2)]
      congr 1
      apply List.map_congr_left
      intro i _
      unfold abundance
      rw [if_neg hz, hg, hj]
      rfl
    | none =>
      rw [hg] at h
      have hp := mass_frac_primordial hg (fun i hi => lt_of_lt_of_le (hind i hi) h.2)
      have hcol : elem = "H" ∨ elem = "He" := by
        unfold column at hj
        split at hj <;> first | (simp; done) | (cases hj; done) | (exfalso; cases hj; omega)
      have hrep : ∀ x : ℝ, List.replicate ind.length x = ind.map (fun _ => x) := by
        intro x
        rw [List.map_const']
      rcases hcol with rfl | rfl
      · rw [hp.1, hrep]
        congr 1
        apply List.map_congr_left
        intro i _
        unfold abundance
        rw [if_neg hz, hg]
        simp
      · rw [hp.2, hrep]
        congr 1
        apply List.map_congr_left
        intro i _
        unfold abundance
        rw [if_neg hz, hg]
        simp

theorem clampArr_eq {lo hi : ℝ} (h : lo ≤ hi) (xs : List ℝ) : clampArr lo hi xs = xs.map (clamp lo hi) := by
  unfold clampArr
  split
  · rw [List.map_map]
    apply List.map_congr_left
    intro x _
    simp only [Function.comp, clamp]
    by_cases h1 : x > hi
    · rw [if_pos h1, if_neg (by linarith), min_eq_right h1.le, max_eq_right h]
    · rw [if_neg h1, min_eq_left (not_lt.1 h1)]
      split
      · rw [max_eq_left (le_of_lt ‹_›)]
      · rw [max_eq_right (not_lt.1 ‹_›)]
  · rename_i hn
    simp only [Bool.or_eq_true, List.any_eq_true, decide_eq_true_eq, not_or, not_exists, not_and] at hn
    rw [List.map_congr_left (g := id), List.map_id]
    intro x hx
    have h1 := hn.1 x hx
    have h2 := hn.2 x hx
    simp only [clamp, id]
    rw [min_eq_left (by linarith), max_eq_right (by linarith)]

/-- The selected particles with their abundances. -/
noncomputable def pairs (elem : String) (seg : Seg) (ind : List ℕ) : List (Gas × ℝ) :=
  ind.filterMap (fun i => (seg.gas[i]?).map (fun g => (g, abundance seg.blocks elem i)))

theorem pairs_fst (elem : String) (seg : Seg) (ind : List ℕ) :
    ind.filterMap (fun i => seg.gas[i]?) = (pairs elem seg ind).map Prod.fst := by
  unfold pairs
  rw [List.map_filterMap]
  congr 1
  funext i
  cases seg.gas[i]? <;> rfl

theorem pairs_snd (elem : String) (seg : Seg) (ind : List ℕ) (h : ∀ i ∈ ind, i < seg.gas.length) :
    ind.map (abundance seg.blocks elem) = (pairs elem seg ind).map Prod.snd := by
  unfold pairs
  induction ind with
  | nil => rfl
  | cons i r ih =>
    rw [List.filterMap_cons, List.getElem?_eq_getElem (h i (by simp))]
    simp only [Option.map_some, List.map_cons]
    rw [ih (fun j hj => h j (by simp [hj]))]

theorem gasOf_getElem? (elem : String) (seg : Seg) (i : ℕ) :
    (gasOf elem seg)[i]? = (seg.gas[i]?).map (fun g => withFrac g (abundance seg.blocks elem i)) := by
  unfold gasOf
  rw [List.getElem?_map, List.getElem?_zipIdx]
  cases seg.gas[i]? <;> simp

theorem pairs_raw (elem : String) (seg : Seg) (ind : List ℕ) :
    ind.filterMap (fun i => (gasOf elem seg)[i]?) = (pairs elem seg ind).map (fun p => withFrac p.1 p.2) := by
  unfold pairs
  rw [List.map_filterMap]
  congr 1
  funext i
  rw [gasOf_getElem?]
  cases seg.gas[i]? <;> rfl

theorem gasOf_posh (elem : String) (seg : Seg) :
    (gasOf elem seg).map (fun r => (r.pos, r.h)) = seg.gas.map (fun g => (g.pos, g.h)) := by
  apply List.ext_getElem?
  intro i
  rw [List.getElem?_map, gasOf_getElem?, List.getElem?_map]
  cases seg.gas[i]? <;> rfl

theorem mkParts_map {α : Type} (m : ℝ) (xs : List α) (g : α → Gas) (d t : α → ℝ) :
    mkParts m (xs.map g) (xs.map d) (xs.map t) = xs.map (fun x => ⟨(g x).pos, (g x).vel, d x / m, t x, (g x).h⟩) := by
  unfold mkParts
  induction xs with
  | nil => rfl
  | cons x r ih => simp only [List.map_cons, List.zip_cons_cons, List.zipWith_cons_cons, ih]

theorem zipWith_maps {α β γ δ : Type} (k : β → γ → δ) (xs : List α) (f : α → β) (g : α → γ) :
    List.zipWith k (xs.map f) (xs.map g) = xs.map (fun x => k (f x) (g x)) := by
  induction xs with
  | nil => rfl
  | cons x r ih => simp only [List.map_cons, List.zipWith_cons_cons, ih]

theorem zip_maps {α β γ : Type} (xs : List α) (f : α → β) (g : α → γ) : (xs.map f).zip (xs.map g) = xs.map (fun x => (f x, g x)) := by
  rw [List.zip, zipWith_maps]

theorem zipIdx_filter_fst {α : Type} (xs : List α) (P : α → Bool) (k : ℕ) :
    ((xs.zipIdx k).filter (fun r => P r.1)).map Prod.fst = xs.filter P := by
  induction xs generalizing k with
  | nil => rfl
  | cons x r ih =>
    rw [List.zipIdx_cons, List.filter_cons, List.filter_cons]
    split
    · rw [List.map_cons, ih]
    · exact ih _

/-- Reading a segment for an element and an ion is reading the gas, with the abundance and the mass of the element, for the species. -/
theorem read_eq {o : Obj} {elem : String} {ion : ℤ} {f : ℝ → ℝ → ℝ} {m : ℝ} (ln : LineData.Line) (hm : massOf elem = some m)
    (hT : o.cloudy.tlo ≤ o.cloudy.thi) (hD : o.cloudy.dlo ≤ o.cloudy.dhi) (hf : TableAnswers o elem ion f) (get_tau : Bool) (seg : Seg)
    (hab : HasAbundance seg.blocks elem seg.gas.length) :
    SpeciesQuery.read_particle_data o elem ion get_tau seg =
      (ComputeSpectra.read_particle_data (configFor o elem ion f m ln) get_tau (gasOf elem seg)).map (Option.map (fun ps => (ps, m))) := by
  have hb : ∀ {α β : Type} (x : α) (k : α → Py β), (Except.ok x >>= k) = k x := fun _ _ => rfl
  unfold SpeciesQuery.read_particle_data ComputeSpectra.read_particle_data nearIndices ComputeSpectra.particles_near_lines
  have e1 : (configFor o elem ion f m ln).lines = o.sightlines := rfl
  have e2 : (configFor o elem ion f m ln).box = o.box := rfl
  rw [e1, e2, gasOf_posh]
  split
  swap
  · rfl
  rw [hb, hb]
  generalize hind : near_lines o.box (seg.gas.map (fun g => (g.pos, g.h))) o.sightlines = ind
  have hlt : ∀ i ∈ ind, i < seg.gas.length := by
    intro i hi
    rw [← hind] at hi
    obtain ⟨-, p, h2, -⟩ := (mem_near_lines_sched _ _ _ _ _).1 hi
    have := (List.getElem?_eq_some_iff.1 h2).1
    simpa using this
  split
  · rfl
  have hmass : (if elem ≠ "Z" then get_mass elem else .ok 1 : Py ℝ) = .ok m := by
    unfold massOf at hm
    by_cases hz : elem = "Z"
    · rw [if_pos hz] at hm
      rw [if_neg (by simpa using hz)]
      simpa using hm
    · rw [if_neg hz] at hm
      rw [if_pos hz]
      unfold get_mass
      rw [hm]
  rw [hmass, hb]
  dsimp only
  rw [frac_eq hab hlt, hb, pairs_fst elem, pairs_snd elem seg ind hlt, pairs_raw, zipWith_maps]
  generalize pairs elem seg ind = ps
  have hdens : ∀ p : Gas × ℝ, ComputeSpectra.elemDen (configFor o elem ion f m ln) (withFrac p.1 p.2) = p.1.den * o.rscale * p.2 := fun _ => rfl
  have hsp : (configFor o elem ion f m ln).sp = speciesOf o.cloudy f elem ion := rfl
  have hzero : (ps.map Prod.fst).map (fun _ : Gas => (0 : ℝ)) = ps.map (fun _ => (0 : ℝ)) := by rw [List.map_map]; rfl
  have htemp : (ps.map Prod.fst).map (fun g : Gas => if g.temp ≤ 0 then (1 : ℝ) else g.temp) = ps.map (fun p => ComputeSpectra.fixTemp p.1.temp) := by
    rw [List.map_map]
    rfl
  rw [hsp, hzero, htemp]
  by_cases h1 : elem = "H" ∧ ion = 1
  · have e3 : speciesOf o.cloudy f elem ion = .HI := by unfold speciesOf; rw [if_pos h1]
    rw [if_pos h1, e3]
    have hrt : (get_tau || (decide (ion ≠ -1) && decide (elem ≠ "H"))) = get_tau := by simp [h1.1]
    rw [hrt, zipWith_maps, List.map_map]
    cases get_tau
    · simp only [Bool.false_eq_true, if_false]
      rw [mkParts_map]
      rfl
    · simp only [if_true]
      rw [mkParts_map]
      rfl
  rw [if_neg h1]
  by_cases h2 : ion = -1
  · have e3 : speciesOf o.cloudy f elem ion = .all := by unfold speciesOf; rw [if_neg h1, if_pos h2]
    rw [if_neg (not_not.2 h2), e3]
    have hrt : (get_tau || (decide (ion ≠ -1) && decide (elem ≠ "H"))) = get_tau := by simp [h2]
    rw [hrt]
    cases get_tau
    · simp only [Bool.false_eq_true, if_false]
      rw [mkParts_map, List.map_map]
      rfl
    · simp only [if_true]
      rw [mkParts_map, List.map_map]
      rfl
  rw [if_pos h2]
  have hion : o.cloudy.ion elem ion = .ok f := by
    rcases hf with h | h | h
    · exact absurd h h1
    · exact absurd h h2
    · exact h
  -- the rows that are kept, with their places
  rw [zip_maps]
  have hrows : (((ps.map (fun x => (x.1, x.1.den * o.rscale * x.2))).zipIdx).filter (fun r => decide (r.1.2 > 0))) =
      ((ps.zipIdx).filter (fun r => decide (r.1.1.den * o.rscale * r.1.2 > 0))).map
        (fun r => ((r.1.1, r.1.1.den * o.rscale * r.1.2), r.2)) := by
    rw [List.zipIdx_map, List.filter_map]
    rfl
  rw [hrows]
  have hkeep := zipIdx_filter_fst ps (fun p => decide (p.1.den * o.rscale * p.2 > 0)) 0
  have hmem : ∀ r ∈ (ps.zipIdx).filter (fun r => decide (r.1.1.den * o.rscale * r.1.2 > 0)), ps[r.2]? = some r.1 := by
    intro r hr
    have := (List.mem_filter.1 hr).1
    rw [List.mem_zipIdx_iff_getElem?] at this
    exact this
  generalize hK : (ps.zipIdx).filter (fun r => decide (r.1.1.den * o.rscale * r.1.2 > 0)) = K at *
  have lhs : ∀ (temps : List ℝ) (t : (Gas × ℝ) × ℕ → ℝ), (∀ r ∈ K, Np.get temps (r.2 : ℤ) = .ok (t r)) →
      (if (K.map (fun r => ((r.1.1, r.1.1.den * o.rscale * r.1.2), r.2))).isEmpty = true then pure none
        else do
          let temp ← (K.map (fun r => ((r.1.1, r.1.1.den * o.rscale * r.1.2), r.2))).mapM (fun r => Np.get temps (r.2 : ℤ))
          let fion ← get_elem_den o.cloudy elem ion
            ((K.map (fun r => ((r.1.1, r.1.1.den * o.rscale * r.1.2), r.2))).map (fun r => r.1.1.den)) temp
          pure (some (mkParts m ((K.map (fun r => ((r.1.1, r.1.1.den * o.rscale * r.1.2), r.2))).map (fun r => r.1.1))
            (List.zipWith (fun r x => r.1.2 * x) (K.map (fun r => ((r.1.1, r.1.1.den * o.rscale * r.1.2), r.2))) fion) temp, m)) :
        Py (Option (List Part × ℝ))) =
      if K.isEmpty then .ok none else .ok (some (K.map (fun r => (⟨r.1.1.pos, r.1.1.vel, r.1.1.den * o.rscale * r.1.2 *
        f (clamp o.cloudy.dlo o.cloudy.dhi r.1.1.den) (clamp o.cloudy.tlo o.cloudy.thi (t r)) / m, t r, r.1.1.h⟩ : Part)), m)) := by
    intro temps t ht
    rw [List.isEmpty_map]
    split
    · rfl
    rw [List.mapM_map, mapM_exact (g := t) (by intro r hr; exact ht r hr), hb]
    unfold get_elem_den
    rw [hion]
    simp only [hb, clampArr_eq hT, clampArr_eq hD, List.map_map, zipWith_maps]
    have hp : ∀ x : List ℝ, (pure x : Py (List ℝ)) = .ok x := fun _ => rfl
    rw [hp, hb, zipWith_maps]
    simp only [Function.comp_def]
    rw [mkParts_map]
    rfl
  have hsel : (ps.map (fun p => withFrac p.1 p.2)).filter
      (fun r => decide (0 < ComputeSpectra.elemDen (configFor o elem ion f m ln) r)) = K.map (fun r => withFrac r.1.1 r.1.2) := by
    rw [List.filter_map, show K.map (fun r => withFrac r.1.1 r.1.2) = (K.map Prod.fst).map (fun p => withFrac p.1 p.2) by rw [List.map_map]; rfl,
      hkeep]
    rfl
  have rhs : ∀ (t : (Gas × ℝ) × ℕ → ℝ), (∀ r ∈ K, t r = ComputeSpectra.fixTemp r.1.1.temp) →
      Except.map (Option.map (fun ps => (ps, m))) (if (K.map (fun r => withFrac r.1.1 r.1.2)).isEmpty = true then (.ok none : Py (Option (List Part)))
        else .ok (some ((K.map (fun r => withFrac r.1.1 r.1.2)).map (fun r => ComputeSpectra.toPart (configFor o elem ion f m ln) r
          (ComputeSpectra.elemDen (configFor o elem ion f m ln) r * f (clamp o.cloudy.dlo o.cloudy.dhi r.den)
            (clamp o.cloudy.tlo o.cloudy.thi (ComputeSpectra.fixTemp r.temp))) (ComputeSpectra.fixTemp r.temp))))) =
      if K.isEmpty then .ok none else .ok (some (K.map (fun r => (⟨r.1.1.pos, r.1.1.vel, r.1.1.den * o.rscale * r.1.2 *
        f (clamp o.cloudy.dlo o.cloudy.dhi r.1.1.den) (clamp o.cloudy.tlo o.cloudy.thi (t r)) / m, t r, r.1.1.h⟩ : Part)), m)) := by
    intro t ht
    rw [List.isEmpty_map]
    split
    · rfl
    · simp only [Except.map, Option.map_some, List.map_map]
      congr 3
      apply List.map_congr_left
      intro r hr
      rw [ht r hr]
      rfl
  have hget : ∀ r ∈ K, Np.get (ps.map (fun p => ComputeSpectra.fixTemp p.1.temp)) (r.2 : ℤ) = .ok (ComputeSpectra.fixTemp r.1.1.temp) := by
    intro r hr
    apply get_nat
    rw [List.getElem?_map, hmem r hr]
    rfl
  by_cases hH : elem = "H"
  · have e3 : speciesOf o.cloudy f elem ion = .Hion (fun d t => f (clamp o.cloudy.dlo o.cloudy.dhi d) (clamp o.cloudy.tlo o.cloudy.thi t)) := by
      unfold speciesOf
      rw [if_neg h1, if_neg h2, if_pos hH]
    have hrt : (get_tau || (decide (ion ≠ -1) && decide (elem ≠ "H"))) = get_tau := by simp [hH]
    rw [e3, hrt]
    cases hg : get_tau with
    | true =>
      simp only [if_true]
      rw [lhs _ _ hget, hsel, rhs _ (fun _ _ => rfl)]
    | false =>
      simp only [Bool.false_eq_true, if_false]
      have hsel2 : ((ps.map (fun p => withFrac p.1 p.2)).zipIdx).filter
          (fun r => decide (0 < ComputeSpectra.elemDen (configFor o elem ion f m ln) r.1)) = K.map (fun r => (withFrac r.1.1 r.1.2, r.2)) := by
        rw [List.zipIdx_map, List.filter_map, ← hK]
        rfl
      rw [hsel2, List.any_map]
      by_cases hany : (K.any ((fun r : ComputeSpectra.Raw × ℕ => decide (1 ≤ r.2)) ∘ fun r => (withFrac r.1.1 r.1.2, r.2))) = true
      · rw [if_pos hany]
        rw [List.any_eq_true] at hany
        obtain ⟨r, hr, h1r⟩ := hany
        have hne : K.isEmpty = false := by
          cases K with
          | nil => cases hr
          | cons _ _ => rfl
        rw [List.isEmpty_map, List.isEmpty_map, hne]
        simp only [Bool.false_eq_true, if_false]
        rw [List.mapM_map]
        have : ∀ (l : List ((Gas × ℝ) × ℕ)), (∃ r ∈ l, 1 ≤ r.2) → l.mapM (fun r => Np.get ([0] : List ℝ) (r.2 : ℤ)) = .error .indexError := by
          intro l
          induction l with
          | nil => rintro ⟨r, hr, _⟩; cases hr
          | cons x l ih =>
            rintro ⟨r, hr, h1⟩
            rw [List.mapM_cons]
            by_cases hx : 1 ≤ x.2
            · have : Np.get ([0] : List ℝ) (x.2 : ℤ) = .error .indexError := by
                unfold Np.get Np.index
                rw [if_neg (by simp; omega), if_neg (by omega)]
                rfl
              rw [this]
              rfl
            · have : Np.get ([0] : List ℝ) (x.2 : ℤ) = .ok 0 := by
                rw [show x.2 = 0 by omega]
                exact get_nat rfl
              rw [this, hb, ih (by
                rcases List.mem_cons.1 hr with rfl | hr
                · exact absurd h1 hx
                · exact ⟨r, hr, h1⟩)]
              rfl
        have h5 := this K ⟨r, hr, by simpa using h1r⟩
        have h6 : K.mapM ((fun r : (Gas × ℝ) × ℕ => Np.get ([0] : List ℝ) (r.2 : ℤ)) ∘ fun r => ((r.1.1, r.1.1.den * o.rscale * r.1.2), r.2)) =
          .error .indexError := h5
        rw [h6]
        rfl
      · rw [if_neg hany]
        have hz : ∀ r ∈ K, r.2 = 0 := by
          intro r hr
          by_contra h
          apply hany
          rw [List.any_eq_true]
          exact ⟨r, hr, by simp; omega⟩
        rw [lhs [0] (fun _ => 0) (by intro r hr; rw [hz r hr]; exact get_nat rfl), List.isEmpty_map]
        split
        · rfl
        · rw [List.map_map]
          rfl
  · have e3 : speciesOf o.cloudy f elem ion = .ion (fun d t => f (clamp o.cloudy.dlo o.cloudy.dhi d) (clamp o.cloudy.tlo o.cloudy.thi t)) := by
      unfold speciesOf
      rw [if_neg h1, if_neg h2, if_neg hH]
    have hrt : (get_tau || (decide (ion ≠ -1) && decide (elem ≠ "H"))) = true := by simp [hH, h2]
    rw [e3, hrt]
    simp only [if_true]
    rw [lhs _ _ hget, hsel, rhs _ (fun _ _ => rfl)]

/-! ### The line -/

/-- The line whose data are used, in words: for a column density that of Lyman alpha, whose data do not matter; for an optical depth in one
ion the line of this ion; for an optical depth of a whole element the line of the lowest ion, up to the eighth, with a line at this
wavelength. -/
def LineFor (o : Obj) (elem : String) (ion ll : ℤ) (get_tau : Bool) (ln : LineData.Line) : Prop :=
  if get_tau = false then o.table (['H'], 1, 1215) = some ln
  else if ion = -1 then ∃ i : ℕ, i < 8 ∧ o.table (elem.toList, (i : ℤ), ll) = some ln ∧ ∀ j : ℕ, j < i → o.table (elem.toList, (j : ℤ), ll) = none
  else o.table (elem.toList, ion, ll) = some ln

theorem tryIons_spec (table : LineData.Key → Option LineData.Line) (elem : String) (ll : ℤ) (ln : LineData.Line) :
    ∀ (n k : ℕ), tryIons table elem ll (List.range' k n) = some ln ↔
      ∃ i, k ≤ i ∧ i < k + n ∧ table (elem.toList, (i : ℤ), ll) = some ln ∧ ∀ j, k ≤ j → j < i → table (elem.toList, (j : ℤ), ll) = none := by
  intro n
  induction n with
  | zero =>
    intro k
    constructor
    · intro h
      cases h
    · rintro ⟨i, h1, h2, -⟩
      omega
  | succ n ih =>
    intro k
    rw [List.range'_succ, tryIons]
    cases hk : table (elem.toList, (k : ℤ), ll) with
    | some l =>
      constructor
      · intro h
        simp only [Option.some.injEq] at h
        subst h
        exact ⟨k, le_rfl, by omega, hk, fun j h1 h2 => by omega⟩
      · rintro ⟨i, h1, h2, h3, h4⟩
        rcases eq_or_lt_of_le h1 with rfl | h
        · rw [hk] at h3
          exact h3
        · rw [h4 k le_rfl h] at hk
          cases hk
    | none =>
      simp only
      rw [ih]
      constructor
      · rintro ⟨i, h1, h2, h3, h4⟩
        refine ⟨i, by omega, by omega, h3, fun j h5 h6 => ?_⟩
        rcases eq_or_lt_of_le h5 with rfl | h
        · exact hk
        · exact h4 j h h6
      · rintro ⟨i, h1, h2, h3, h4⟩
        refine ⟨i, ?_, by omega, h3, fun j h5 h6 => h4 j (by omega) h6⟩
        by_contra h
        have : i = k := by omega
        subst this
        rw [hk] at h3
        cases h3

theorem tryIons_none (table : LineData.Key → Option LineData.Line) (elem : String) (ll : ℤ)
    (h : ∀ i : ℕ, i < 8 → table (elem.toList, (i : ℤ), ll) = none) : tryIons table elem ll (List.range 8) = none := by
  cases hc : tryIons table elem ll (List.range 8) with
  | none => rfl
  | some ln =>
    rw [List.range_eq_range'] at hc
    obtain ⟨i, -, h2, h3, -⟩ := (tryIons_spec table elem ll ln 8 0).1 hc
    rw [h i (by omega)] at h3
    cases h3

theorem findLine_spec {o : Obj} {elem : String} {ion ll : ℤ} {get_tau : Bool} {ln : LineData.Line} (h : LineFor o elem ion ll get_tau ln) :
    findLine o elem ion ll get_tau = .ok ln := by
  unfold LineFor at h
  unfold findLine
  cases get_tau
  · simp only [if_true] at h
    simp only [Bool.false_eq_true, if_false]
    rw [h]
  · simp only [Bool.true_eq_false, if_false] at h
    simp only [if_true]
    split at h
    · rename_i hi
      rw [if_pos hi]
      have : tryIons o.table elem ll (List.range 8) = some ln := by
        rw [List.range_eq_range']
        obtain ⟨i, h1, h2, h3⟩ := h
        exact (tryIons_spec o.table elem ll ln 8 0).2 ⟨i, by omega, by omega, h2, fun j _ hj => h3 j hj⟩
      rw [this]
    · rename_i hi
      rw [if_neg hi, h]

/-! ### Queries that are answered -/

/-- An object and a snapshot which can answer for an element and an ion: its atomic mass is known, the table of ions has bounds in order and
answers if it is asked, and every segment has the abundance. -/
structure Answers (o : Obj) (elem : String) (ion : ℤ) (f : ℝ → ℝ → ℝ) (m : ℝ) (segs : List Seg) : Prop where
  mass : massOf elem = some m
  temp : o.cloudy.tlo ≤ o.cloudy.thi
  dens : o.cloudy.dlo ≤ o.cloudy.dhi
  table : TableAnswers o elem ion f
  abundance : ∀ seg ∈ segs, HasAbundance seg.blocks elem seg.gas.length

theorem single_eq {o : Obj} {elem : String} {ion ll : ℤ} {f : ℝ → ℝ → ℝ} {m : ℝ} {get_tau : Bool} {ln : LineData.Line} {segs : List Seg}
    (h : Answers o elem ion f m segs) (hl : LineFor o elem ion ll get_tau ln) {seg : Seg} (hs : seg ∈ segs) :
    SpeciesQuery.interpolate_single_file o elem ion ll get_tau seg =
      ComputeSpectra.interpolate_single_file (configFor o elem ion f m ln) get_tau (gasOf elem seg) := by
  unfold SpeciesQuery.interpolate_single_file ComputeSpectra.interpolate_single_file
  rw [read_eq ln h.mass h.temp h.dens h.table get_tau seg (h.abundance seg hs), findLine_spec hl]
  cases ComputeSpectra.read_particle_data (configFor o elem ion f m ln) get_tau (gasOf elem seg) with
  | error e => rfl
  | ok r =>
    cases r with
    | none => rfl
    | some ps => rfl

/-- C113. A query for an element, an ion and a line is the spectrum of the gas with the abundance and the atomic mass of the element, the
fraction of it in this ion, and the wavelength, oscillator strength and damping constant of the line. -/
theorem query_spectrum {o : Obj} {elem : String} {ion ll : ℤ} {f : ℝ → ℝ → ℝ} {m : ℝ} {get_tau : Bool} {ln : LineData.Line} {segs : List Seg}
    (h : Answers o elem ion f m segs) (hl : LineFor o elem ion ll get_tau ln) :
    SpeciesQuery.compute_spectra o elem ion ll get_tau segs =
      ComputeSpectra.compute_spectra (configFor o elem ion f m ln) get_tau (segs.map (gasOf elem)) := by
  have hadd : ∀ (ss : List Seg) (a : List ℝ), (∀ s ∈ ss, s ∈ segs) → SpeciesQuery.addSegments o elem ion ll get_tau a ss =
      ComputeSpectra.addSegments (configFor o elem ion f m ln) get_tau a (ss.map (gasOf elem)) := by
    intro ss
    induction ss with
    | nil => intro a _; rfl
    | cons s ss ih =>
      intro a hss
      rw [List.map_cons, SpeciesQuery.addSegments, ComputeSpectra.addSegments, single_eq h hl (hss s (by simp))]
      cases ComputeSpectra.interpolate_single_file (configFor o elem ion f m ln) get_tau (gasOf elem s) with
      | value t => exact ih _ (fun x hx => hss x (by simp [hx]))
      | raised e => rfl
      | crashed e => rfl
  cases segs with
  | nil => rfl
  | cons s ss =>
    rw [List.map_cons, SpeciesQuery.compute_spectra, ComputeSpectra.compute_spectra, single_eq h hl (by simp)]
    cases ComputeSpectra.interpolate_single_file (configFor o elem ion f m ln) get_tau (gasOf elem s) with
    | value t => exact hadd ss _ (fun x hx => by simp [hx])
    | raised e => rfl
    | crashed e => rfl

theorem loadRest_eq {o : Obj} {elem : String} {ion : ℤ} {f : ℝ → ℝ → ℝ} {m : ℝ} (get_tau : Bool) (ln : LineData.Line) {segs : List Seg}
    (h : Answers o elem ion f m segs) : ∀ (ss : List Seg) (acc : Option (List Part)), (∀ s ∈ ss, s ∈ segs) →
      SpeciesQuery.loadRest o elem ion get_tau (acc.map (fun ps => (ps, m))) ss =
        (ComputeSpectra.loadRest (configFor o elem ion f m ln) get_tau acc (ss.map (gasOf elem))).map (Option.map (fun ps => (ps, m))) := by
  have hb : ∀ {α β : Type} (x : α) (k : α → Py β), (Except.ok x >>= k) = k x := fun _ _ => rfl
  intro ss
  induction ss with
  | nil => intro acc _; rfl
  | cons s ss ih =>
    intro acc hss
    rw [List.map_cons, SpeciesQuery.loadRest, ComputeSpectra.loadRest,
      read_eq ln h.mass h.temp h.dens h.table get_tau s (h.abundance s (hss s (by simp)))]
    cases ComputeSpectra.read_particle_data (configFor o elem ion f m ln) get_tau (gasOf elem s) with
    | error e => rfl
    | ok r =>
      have hr : (Except.ok r : Py (Option (List Part))).map (Option.map (fun ps => (ps, m))) = .ok (r.map (fun ps => (ps, m))) := rfl
      rw [hr, hb, hb]
      cases r with
      | none => exact ih acc (fun x hx => hss x (by simp [hx]))
      | some ps =>
        cases acc with
        | none => exact ih (some ps) (fun x hx => hss x (by simp [hx]))
        | some qs => exact ih (some (qs ++ ps)) (fun x hx => hss x (by simp [hx]))

/-- C113, for the Voronoi mesh. -/
theorem query_mesh {o : Obj} {elem : String} {ion ll : ℤ} {f : ℝ → ℝ → ℝ} {m : ℝ} {get_tau : Bool} {ln : LineData.Line} {segs : List Seg}
    (h : Answers o elem ion f m segs) (hl : LineFor o elem ion ll get_tau ln) :
    SpeciesQuery.compute_spectra_mesh o elem ion ll get_tau segs =
      ComputeSpectra.compute_spectra_mesh (configFor o elem ion f m ln) get_tau (segs.map (gasOf elem)) := by
  have hb : ∀ {α β : Type} (x : α) (k : α → Py β), (Except.ok x >>= k) = k x := fun _ _ => rfl
  cases segs with
  | nil => rfl
  | cons s ss =>
    rw [List.map_cons, SpeciesQuery.compute_spectra_mesh, ComputeSpectra.compute_spectra_mesh,
      read_eq ln h.mass h.temp h.dens h.table get_tau s (h.abundance s (by simp)), findLine_spec hl]
    cases ComputeSpectra.read_particle_data (configFor o elem ion f m ln) get_tau (gasOf elem s) with
    | error e => rfl
    | ok r =>
      have hr : (Except.ok r : Py (Option (List Part))).map (Option.map (fun ps => (ps, m))) = .ok (r.map (fun ps => (ps, m))) := rfl
      rw [hr, hb, hb, loadRest_eq get_tau ln h ss r (fun x hx => by simp [hx])]
      cases ComputeSpectra.loadRest (configFor o elem ion f m ln) get_tau r (ss.map (gasOf elem)) with
      | error e => rfl
      | ok r' =>
        cases r' with
        | none => rfl
        | some ps => rfl

/-- C113, on any number of processes. -/
theorem query_ranks {o : Obj} {elem : String} {ion ll : ℤ} {f : ℝ → ℝ → ℝ} {m : ℝ} {get_tau : Bool} {ln : LineData.Line}
    {ranks : List (List Seg)} (h : ∀ segs ∈ ranks, Answers o elem ion f m segs) (hl : LineFor o elem ion ll get_tau ln) :
    overRanks o (SpeciesQuery.compute_spectra o elem ion ll get_tau) ranks =
      ComputeSpectra.compute_spectra_mpi (configFor o elem ion f m ln) get_tau (ranks.map (List.map (gasOf elem))) ∧
    overRanks o (SpeciesQuery.compute_spectra_mesh o elem ion ll get_tau) ranks =
      ComputeSpectra.compute_spectra_mesh_mpi (configFor o elem ion f m ln) get_tau (ranks.map (List.map (gasOf elem))) := by
  induction ranks with
  | nil => exact ⟨rfl, rfl⟩
  | cons r rs ih =>
    obtain ⟨h1, h2⟩ := ih (fun x hx => h x (by simp [hx]))
    constructor
    · rw [List.map_cons, overRanks, ComputeSpectra.compute_spectra_mpi, query_spectrum (h r (by simp)) hl, h1]
      cases ComputeSpectra.compute_spectra (configFor o elem ion f m ln) get_tau (r.map (gasOf elem)) <;>
        cases ComputeSpectra.compute_spectra_mpi (configFor o elem ion f m ln) get_tau (rs.map (List.map (gasOf elem))) <;> rfl
    · rw [List.map_cons, overRanks, ComputeSpectra.compute_spectra_mesh_mpi, query_mesh (h r (by simp)) hl, h2]
      cases ComputeSpectra.compute_spectra_mesh (configFor o elem ion f m ln) get_tau (r.map (gasOf elem)) <;>
        cases ComputeSpectra.compute_spectra_mesh_mpi (configFor o elem ion f m ln) get_tau (rs.map (List.map (gasOf elem))) <;> rfl

/-! ### Queries that are refused -/

/-- Sightlines run along coordinate axes. -/
def AxesGood (o : Obj) : Prop := ∀ l ∈ o.sightlines, l.axis = 1 ∨ l.axis = 2 ∨ l.axis = 3

/-- No particle of the segment is near a sightline. -/
def NoneNear (o : Obj) (seg : Seg) : Prop := near_lines o.box (seg.gas.map (fun g => (g.pos, g.h))) o.sightlines = []

/-- An array of zeros for each pixel of each sightline. -/
def nothing (o : Obj) : List ℝ := List.replicate (o.sightlines.length * o.nbins) 0

theorem nearIndices_eq {o : Obj} (ha : AxesGood o) (gas : List Gas) :
    nearIndices o gas = .ok (near_lines o.box (gas.map (fun g => (g.pos, g.h))) o.sightlines) := by
  unfold nearIndices
  rw [if_pos]
  rw [List.all_eq_true]
  intro l hl
  rcases ha l hl with h | h | h <;> rw [h] <;> decide

theorem addArr_nothing (o : Obj) : ComputeSpectra.addArr (nothing o) (nothing o) = nothing o := by
  unfold ComputeSpectra.addArr nothing
  rw [List.zipWith_replicate]
  simp

open Classical in
theorem compute_refused {o : Obj} {elem : String} {ion ll : ℤ} {get_tau : Bool} {e : PyErr} (P : Seg → Prop) {segs : List Seg} (hne : segs ≠ [])
    (h : ∀ seg ∈ segs, SpeciesQuery.interpolate_single_file o elem ion ll get_tau seg = if P seg then .value (nothing o) else .raised e) :
    SpeciesQuery.compute_spectra o elem ion ll get_tau segs = if ∀ seg ∈ segs, P seg then .value (nothing o) else .raised e := by
  have hadd : ∀ ss : List Seg, (∀ s ∈ ss, s ∈ segs) → SpeciesQuery.addSegments o elem ion ll get_tau (nothing o) ss =
      if ∀ seg ∈ ss, P seg then .value (nothing o) else .raised e := by
    intro ss
    induction ss with
    | nil => intro _; simp [SpeciesQuery.addSegments]
    | cons s ss ih =>
      intro hss
      rw [SpeciesQuery.addSegments, h s (hss s (by simp))]
      by_cases hp : P s
      · rw [if_pos hp]
        simp only
        rw [addArr_nothing, ih (fun x hx => hss x (by simp [hx]))]
        simp [hp]
      · rw [if_neg hp]
        simp [hp]
  cases segs with
  | nil => exact absurd rfl hne
  | cons s ss =>
    rw [SpeciesQuery.compute_spectra, h s (by simp)]
    by_cases hp : P s
    · rw [if_pos hp]
      simp only
      rw [hadd ss (fun x hx => by simp [hx])]
      simp [hp]
    · rw [if_neg hp]
      simp [hp]

/-- The standard atomic weights (IUPAC, abridged to five figures) of the elements for which spectra can be made. -/
noncomputable def standardWeights : List (String × ℝ) :=
  [("H", 1.0080), ("He", 4.0026), ("C", 12.011), ("N", 14.007), ("O", 15.999), ("Ne", 20.180), ("Mg", 24.305), ("Si", 28.085),
    ("Fe", 55.845)]

/-- C113. The atomic mass used for an element is its standard atomic weight to one part in 10^4, and no other element has one. -/
theorem standard_weights :
    (∀ e w, (e, w) ∈ standardWeights → ∃ m, massOf e = some m ∧ |m - w| ≤ w / 10 ^ 4) ∧
    (∀ e, massOf e ≠ none → e = "Z" ∨ ∃ w, (e, w) ∈ standardWeights) := by
  constructor
  · intro e w h
    simp only [standardWeights, List.mem_cons, Prod.mk.injEq, List.not_mem_nil, or_false] at h
    rcases h with ⟨rfl, rfl⟩ | ⟨rfl, rfl⟩ | ⟨rfl, rfl⟩ | ⟨rfl, rfl⟩ | ⟨rfl, rfl⟩ | ⟨rfl, rfl⟩ | ⟨rfl, rfl⟩ | ⟨rfl, rfl⟩ | ⟨rfl, rfl⟩ <;>
      refine ⟨_, rfl, ?_⟩ <;> rw [abs_le] <;> constructor <;> norm_num
  · intro e h
    unfold massOf at h
    split at h
    · left; assumption
    · right
      unfold masses at h
      split at h <;> first | exact ⟨_, by simp only [standardWeights, List.mem_cons, Prod.mk.injEq]; simp; rfl⟩ | exact absurd rfl h

open Classical in
/-- C113. An element without atomic mass, that is one which is neither in the table of masses nor the name for all metals, is refused with
`KeyError` as soon as a particle is near a sightline. If there is none the query is answered with zeros. -/
theorem unknown_element {o : Obj} (ha : AxesGood o) {elem : String} (hm : massOf elem = none) (ion ll : ℤ) (get_tau : Bool) {segs : List Seg}
    (hne : segs ≠ []) : SpeciesQuery.compute_spectra o elem ion ll get_tau segs =
      if ∀ seg ∈ segs, NoneNear o seg then .value (nothing o) else .raised .keyError := by
  apply compute_refused _ hne
  intro seg _
  unfold SpeciesQuery.interpolate_single_file SpeciesQuery.read_particle_data
  rw [nearIndices_eq ha]
  simp only [bind, Except.bind]
  unfold NoneNear
  cases hn : near_lines o.box (seg.gas.map (fun g => (g.pos, g.h))) o.sightlines with
  | nil => simp [nothing, pure, Except.pure]
  | cons a l =>
    unfold massOf at hm
    split at hm
    · cases hm
    · rename_i hz
      simp only [List.isEmpty_cons, Bool.false_eq_true, if_false, ne_eq, hz, not_false_eq_true, if_true, get_mass, hm, reduceCtorEq]

open Classical in
/-- C113. An abundance which the snapshot does not have: the query ends with the error of the abundance as soon as a particle is near a
sightline. -/
theorem unknown_abundance {o : Obj} (ha : AxesGood o) {elem : String} {m : ℝ} (hm : massOf elem = some m) {e : PyErr} (ion ll : ℤ) (get_tau : Bool)
    {segs : List Seg} (hne : segs ≠ []) (hb : ∀ seg ∈ segs, ∀ ind, get_mass_frac seg.blocks elem ind = .error e) :
    SpeciesQuery.compute_spectra o elem ion ll get_tau segs =
      if ∀ seg ∈ segs, NoneNear o seg then .value (nothing o) else .raised e := by
  apply compute_refused _ hne
  intro seg hs
  unfold SpeciesQuery.interpolate_single_file SpeciesQuery.read_particle_data
  rw [nearIndices_eq ha]
  simp only [bind, Except.bind]
  unfold NoneNear
  cases hn : near_lines o.box (seg.gas.map (fun g => (g.pos, g.h))) o.sightlines with
  | nil => simp [nothing, pure, Except.pure]
  | cons a l =>
    have hmass : (if elem ≠ "Z" then get_mass elem else .ok 1 : Py ℝ) = .ok m := by
      unfold massOf at hm
      by_cases hz : elem = "Z"
      · rw [if_pos hz] at hm
        rw [if_neg (by simpa using hz)]
        simpa using hm
      · rw [if_neg hz] at hm
        rw [if_pos hz]
        unfold get_mass
        rw [hm]
    simp only [List.isEmpty_cons, Bool.false_eq_true, if_false]
    rw [hmass]
    simp only [hb seg hs, reduceCtorEq, if_false]

open Classical in
/-- C113. In a snapshot without a table of abundances an element heavier than helium is refused with `IndexError`. -/
theorem heavy_element_refused {o : Obj} (ha : AxesGood o) {elem : String} {j : ℕ} (hj : column elem = some j) (h2 : 2 ≤ j) (ion ll : ℤ)
    (get_tau : Bool) {segs : List Seg} (hne : segs ≠ []) (hb : ∀ seg ∈ segs, seg.blocks.gfm = none) :
    SpeciesQuery.compute_spectra o elem ion ll get_tau segs =
      if ∀ seg ∈ segs, NoneNear o seg then .value (nothing o) else .raised .indexError := by
  have hm : ∃ m, massOf elem = some m := by
    unfold column at hj
    split at hj <;> first | (cases hj; done) | exact ⟨_, rfl⟩
  obtain ⟨m, hm⟩ := hm
  exact unknown_abundance ha hm ion ll get_tau hne (fun seg hs ind => mass_frac_heavy_fails (hb seg hs) hj h2 ind)

/-- A particle of the segment which takes part: it is near a sightline, and, for an ion that is not neutral hydrogen, there is some of the
element in it. -/
def TakesPart (o : Obj) (elem : String) (ion : ℤ) (seg : Seg) : Prop :=
  ∃ (i : ℕ) (g : Gas), seg.gas[i]? = some g ∧ get_near_lines (build o.sightlines o.box) g.pos g.h ≠ [] ∧
    ((elem = "H" ∧ ion = 1) ∨ ion = -1 ∨ 0 < g.den * o.rscale * abundance seg.blocks elem i)

theorem partsOf_ne_nil {o : Obj} {elem : String} {ion : ℤ} {f : ℝ → ℝ → ℝ} {m : ℝ} {ln : LineData.Line} (get_tau : Bool) (seg : Seg) :
    ComputeSpectra.partsOf (configFor o elem ion f m ln) get_tau (gasOf elem seg) ≠ [] ↔ TakesPart o elem ion seg := by
  classical
  unfold ComputeSpectra.partsOf TakesPart
  rw [ne_eq, List.filterMap_eq_nil_iff]
  push Not
  have hprep : ∀ g x, ComputeSpectra.prep (configFor o elem ion f m ln) get_tau (withFrac g x) ≠ none ↔
      ((elem = "H" ∧ ion = 1) ∨ ion = -1 ∨ 0 < g.den * o.rscale * x) := by
    intro g x
    unfold ComputeSpectra.prep
    have hsp : (configFor o elem ion f m ln).sp = speciesOf o.cloudy f elem ion := rfl
    have hd : ComputeSpectra.elemDen (configFor o elem ion f m ln) (withFrac g x) = g.den * o.rscale * x := rfl
    rw [hsp, hd]
    unfold speciesOf
    by_cases h1 : elem = "H" ∧ ion = 1
    · rw [if_pos h1]
      simp [h1]
    · rw [if_neg h1]
      by_cases h2 : ion = -1
      · rw [if_pos h2]
        simp [h2]
      · rw [if_neg h2]
        by_cases h3 : elem = "H"
        · rw [if_pos h3]
          simp only [h1, h2, false_or]
          split <;> simp_all
        · rw [if_neg h3]
          simp only [h1, h2, false_or]
          split <;> simp_all
  constructor
  · rintro ⟨r, hr, hp⟩
    obtain ⟨hr1, hr2⟩ := List.mem_filter.1 hr
    obtain ⟨i, hi⟩ := List.mem_iff_getElem?.1 hr1
    rw [gasOf_getElem?, Option.map_eq_some_iff] at hi
    obtain ⟨g, hg, rfl⟩ := hi
    have hn : ComputeSpectra.Near (configFor o elem ion f m ln) (withFrac g (abundance seg.blocks elem i)) := by simpa using hr2
    exact ⟨i, g, hg, hn, (hprep _ _).1 hp⟩
  · rintro ⟨i, g, hg, hn, hp⟩
    have hn : ComputeSpectra.Near (configFor o elem ion f m ln) (withFrac g (abundance seg.blocks elem i)) := hn
    refine ⟨withFrac g (abundance seg.blocks elem i), List.mem_filter.2 ⟨?_, by simpa using hn⟩, (hprep _ _).2 hp⟩
    apply List.mem_iff_getElem?.2
    exact ⟨i, by rw [gasOf_getElem?, hg]; rfl⟩

open Classical in
theorem single_refused {o : Obj} (ha : AxesGood o) {elem : String} {ion ll : ℤ} {f : ℝ → ℝ → ℝ} {m : ℝ} {segs : List Seg}
    (h : Answers o elem ion f m segs) {e : PyErr} (hl : findLine o elem ion ll true = .error e) {seg : Seg} (hs : seg ∈ segs) :
    SpeciesQuery.interpolate_single_file o elem ion ll true seg = if ¬ TakesPart o elem ion seg then .value (nothing o) else .raised e := by
  have hT : ComputeSpectra.TempRead true (configFor o elem ion f m ⟨0, 0, 0⟩).sp := by
    cases (configFor o elem ion f m ⟨0, 0, 0⟩).sp <;> trivial
  have hax : ComputeSpectra.GoodAxes (configFor o elem ion f m ⟨0, 0, 0⟩) := ha
  unfold SpeciesQuery.interpolate_single_file
  rw [read_eq ⟨0, 0, 0⟩ h.mass h.temp h.dens h.table true seg (h.abundance seg hs), hl]
  obtain ⟨r, hr, hcase⟩ := ComputeSpectra.read_particle_data_eq hax true hT (gasOf elem seg)
  rw [hr]
  have hp := partsOf_ne_nil (o := o) (elem := elem) (ion := ion) (f := f) (m := m) (ln := ⟨0, 0, 0⟩) true seg
  unfold ComputeSpectra.partsOf at hp
  rcases hcase with ⟨rfl, h0⟩ | ⟨rfl, h0⟩
  · rw [if_pos (fun ht => (hp.2 ht) h0)]
    rfl
  · rw [if_neg (not_not.2 (hp.1 h0))]
    rfl

open Classical in
/-- C113. A line that is not in the table is refused with `KeyError` as soon as a particle takes part. If none does the query is answered with
zeros. -/
theorem unknown_line {o : Obj} (ha : AxesGood o) {elem : String} {ion ll : ℤ} {f : ℝ → ℝ → ℝ} {m : ℝ} {segs : List Seg} (hne : segs ≠ [])
    (h : Answers o elem ion f m segs) (hi : ion ≠ -1) (hl : o.table (elem.toList, ion, ll) = none) :
    SpeciesQuery.compute_spectra o elem ion ll true segs =
      if ∃ seg ∈ segs, TakesPart o elem ion seg then .raised .keyError else .value (nothing o) := by
  have hf : findLine o elem ion ll true = .error .keyError := by
    unfold findLine
    simp only [if_true]
    rw [if_neg hi, hl]
  rw [compute_refused (fun seg => ¬ TakesPart o elem ion seg) hne (fun seg hs => by rw [single_refused ha h hf hs]; congr)]
  by_cases hc : ∃ seg ∈ segs, TakesPart o elem ion seg
  · rw [if_pos hc, if_neg (by push Not; exact hc)]
  · rw [if_neg hc, if_pos (by push Not at hc; exact hc)]

open Classical in
/-- C113 is false of a whole element and a line of its eighth or a higher ion: the query fails with `UnboundLocalError` as soon as a particle
is near a sightline, although the line is in the table. -/
theorem high_ion_line_fails {o : Obj} (ha : AxesGood o) {elem : String} {ll : ℤ} {f : ℝ → ℝ → ℝ} {m : ℝ} {segs : List Seg} (hne : segs ≠ [])
    (h : Answers o elem (-1) f m segs) (hl : ∀ i : ℕ, i < 8 → o.table (elem.toList, (i : ℤ), ll) = none) :
    SpeciesQuery.compute_spectra o elem (-1) ll true segs =
      if ∃ seg ∈ segs, TakesPart o elem (-1) seg then .raised .unboundLocalError else .value (nothing o) := by
  have hf : findLine o elem (-1) ll true = .error .unboundLocalError := by
    unfold findLine
    simp only [if_true]
    rw [tryIons_none _ _ _ hl]
  rw [compute_refused (fun seg => ¬ TakesPart o elem (-1) seg) hne (fun seg hs => by rw [single_refused ha h hf hs]; congr)]
  by_cases hc : ∃ seg ∈ segs, TakesPart o elem (-1) seg
  · rw [if_pos hc, if_neg (by push Not; exact hc)]
  · rw [if_neg hc, if_pos (by push Not at hc; exact hc)]

/-! ### Self-shielding -/

/-- The table of lines without damping. -/
def undamped (t : LineData.Key → Option LineData.Line) (k : LineData.Key) : Option LineData.Line := (t k).map (fun ln => ⟨ln.lambda, ln.fosc, 0⟩)

/-- C113. Turning off self-shielding does nothing but to take the damping constants of the lines to be 0. -/
theorem selfshield_switch (o : Obj) (elem : String) (ion ll : ℤ) (get_tau : Bool) (segs : List Seg) :
    SpeciesQuery.compute_spectra { o with turn_off_selfshield := true } elem ion ll get_tau segs =
      SpeciesQuery.compute_spectra { o with turn_off_selfshield := false, table := undamped o.table } elem ion ll get_tau segs := by
  have htry : ∀ l : List ℕ, tryIons (undamped o.table) elem ll l = (tryIons o.table elem ll l).map (fun ln => ⟨ln.lambda, ln.fosc, 0⟩) := by
    intro l
    induction l with
    | nil => rfl
    | cons i l ih =>
      rw [tryIons, tryIons]
      unfold undamped at ih ⊢
      cases o.table (elem.toList, (i : ℤ), ll) with
      | none => exact ih
      | some ln => rfl
  have hfind : findLine { o with turn_off_selfshield := false, table := undamped o.table } elem ion ll get_tau =
      (findLine { o with turn_off_selfshield := true } elem ion ll get_tau).map (fun ln => ⟨ln.lambda, ln.fosc, 0⟩) := by
    unfold findLine
    dsimp only
    split
    · split
      · rw [htry]
        cases tryIons o.table elem ll (List.range 8) <;> rfl
      · unfold undamped
        cases o.table (elem.toList, ion, ll) <;> rfl
    · unfold undamped
      cases o.table (['H'], 1, 1215) <;> rfl
  have hread : ∀ seg, SpeciesQuery.read_particle_data { o with turn_off_selfshield := false, table := undamped o.table } elem ion get_tau seg =
      SpeciesQuery.read_particle_data { o with turn_off_selfshield := true } elem ion get_tau seg := fun _ => rfl
  have hs : ∀ seg, SpeciesQuery.interpolate_single_file { o with turn_off_selfshield := true } elem ion ll get_tau seg =
      SpeciesQuery.interpolate_single_file { o with turn_off_selfshield := false, table := undamped o.table } elem ion ll get_tau seg := by
    intro seg
    unfold SpeciesQuery.interpolate_single_file
    rw [hread, hfind]
    cases SpeciesQuery.read_particle_data { o with turn_off_selfshield := true } elem ion get_tau seg with
    | error e => rfl
    | ok r =>
      cases r with
      | none => rfl
      | some p =>
        obtain ⟨ps, m⟩ := p
        cases findLine { o with turn_off_selfshield := true } elem ion ll get_tau with
        | error e => rfl
        | ok ln => rfl
  have hadd : ∀ (ss : List Seg) (a : List ℝ), SpeciesQuery.addSegments { o with turn_off_selfshield := true } elem ion ll get_tau a ss =
      SpeciesQuery.addSegments { o with turn_off_selfshield := false, table := undamped o.table } elem ion ll get_tau a ss := by
    intro ss
    induction ss with
    | nil => intro a; rfl
    | cons s ss ih =>
      intro a
      rw [SpeciesQuery.addSegments, SpeciesQuery.addSegments, hs]
      cases SpeciesQuery.interpolate_single_file { o with turn_off_selfshield := false, table := undamped o.table } elem ion ll get_tau s with
      | value t => exact ih _
      | raised e => rfl
      | crashed e => rfl
  cases segs with
  | nil => rfl
  | cons s ss =>
    rw [SpeciesQuery.compute_spectra, SpeciesQuery.compute_spectra, hs]
    cases SpeciesQuery.interpolate_single_file { o with turn_off_selfshield := false, table := undamped o.table } elem ion ll get_tau s with
    | value t => exact hadd ss _
    | raised e => rfl
    | crashed e => rfl

theorem colden_args (o : Obj) (m : ℝ) (ln ln' : LineData.Line) (b : Bool) (parts : List Part) (out : List ℝ) :
    compute_colden (lineArgs { o with turn_off_selfshield := b } m ln) o.nbins o.box o.sightlines parts out =
      compute_colden (lineArgs o m ln') o.nbins o.box o.sightlines parts out := rfl

/-- C113 is false of column densities: turning off self-shielding changes none of them, that of neutral hydrogen included. -/
theorem selfshield_colden (o : Obj) (elem : String) (ion ll ll' : ℤ) (b : Bool) (segs : List Seg) :
    SpeciesQuery.compute_spectra { o with turn_off_selfshield := b } elem ion ll false segs =
      SpeciesQuery.compute_spectra o elem ion ll' false segs := by
  have hs : ∀ seg, SpeciesQuery.interpolate_single_file { o with turn_off_selfshield := b } elem ion ll false seg =
      SpeciesQuery.interpolate_single_file o elem ion ll' false seg := by
    intro seg
    unfold SpeciesQuery.interpolate_single_file
    have hr : SpeciesQuery.read_particle_data { o with turn_off_selfshield := b } elem ion false seg =
      SpeciesQuery.read_particle_data o elem ion false seg := rfl
    have hf : findLine { o with turn_off_selfshield := b } elem ion ll false = findLine o elem ion ll' false := rfl
    rw [hr, hf]
    cases SpeciesQuery.read_particle_data o elem ion false seg with
    | error e => rfl
    | ok r =>
      cases r with
      | none => rfl
      | some p =>
        obtain ⟨ps, m⟩ := p
        cases findLine o elem ion ll' false with
        | error e => rfl
        | ok ln =>
          simp only [Bool.false_eq_true, if_false]
          rw [colden_args o m ln ln b]
  have hadd : ∀ (ss : List Seg) (a : List ℝ), SpeciesQuery.addSegments { o with turn_off_selfshield := b } elem ion ll false a ss =
      SpeciesQuery.addSegments o elem ion ll' false a ss := by
    intro ss
    induction ss with
    | nil => intro a; rfl
    | cons s ss ih =>
      intro a
      rw [SpeciesQuery.addSegments, SpeciesQuery.addSegments, hs]
      cases SpeciesQuery.interpolate_single_file o elem ion ll' false s with
      | value t => exact ih _
      | raised e => rfl
      | crashed e => rfl
  cases segs with
  | nil => rfl
  | cons s ss =>
    rw [SpeciesQuery.compute_spectra, SpeciesQuery.compute_spectra, hs]
    cases SpeciesQuery.interpolate_single_file o elem ion ll' false s with
    | value t => exact hadd ss _
    | raised e => rfl
    | crashed e => rfl

/-! ### Neon -/

open LineData in
theorem neon_species : ∀ row ∈ neon, find_species row.toList = .ok (['N', 'e'], 8) := by decide +kernel

open LineData in
set_option maxRecDepth 100000 in
theorem neon_numbers : neon.map (fun row => ((splitWs row.toList).filterMap decParse).take 3) =
    [[(780324, -3), (50500, -6), (1000, 5)], [(770409, -3), (103000, -6), (1000, 5)]] := by decide +kernel

open LineData in
/-- The lines of neon of the shipped table: the one at 770 angstrom belongs to the eighth ion, and to no lower one. Here `rows` is any file
whose rows for neon are those of the shipped one. -/
theorem neon_line {rows : List (List Char)} {t : Key → Option LineData.Line} (h : read_vpfit decFloat LineData.species rows = .ok t)
    (hrows : ∀ ion, rows.filter (fun r => decide (find_species r = .ok (['N', 'e'], ion))) =
      (neon.map String.toList).filter (fun r => decide (find_species r = .ok (['N', 'e'], ion)))) :
    t (['N', 'e'], 8, 770) = some (⟨770.409, 0.103, 1e8⟩ : LineData.Line) ∧ ∀ i : ℕ, i < 8 → t (['N', 'e'], (i : ℤ), 770) = none := by
  have hall : ∀ r ∈ neon.map String.toList, find_species r = .ok (['N', 'e'], 8) := by
    intro r hr
    obtain ⟨row, hrow, rfl⟩ := List.mem_map.1 hr
    exact neon_species row hrow
  constructor
  · obtain ⟨t', ht, htt⟩ := read_filter decFloat LineData.species ['N', 'e'] 8 rows h
    rw [hrows, List.filter_eq_self.2 (fun r hr => decide_eq_true (hall r hr))] at ht
    rw [htt]
    refine (Props.LineData.table_spec _ _ _ _ ht _ _).2 ⟨1, "NeVIII 770.409 0.103000  1.000e8  VBT".toList, rfl, ?_, ?_⟩
    · refine ⟨hall _ (by simp [neon]), by simp [LineData.species], ?_, ?_⟩
      · rw [Props.LineData.parse_spec, filterMap_decFloat, ← List.map_take]
        have : ((splitWs "NeVIII 770.409 0.103000  1.000e8  VBT".toList).filterMap decParse).take 3 =
            [(770409, -3), (103000, -6), (1000, 5)] := by
          have := congrArg (fun l => l[1]?) neon_numbers
          simpa [neon] using this
        rw [this]
        norm_num [decVal]
      · norm_num [Construct.trunc]
    · intro j row' ln' hj hr
      have := (List.getElem?_eq_some_iff.1 hr).1
      simp [neon] at this
      omega
  · intro i hi
    cases hc : t (['N', 'e'], (i : ℤ), 770) with
    | none => rfl
    | some ln =>
      obtain ⟨j, row, hj, he, -⟩ := (Props.LineData.table_spec _ _ _ _ h _ _).1 hc
      have hm : row ∈ rows.filter (fun r => decide (find_species r = .ok (['N', 'e'], (i : ℤ)))) :=
        List.mem_filter.2 ⟨List.mem_of_getElem? hj, decide_eq_true he.1⟩
      rw [hrows] at hm
      obtain ⟨h1, h2⟩ := List.mem_filter.1 hm
      have h3 := of_decide_eq_true h2
      rw [hall row h1] at h3
      simp only [Except.ok.injEq, Prod.mk.injEq] at h3
      omega

open Classical in
open LineData in
/-- With the shipped table the optical depth of neon at 770 angstrom cannot be had for the whole element. -/
theorem neon_query_fails {o : Obj} (ha : AxesGood o) {f : ℝ → ℝ → ℝ} {m : ℝ} {segs : List Seg} (hne : segs ≠ []) (h : Answers o "Ne" (-1) f m segs)
    {rows : List (List Char)} (ht : read_vpfit decFloat LineData.species rows = .ok o.table)
    (hrows : ∀ ion, rows.filter (fun r => decide (find_species r = .ok (['N', 'e'], ion))) =
      (neon.map String.toList).filter (fun r => decide (find_species r = .ok (['N', 'e'], ion)))) {seg : Seg} (hs : seg ∈ segs)
    (hp : TakesPart o "Ne" (-1) seg) : SpeciesQuery.compute_spectra o "Ne" (-1) 770 true segs = .raised .unboundLocalError := by
  rw [high_ion_line_fails ha hne h (neon_line ht hrows).2, if_pos ⟨seg, hs, hp⟩]

/-! ### Concrete cases -/

/-- A table of three lines: two of oxygen with wavelengths which agree in their whole parts, and Lyman alpha. -/
noncomputable def exTable (k : LineData.Key) : Option LineData.Line :=
  if k = (['O'], 2, 832) then some ⟨832.7572, 0.0444, 8.51e8⟩
  else if k = (['O'], 3, 832) then some ⟨832.927, 0.107, 3.34e8⟩
  else if k = (['H'], 1, 1215) then some ⟨1215.6701, 0.4164, 6.265e8⟩
  else none

/-- One sightline along the third axis at (5,5) in a box of 10, four pixels, top-hat kernel. -/
noncomputable def exObj (t : LineData.Key → Option LineData.Line) : Obj where
  table := t
  cloudy := ⟨1e3, 1e8, 1e-6, 1, fun _ _ => .ok (fun _ _ => 1 / 2)⟩
  profile := fun _ _ => 1
  turn_off_selfshield := false
  nbins := 4
  box := 10
  velfac := 1
  kernel := 0
  tautail := 1e-7
  sightlines := [⟨3, ![5, 5, 0]⟩]
  rscale := 1

/-- A segment with one particle on the sightline. -/
noncomputable def exSeg : Seg :=
  ⟨[⟨![5, 5, 2], ![0, 0, 0], 1, 1, 1e4, 1⟩], ⟨some [0.02], some [[0.74, 0.24, 0.002, 0.001, 0.005, 0.002, 0.001, 0.001, 0.001]], 1⟩⟩

theorem exNearObj (t : LineData.Key → Option LineData.Line) :
    get_near_lines (build (exObj t).sightlines (exObj t).box) ![5, 5, 2] 1 ≠ [] := exNear .HI (z := 2) (by norm_num) (by norm_num)

theorem exAxes (t : LineData.Key → Option LineData.Line) : AxesGood (exObj t) := by simp [AxesGood, exObj]

theorem exAbundance {elem : String} {j : ℕ} (h : column elem = some j) (hj : j < 9) : HasAbundance exSeg.blocks elem exSeg.gas.length := by
  unfold HasAbundance
  rw [if_neg (column_spec h).2]
  exact ⟨j, h, by simpa [exSeg] using hj⟩

theorem exAnswers (t : LineData.Key → Option LineData.Line) {elem : String} {j : ℕ} {m : ℝ} (ion : ℤ) (h : column elem = some j) (hj : j < 9)
    (hm : massOf elem = some m) : Answers (exObj t) elem ion (fun _ _ => 1 / 2) m [exSeg] where
  mass := hm
  temp := by norm_num [exObj]
  dens := by norm_num [exObj]
  table := Or.inr (Or.inr rfl)
  abundance := by
    intro seg hs
    rw [List.mem_singleton] at hs
    subst hs
    exact exAbundance h hj

theorem exTakesPart (t : LineData.Key → Option LineData.Line) (elem : String) : TakesPart (exObj t) elem (-1) exSeg :=
  ⟨0, _, rfl, exNearObj t, Or.inr (Or.inl rfl)⟩

/-- All the oxygen at 832 angstrom: the line of the lower ion. -/
example : SpeciesQuery.compute_spectra (exObj exTable) "O" (-1) 832 true [exSeg] =
    ComputeSpectra.compute_spectra (configFor (exObj exTable) "O" (-1) (fun _ _ => 1 / 2) 15.9994 ⟨832.7572, 0.0444, 8.51e8⟩) true
      [gasOf "O" exSeg] := by
  refine query_spectrum (exAnswers exTable (-1) (j := 4) rfl (by norm_num) (by simp [massOf, masses])) ?_
  refine ⟨2, by norm_num, by simp [exObj, exTable], ?_⟩
  intro j hj
  interval_cases j <;> simp [exObj, exTable]

/-- The third ion of oxygen at the same wavelength, and the column density of carbon. -/
example : SpeciesQuery.compute_spectra (exObj exTable) "O" 3 832 true [exSeg] =
    ComputeSpectra.compute_spectra (configFor (exObj exTable) "O" 3 (fun _ _ => 1 / 2) 15.9994 ⟨832.927, 0.107, 3.34e8⟩) true [gasOf "O" exSeg] :=
  query_spectrum (exAnswers exTable 3 (j := 4) rfl (by norm_num) (by simp [massOf, masses])) (by simp [LineFor, exObj, exTable])

example : SpeciesQuery.compute_spectra (exObj exTable) "C" 4 0 false [exSeg] =
    ComputeSpectra.compute_spectra (configFor (exObj exTable) "C" 4 (fun _ _ => 1 / 2) 12.011 ⟨1215.6701, 0.4164, 6.265e8⟩) false
      [gasOf "C" exSeg] :=
  query_spectrum (exAnswers exTable 4 (j := 2) rfl (by norm_num) (by simp [massOf, masses])) (by simp [LineFor, exObj, exTable])

/-- On a mesh, and by two processes. -/
example := query_mesh (o := exObj exTable) (ll := 832) (get_tau := true) (ln := ⟨832.927, 0.107, 3.34e8⟩)
  (exAnswers exTable 3 (elem := "O") (j := 4) (m := 15.9994) rfl (by norm_num) (by simp [massOf, masses])) (by simp [LineFor, exObj, exTable])

example := query_ranks (o := exObj exTable) (elem := "O") (ion := 3) (ll := 832) (get_tau := true) (ln := ⟨832.927, 0.107, 3.34e8⟩)
  (f := fun _ _ => 1 / 2) (m := 15.9994) (ranks := [[exSeg], [exSeg]]) (by
    intro segs hs
    simp only [List.mem_cons, List.not_mem_nil, or_false, or_self] at hs
    subst hs
    exact exAnswers exTable 3 (j := 4) rfl (by norm_num) (by simp [massOf, masses])) (by simp [LineFor, exObj, exTable])

theorem exNotNoneNear (t : LineData.Key → Option LineData.Line) : ¬ NoneNear (exObj t) exSeg := by
  intro h
  have : (0 : ℕ) ∈ near_lines (exObj t).box (exSeg.gas.map (fun g => (g.pos, g.h))) (exObj t).sightlines :=
    (mem_near_lines_sched _ _ _ _ _).2 ⟨by simp [exSeg], _, rfl, exNearObj t⟩
  unfold NoneNear at h
  rw [h] at this
  cases this

/-- Calcium is not among the elements. -/
example : SpeciesQuery.compute_spectra (exObj exTable) "Ca" 2 3934 true [exSeg] = .raised .keyError := by
  rw [unknown_element (exAxes _) (by simp [massOf, masses]) _ _ _ (by simp), if_neg (by simpa using exNotNoneNear exTable)]

/-- Carbon in a snapshot without abundances. -/
example : SpeciesQuery.compute_spectra (exObj exTable) "C" (-1) 0 false [⟨exSeg.gas, ⟨none, none, 1⟩⟩] = .raised .indexError := by
  rw [heavy_element_refused (exAxes _) (elem := "C") (j := 2) rfl (by norm_num) _ _ _ (by simp) (by simp), if_neg]
  intro h
  have h1 := h ⟨exSeg.gas, ⟨none, none, 1⟩⟩ (List.mem_singleton.2 rfl)
  exact exNotNoneNear exTable h1

/-- A line which is not in the table, with gas near the sightline and without. -/
example : SpeciesQuery.compute_spectra (exObj exTable) "O" 1 832 true [exSeg] = .raised .keyError := by
  classical
  rw [unknown_line (exAxes _) (by simp) (exAnswers exTable 1 (elem := "O") (j := 4) (m := 15.9994) rfl (by norm_num) (by simp [massOf, masses]))
    (by norm_num) (by simp [exObj, exTable]), if_pos]
  exact ⟨exSeg, by simp, 0, _, rfl, exNearObj _, Or.inr (Or.inr (by
    have hab : abundance exSeg.blocks "O" 0 = max 0 0.005 := rfl
    rw [hab]
    norm_num [exObj]))⟩

example : SpeciesQuery.compute_spectra (exObj exTable) "O" 1 832 true [⟨[], exSeg.blocks⟩] = .value [0, 0, 0, 0] := by
  classical
  have h : Answers (exObj exTable) "O" 1 (fun _ _ => 1 / 2) 15.9994 [⟨[], exSeg.blocks⟩] := by
    have := exAnswers exTable 1 (elem := "O") (j := 4) (m := 15.9994) rfl (by norm_num) (by simp [massOf, masses])
    refine ⟨this.mass, this.temp, this.dens, this.table, ?_⟩
    intro seg hs
    rw [List.mem_singleton] at hs
    subst hs
    unfold HasAbundance
    rw [if_neg (by decide)]
    exact ⟨4, rfl, by simp [exSeg]⟩
  rw [unknown_line (exAxes _) (by simp) h (by norm_num) (by simp [exObj, exTable]), if_neg]
  · rfl
  · rintro ⟨seg, hs, i, g, hg, -⟩
    rw [List.mem_singleton] at hs
    subst hs
    simp at hg

/-- The shipped lines of neon. -/
example : ∃ t, LineData.read_vpfit LineData.decFloat LineData.species (LineData.neon.map String.toList) = .ok t ∧
    SpeciesQuery.compute_spectra (exObj t) "Ne" (-1) 770 true [exSeg] = .raised .unboundLocalError := by
  obtain ⟨t, ht⟩ : ∃ t, LineData.read_vpfit LineData.decFloat LineData.species (LineData.neon.map String.toList) = .ok t := by
    rw [Props.LineData.read_fails_iff]
    intro row hrow sp ion _ _
    obtain ⟨r, hr, rfl⟩ := List.mem_map.1 hrow
    rw [filterMap_decFloat, List.length_map]
    obtain ⟨i, hi⟩ := List.getElem?_of_mem hr
    have h2 := congrArg (fun l => l[i]?) neon_numbers
    simp only [List.getElem?_map, hi, Option.map_some] at h2
    have hlen : i < 2 := (List.getElem?_eq_some_iff.1 hi).1
    have h3 : (((LineData.splitWs r.toList).filterMap LineData.decParse).take 3).length = 3 := by
      interval_cases i <;> (simp only [List.getElem?_cons_zero, List.getElem?_cons_succ, Option.some.injEq] at h2; rw [h2]; rfl)
    rw [List.length_take] at h3
    omega
  exact ⟨t, ht, neon_query_fails (exAxes _) (by simp)
    (exAnswers t (-1) (elem := "Ne") (j := 5) (m := 20.18) rfl (by norm_num) (by simp [massOf, masses])) (rows := LineData.neon.map String.toList)
    ht (fun _ => rfl) (List.mem_singleton.2 rfl) (exTakesPart t "Ne")⟩

end Verif.Props.SpeciesQuery
