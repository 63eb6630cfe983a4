import Verif.Model.Lockstep
import Verif.Props.SpeciesQuery
import Verif.Props.Additive

/-!
C116: processes which run one program together do not wait for one another in vain.
-/

namespace Verif.Props.Lockstep
open Verif Verif.SpeciesQuery Verif.PartInt Verif.ComputeSpectra Verif.Lockstep
open Verif.Props.SpeciesQuery (configFor gasOf query_spectrum AxesGood NoneNear massOf unknown_element nothing)

/-! Specification. -/

/-- Whatever the order in which the processes work, they come to a state with `P`: from every state on the way something can happen, and
whatever happens leads there. -/
inductive Always (P : List Prog → Prop) : List Prog → Prop where
  | now {ps : List Prog} (h : P ps) : Always P ps
  | later {ps : List Prog} (some : ∃ qs, Step ps qs) (all : ∀ qs, Step ps qs → Always P qs) : Always P ps

/-- All have come to the end of the program, and have been given the same arrays. -/
def AllFinish (ps : List Prog) : Prop := ∃ log, ∀ x ∈ ps, x = .ended log .finished

/-- All have failed after they were given the same arrays. -/
def AllFail (ps : List Prog) : Prop := ∃ log, ∀ x ∈ ps, ∃ how, how ≠ .finished ∧ x = .ended log how

/-- Some process waits, and nothing can happen any more. -/
def InVain (ps : List Prog) : Prop := (∃ buf k, Prog.reduce buf k ∈ ps) ∧ ¬ ∃ qs, Step ps qs

/-- What a process has for a query without computing: nothing, an array, or an error when it looks into the savefile. -/
def seen (p : Proc) (q : Query) : Option (Py (List ℝ)) :=
  match p.cache q with
  | none => none
  | some (.here a) => some (.ok a)
  | some .onDisk => some (match p.file q with
    | some a => .ok a
    | none => .error .ioError)

/-- Two processes with the same sightlines and options, the same arrays and the same random numbers. They need not have the same gas. -/
structure Alike (p p' : Proc) : Prop where
  obj : p.obj = p'.obj
  seen : ∀ q, seen p q = seen p' q
  random : p.random = p'.random

/-- The process can compute its part for a query: an array with an entry for every pixel. -/
def Answers (p : Proc) (q : Query) : Prop := ∃ a, own p q = .value a ∧ a.length = p.obj.sightlines.length * p.obj.nbins

/-- The process cannot. -/
def Refuses (p : Proc) (q : Query) : Prop := ∀ a, own p q ≠ .value a

/-- The process with other sightlines. -/
def moved (p : Proc) (ls : List Line) : Proc := { p with obj := { p.obj with sightlines := ls } }

/-- The program asks only for what `S` allows, which may depend on the sightlines of the moment. -/
def Within (S : List Line → Query → Prop) : Script → List Line → Prop
  | .done, _ => True
  | .ask q _ k, ls => S ls q ∧ ∀ a, Within S (k a) ls
  | .draw k, ls => ∀ x, Within S (k x) ls
  | .place ls' k, _ => Within S k ls'
  | .save k, ls => Within S k ls

/-- For every query of the program either all the processes can compute their parts, or none can. -/
def Uniform (S : List Line → Query → Prop) (ps : List Proc) : Prop :=
  ∀ ls q, S ls q → (∀ p ∈ ps, Answers (moved p ls) q) ∨ (∀ p ∈ ps, Refuses (moved p ls) q)

/-- All can compute their parts for every query of the program. -/
def AllAnswer (S : List Line → Query → Prop) (ps : List Proc) : Prop := ∀ ls q, S ls q → ∀ p ∈ ps, Answers (moved p ls) q

/-- The arrays which the processes expect in the savefile are there. -/
def Readable (ps : List Proc) : Prop := ∀ p ∈ ps, ∀ q e, seen p q ≠ some (.error e)

/-! Orders of work. -/

/-- What a process does after it has worked by itself. -/
def strip : Prog → Prog
  | .work p => strip p
  | .ended log how => .ended log how
  | .reduce b k => .reduce b k

def works : Prog → ℕ
  | .work p => works p + 1
  | _ => 0

theorem strip_of_works {p : Prog} (h : works p = 0) : strip p = p := by
  cases p with
  | work p => simp [works] at h
  | ended l e => rfl
  | reduce b k => rfl

theorem always_strip {P : List Prog → Prop} : ∀ (n : ℕ) (ps : List Prog), (ps.map works).sum = n →
    Always P (ps.map strip) → Always P ps := by
  intro n
  induction n with
  | zero =>
    intro ps hn h
    have : ps.map strip = ps := by
      rw [List.map_congr_left (g := id), List.map_id]
      intro x hx
      refine strip_of_works ?_
      rw [List.sum_eq_zero_iff] at hn
      exact hn _ (List.mem_map.2 ⟨x, hx, rfl⟩)
    rwa [this] at h
  | succ n ih =>
    intro ps hn h
    have hex : ∃ x ∈ ps, works x ≠ 0 := by
      by_contra hall
      push Not at hall
      have : (ps.map works).sum = 0 := by
        rw [List.sum_eq_zero_iff]
        intro y hy
        obtain ⟨x, hx, rfl⟩ := List.mem_map.1 hy
        exact hall x hx
      omega
    obtain ⟨x, hx, hw⟩ := hex
    cases x with
    | ended l e => simp [works] at hw
    | reduce b k => simp [works] at hw
    | work p =>
      obtain ⟨l, r, rfl⟩ := List.append_of_mem hx
      refine Always.later ⟨_, Step.work l r p⟩ ?_
      intro qs hs
      generalize hps : l ++ Prog.work p :: r = ps at hs hn h
      cases hs with
      | work l' r' p' =>
        refine ih _ ?_ ?_
        · simp only [List.map_append, List.map_cons, List.sum_append, List.sum_cons, works] at hn ⊢
          omega
        · simpa [strip] using h
      | allreduce m bs hne hlen =>
        have : Prog.work p ∈ bs.map (fun b => Prog.reduce b.1 b.2) := by rw [← hps]; simp
        obtain ⟨b, -, hb⟩ := List.mem_map.1 this
        cases hb

theorem always_of_strip {P : List Prog → Prop} {ps : List Prog} (h : Always P (ps.map strip)) : Always P ps :=
  always_strip _ ps rfl h

theorem always_reduce {P : List Prog → Prop} {n : ℕ} {bs : List (List ℝ × (List ℝ → Prog))} (hne : bs ≠ [])
    (hlen : ∀ b ∈ bs, b.1.length = n) (h : Always P (bs.map (fun b => b.2 (sumBufs (bs.map Prod.fst))))) :
    Always P (bs.map (fun b => .reduce b.1 b.2)) := by
  refine Always.later ⟨_, Step.allreduce n bs hne hlen⟩ ?_
  intro qs hs
  generalize hps : bs.map (fun b => Prog.reduce b.1 b.2) = ps at hs
  cases hs with
  | work l r p =>
    have : Prog.work p ∈ bs.map (fun b => Prog.reduce b.1 b.2) := by rw [hps]; simp
    obtain ⟨b, -, hb⟩ := List.mem_map.1 this
    cases hb
  | allreduce m bs' hne' hlen' =>
    have hinj : Function.Injective (fun b : List ℝ × (List ℝ → Prog) => Prog.reduce b.1 b.2) := by
      rintro ⟨a, f⟩ ⟨b, g⟩ hab
      simp only [Prog.reduce.injEq] at hab
      exact Prod.ext hab.1 hab.2
    have : bs = bs' := hinj.list_map hps
    subst this
    exact h

/-- A state in which all work is done, some process waits and another has ended, is in vain. -/
theorem inVain_of {ps : List Prog} (hw : ∀ x ∈ ps, works x = 0) {b : List ℝ} {k : List ℝ → Prog} (hb : Prog.reduce b k ∈ ps)
    {log : List (List ℝ)} {how : End} (he : Prog.ended log how ∈ ps) : InVain ps := by
  refine ⟨⟨b, k, hb⟩, ?_⟩
  rintro ⟨qs, hs⟩
  cases hs with
  | work l r p =>
    have := hw (.work p) (by simp)
    simp [works] at this
  | allreduce n bs hne hlen =>
    obtain ⟨x, -, hx⟩ := List.mem_map.1 he
    cases hx

theorem works_strip (p : Prog) : works (strip p) = 0 := by
  induction p with
  | work p ih => exact ih
  | ended l e => rfl
  | reduce b k => rfl

theorem always_inVain {ps : List Prog} {b : List ℝ} {k : List ℝ → Prog} (hb : Prog.reduce b k ∈ ps.map strip)
    {log : List (List ℝ)} {how : End} (he : Prog.ended log how ∈ ps.map strip) : Always InVain ps := by
  refine always_of_strip (Always.now (inVain_of ?_ hb he))
  intro x hx
  obtain ⟨y, -, rfl⟩ := List.mem_map.1 hx
  exact works_strip y

/-! Processes in step. -/

theorem seen_keep (p : Proc) (q : Query) (a : List ℝ) (q' : Query) : seen (keep p q a) q' = if q' = q then some (.ok a) else seen p q' := by
  unfold seen keep
  by_cases h : q' = q
  · simp [h]
  · simp [h]

/-- What a process does at a query, after its own work. -/
theorem strip_ask (q : Query) (force : Bool) (k : List ℝ → Script) (p : Proc) (log : List (List ℝ)) :
    (∀ a, (if force then none else seen p q) = some (.ok a) →
      ∃ p', (∀ q', seen p' q' = seen p q') ∧ p'.obj = p.obj ∧ p'.random = p.random ∧ p'.segs = p.segs ∧ p'.rank = p.rank ∧ p'.saves = p.saves ∧
        strip (play (.ask q force k) p log) = strip (play (k a) p' (log ++ [a]))) ∧
    (∀ e, (if force then none else seen p q) = some (.error e) → ∃ how, how ≠ End.finished ∧ strip (play (.ask q force k) p log) = .ended log how) ∧
    ((if force then none else seen p q) = none →
      (∀ a, own p q = .value a → strip (play (.ask q force k) p log) = .reduce a (fun s => play (k s) (keep p q s) (log ++ [s]))) ∧
      (Refuses p q → ∃ how, how ≠ End.finished ∧ strip (play (.ask q force k) p log) = .ended log how)) := by
  rw [play, strip]
  cases force with
  | true =>
    simp only [if_true]
    refine ⟨by simp, by simp, fun _ => ⟨?_, ?_⟩⟩
    · intro a ha
      simp [ha, strip]
    · intro hr
      cases ho : own p q with
      | value a => exact absurd ho (hr a)
      | raised e => exact ⟨_, by simp, rfl⟩
      | crashed e => exact ⟨_, by simp, rfl⟩
  | false =>
    simp only [Bool.false_eq_true, if_false]
    cases hc : p.cache q with
    | none =>
      have hs : seen p q = none := by unfold seen; rw [hc]
      rw [hs]
      refine ⟨by simp, by simp, fun _ => ⟨?_, ?_⟩⟩
      · intro a ha
        simp [ha, strip]
      · intro hr
        cases ho : own p q with
        | value a => exact absurd ho (hr a)
        | raised e => exact ⟨_, by simp, rfl⟩
        | crashed e => exact ⟨_, by simp, rfl⟩
    | some en =>
      cases en with
      | here a0 =>
        have hs : seen p q = some (.ok a0) := by unfold seen; rw [hc]
        rw [hs]
        refine ⟨?_, by simp, by simp⟩
        intro a ha
        injection ha with ha
        injection ha with ha
        subst ha
        exact ⟨p, fun _ => rfl, rfl, rfl, rfl, rfl, rfl, rfl⟩
      | onDisk =>
        cases hf : p.file q with
        | none =>
          have hs : seen p q = some (.error .ioError) := by unfold seen; rw [hc]; simp [hf]
          rw [hs]
          refine ⟨by simp, fun e _ => ⟨.raised .ioError, by simp, rfl⟩, by simp⟩
        | some a0 =>
          have hs : seen p q = some (.ok a0) := by unfold seen; rw [hc]; simp [hf]
          rw [hs]
          refine ⟨?_, by simp, by simp⟩
          intro a ha
          injection ha with ha
          injection ha with ha
          subst ha
          refine ⟨keep p q a0, ?_, rfl, rfl, rfl, rfl, rfl, rfl⟩
          intro q'
          rw [seen_keep]
          split
          · rename_i h; rw [h, hs]
          · rfl

/-- Own parts do not depend on the arrays a process has. -/
theorem own_congr {p p' : Proc} (ho : p'.obj = p.obj) (hs : p'.segs = p.segs) (q : Query) : own p' q = own p q := by
  unfold own
  rw [ho, hs]

/-- What the processes are throughout: the ones they were, with other arrays, random numbers and sightlines. -/
def From (p p' : Proc) : Prop := (∃ ls, p'.obj = (moved p ls).obj) ∧ p'.segs = p.segs ∧ p'.rank = p.rank ∧ p'.saves = p.saves

theorem From.refl (p : Proc) : From p p := ⟨⟨p.obj.sightlines, rfl⟩, rfl, rfl, rfl⟩

theorem From.trans {a b c : Proc} (h1 : From a b) (h2 : From b c) : From a c := by
  obtain ⟨⟨l1, e1⟩, s1, r1, v1⟩ := h1
  obtain ⟨⟨l2, e2⟩, s2, r2, v2⟩ := h2
  refine ⟨⟨l2, ?_⟩, s2.trans s1, r2.trans r1, v2.trans v1⟩
  rw [e2]
  simp only [moved, e1]

/-- All processes of `ps` are alike and as good as those of `os`. -/
def Good (os ps : List Proc) : Prop :=
  ps ≠ [] ∧ (∀ p ∈ ps, ∀ p' ∈ ps, Alike p p') ∧ (∀ p ∈ ps, ∃ o ∈ os, From o p) ∧ (∀ o ∈ os, o.saves = .ok ()) ∧
  (∀ p ∈ ps, ∀ q e, seen p q = some (.error e) → ∃ o ∈ os, seen o q = some (.error e))

theorem good_map {os ps : List Proc} (h : Good os ps) (f : Proc → Proc)
    (hal : ∀ p ∈ ps, ∀ p' ∈ ps, Alike (f p) (f p')) (hfrom : ∀ p ∈ ps, From p (f p))
    (hseen : ∀ p ∈ ps, ∀ q e, seen (f p) q = some (.error e) → seen p q = some (.error e)) : Good os (ps.map f) := by
  obtain ⟨h1, h2, h3, h4, h5⟩ := h
  refine ⟨by simpa using h1, ?_, ?_, h4, ?_⟩
  · intro p hp p' hp'
    obtain ⟨a, ha, rfl⟩ := List.mem_map.1 hp
    obtain ⟨b, hb, rfl⟩ := List.mem_map.1 hp'
    exact hal a ha b hb
  · intro p hp
    obtain ⟨a, ha, rfl⟩ := List.mem_map.1 hp
    obtain ⟨o, ho, hf⟩ := h3 a ha
    exact ⟨o, ho, hf.trans (hfrom a ha)⟩
  · intro p hp q e he
    obtain ⟨a, ha, rfl⟩ := List.mem_map.1 hp
    exact h5 a ha q e (hseen a ha q e he)

theorem own_from {o p : Proc} (h : From o p) (q : Query) : ∃ ls, own p q = own (moved o ls) q ∧ p.obj = (moved o ls).obj := by
  obtain ⟨⟨ls, e⟩, s, -, -⟩ := h
  exact ⟨ls, own_congr e s q, e⟩

/-- Processes of one kind at one query: all can compute their parts with the same number of pixels, or none can. -/
theorem good_uniform {S : List Line → Query → Prop} {os ps : List Proc} (hu : Uniform S os) (hg : Good os ps) (q : Query)
    (hS : ∀ p ∈ ps, S p.obj.sightlines q) :
    (∃ n, ∀ p ∈ ps, ∃ a, own p q = .value a ∧ a.length = n) ∨ (∀ p ∈ ps, Refuses p q) := by
  obtain ⟨h1, h2, h3, h4, -⟩ := hg
  obtain ⟨p0, hp0⟩ := List.exists_mem_of_ne_nil ps h1
  have key : ∀ p ∈ ps, ∃ o ∈ os, own p q = own (moved o p0.obj.sightlines) q ∧ p.obj = (moved o p0.obj.sightlines).obj := by
    intro p hp
    obtain ⟨o, ho, hf⟩ := h3 p hp
    obtain ⟨ls, e1, e2⟩ := own_from hf q
    have hl : ls = p0.obj.sightlines := by
      have := congrArg Obj.sightlines e2
      rw [(h2 p hp p0 hp0).obj] at this
      exact this.symm
    subst hl
    exact ⟨o, ho, e1, e2⟩
  rcases hu p0.obj.sightlines q (hS p0 hp0) with h | h
  · left
    refine ⟨p0.obj.sightlines.length * p0.obj.nbins, ?_⟩
    intro p hp
    obtain ⟨o, ho, e1, e2⟩ := key p hp
    obtain ⟨a, ha, hl⟩ := h o ho
    refine ⟨a, by rw [e1, ha], ?_⟩
    rw [hl, ← e2, (h2 p hp p0 hp0).obj]
  · right
    intro p hp a ha
    obtain ⟨o, ho, e1, e2⟩ := key p hp
    exact h o ho a (by rw [← e1, ha])

theorem alike_keep {p p' : Proc} (h : Alike p p') (q : Query) (a : List ℝ) : Alike (keep p q a) (keep p' q a) := by
  refine ⟨h.obj, ?_, h.random⟩
  intro q'
  rw [seen_keep, seen_keep, h.seen q']

theorem from_keep (p : Proc) (q : Query) (a : List ℝ) : From p (keep p q a) := ⟨⟨p.obj.sightlines, rfl⟩, rfl, rfl, rfl⟩

/-- Processes in step stay in step to the end of any program. -/
theorem in_step {S : List Line → Query → Prop} {os : List Proc} (hu : Uniform S os) (s : Script) : ∀ (ps : List Proc) (log : List (List ℝ)),
    Good os ps → (∀ p ∈ ps, Within S s p.obj.sightlines) →
    Always (fun qs => AllFinish qs ∨ (AllFail qs ∧ ¬ (AllAnswer S os ∧ Readable os))) ((ps.map (fun p => play s p log)).map strip) := by
  induction s with
  | done =>
    intro ps log hg hwi
    refine Always.now (Or.inl ⟨log, ?_⟩)
    intro x hx
    simp only [List.map_map, List.mem_map] at hx
    obtain ⟨p, -, rfl⟩ := hx
    rfl
  | draw k ih =>
    intro ps log hg hwi
    obtain ⟨p0, hp0⟩ := List.exists_mem_of_ne_nil ps hg.1
    have hg' := good_map hg (fun p => { p with random := fun i => p.random (i + 1) })
      (fun p hp p' hp' => ⟨(hg.2.1 p hp p' hp').obj, (hg.2.1 p hp p' hp').seen, by
        simp only [(hg.2.1 p hp p' hp').random]⟩) (fun p _ => ⟨⟨p.obj.sightlines, rfl⟩, rfl, rfl, rfl⟩) (fun _ _ _ _ h => h)
    have := ih (p0.random 0) _ log hg' (by
      intro p hp
      obtain ⟨p1, h1, rfl⟩ := List.mem_map.1 hp
      exact hwi p1 h1 _)
    rw [List.map_map] at this ⊢
    rw [List.map_map] at this
    refine (List.map_congr_left ?_) ▸ this
    intro p hp
    simp only [Function.comp]
    rw [play, strip, (hg.2.1 p hp p0 hp0).random]
  | place ls k ih =>
    intro ps log hg hwi
    have hg' := good_map hg (fun p => { p with obj := { p.obj with sightlines := ls } })
      (fun p hp p' hp' => ⟨by simp only [(hg.2.1 p hp p' hp').obj], (hg.2.1 p hp p' hp').seen, (hg.2.1 p hp p' hp').random⟩)
      (fun p _ => ⟨⟨ls, rfl⟩, rfl, rfl, rfl⟩) (fun _ _ _ _ h => h)
    have := ih _ log hg' (by
      intro p hp
      obtain ⟨p1, h1, rfl⟩ := List.mem_map.1 hp
      exact hwi p1 h1)
    rw [List.map_map] at this ⊢
    rw [List.map_map] at this
    refine (List.map_congr_left ?_) ▸ this
    intro p hp
    simp only [Function.comp]
    rw [play, strip]
  | save k ih =>
    intro ps log hg hwi
    have := ih _ log hg (fun p hp => hwi p hp)
    rw [List.map_map] at this ⊢
    refine (List.map_congr_left ?_) ▸ this
    intro p hp
    simp only [Function.comp]
    obtain ⟨o, ho, hf⟩ := hg.2.2.1 p hp
    have hs : p.saves = .ok () := by rw [hf.2.2.2, hg.2.2.2.1 o ho]
    rw [play, strip, hs]
    simp
  | ask q force k ih =>
    intro ps log hg hwi
    obtain ⟨p0, hp0⟩ := List.exists_mem_of_ne_nil ps hg.1
    have hsame : ∀ p ∈ ps, (if force then none else seen p q) = (if force then none else seen p0 q) := by
      intro p hp
      rw [(hg.2.1 p hp p0 hp0).seen q]
    cases hs0 : (if force then none else seen p0 q) with
    | some r =>
      have hforce : force = false := by
        cases force with
        | false => rfl
        | true => simp at hs0
      cases r with
      | ok a =>
        have hch : ∀ p ∈ ps, ∃ p', (∀ q', seen p' q' = seen p q') ∧ p'.obj = p.obj ∧ p'.random = p.random ∧ p'.segs = p.segs ∧
            p'.rank = p.rank ∧ p'.saves = p.saves ∧ strip (play (.ask q force k) p log) = strip (play (k a) p' (log ++ [a])) :=
          fun p hp => (strip_ask q force k p log).1 a ((hsame p hp).trans hs0)
        classical
        let f : Proc → Proc := fun p => if h : p ∈ ps then (hch p h).choose else p
        have hf : ∀ p (hp : p ∈ ps), f p = (hch p hp).choose := fun p hp => dif_pos hp
        have hg' : Good os (ps.map f) := by
          refine good_map hg f ?_ ?_ ?_
          · intro p hp p' hp'
            obtain ⟨s1, o1, r1, -⟩ := (hch p hp).choose_spec
            obtain ⟨s2, o2, r2, -⟩ := (hch p' hp').choose_spec
            rw [hf p hp, hf p' hp']
            have h := hg.2.1 p hp p' hp'
            exact ⟨by rw [o1, o2, h.obj], fun q' => by rw [s1, s2, h.seen], by rw [r1, r2, h.random]⟩
          · intro p hp
            obtain ⟨s1, o1, r1, g1, k1, v1, -⟩ := (hch p hp).choose_spec
            rw [hf p hp]
            exact ⟨⟨p.obj.sightlines, by rw [o1]; rfl⟩, g1, k1, v1⟩
          · intro p hp q' e he
            rw [hf p hp, (hch p hp).choose_spec.1] at he
            exact he
        have := ih a _ (log ++ [a]) hg' (by
          intro p hp
          obtain ⟨p1, h1, rfl⟩ := List.mem_map.1 hp
          rw [hf p1 h1, (hch p1 h1).choose_spec.2.1]
          exact (hwi p1 h1).2 a)
        rw [List.map_map] at this ⊢
        rw [List.map_map] at this
        refine (List.map_congr_left ?_) ▸ this
        intro p hp
        simp only [Function.comp]
        rw [(hch p hp).choose_spec.2.2.2.2.2.2, hf p hp]
      | error e =>
        refine Always.now (Or.inr ⟨⟨log, ?_⟩, ?_⟩)
        · intro x hx
          rw [List.map_map] at hx
          obtain ⟨p, hp, rfl⟩ := List.mem_map.1 hx
          exact (strip_ask q force k p log).2.1 e ((hsame p hp).trans hs0)
        · intro hall
          rw [hforce] at hs0
          obtain ⟨o, ho, he⟩ := hg.2.2.2.2 p0 hp0 q e (by simpa using hs0)
          exact hall.2 o ho q e he
    | none =>
      have hnone : ∀ p ∈ ps, (if force then none else seen p q) = none := fun p hp => (hsame p hp).trans hs0
      rcases good_uniform hu hg q (fun p hp => (hwi p hp).1) with ⟨n, hn⟩ | hr
      · classical
        let b : Proc → List ℝ := fun p => if h : p ∈ ps then (hn p h).choose else []
        have hb : ∀ p (hp : p ∈ ps), own p q = .value (b p) ∧ (b p).length = n := by
          intro p hp
          have : b p = (hn p hp).choose := dif_pos hp
          rw [this]
          exact (hn p hp).choose_spec
        have hmap : (ps.map (fun p => play (.ask q force k) p log)).map strip =
            (ps.map (fun p => (b p, fun s => play (k s) (keep p q s) (log ++ [s])))).map (fun b => Prog.reduce b.1 b.2) := by
          rw [List.map_map, List.map_map]
          refine List.map_congr_left ?_
          intro p hp
          exact (((strip_ask q force k p log).2.2 (hnone p hp)).1 _ (hb p hp).1)
        rw [hmap]
        refine always_reduce (n := n) (by simpa using hg.1) ?_ ?_
        · intro x hx
          obtain ⟨p, hp, rfl⟩ := List.mem_map.1 hx
          exact (hb p hp).2
        · refine always_of_strip ?_
          generalize sumBufs _ = t
          have hg' := good_map hg (fun p => keep p q t) (fun p hp p' hp' => alike_keep (hg.2.1 p hp p' hp') q t)
            (fun p _ => from_keep p q t) (fun p _ q' e he => by
              rw [seen_keep] at he
              split at he
              · injection he with he; cases he
              · exact he)
          have := ih t _ (log ++ [t]) hg' (by
            intro p hp
            obtain ⟨p1, h1, rfl⟩ := List.mem_map.1 hp
            exact (hwi p1 h1).2 t)
          rw [List.map_map, List.map_map] at this ⊢
          exact this
      · refine Always.now (Or.inr ⟨⟨log, ?_⟩, ?_⟩)
        · intro x hx
          rw [List.map_map] at hx
          obtain ⟨p, hp, rfl⟩ := List.mem_map.1 hx
          obtain ⟨how, h1, h2⟩ := ((strip_ask q force k p log).2.2 (hnone p hp)).2 (hr p hp)
          exact ⟨how, h1, h2⟩
        · intro hall
          obtain ⟨o, ho, hf⟩ := hg.2.2.1 p0 hp0
          obtain ⟨ls, e1, e2⟩ := own_from hf q
          have hl : p0.obj.sightlines = ls := by rw [e2]; rfl
          obtain ⟨a, ha, -⟩ := hall.1 ls q (hl ▸ (hwi p0 hp0).1) o ho
          exact hr p0 hp0 a (by rw [e1, ha])

/-! C116. -/

theorem good_self {ps : List Proc} (hne : ps ≠ []) (hal : ∀ p ∈ ps, ∀ p' ∈ ps, Alike p p') (hsv : ∀ p ∈ ps, p.saves = .ok ()) : Good ps ps :=
  ⟨hne, hal, fun p hp => ⟨p, hp, From.refl p⟩, hsv, fun p hp q e h => ⟨p, hp, h⟩⟩

theorem strip_start (s : Script) (ps : List Proc) :
    (ps.map (fun p => start s (.ok p))).map strip = (ps.map (fun p => play s p [])).map strip := by
  rw [List.map_map, List.map_map]
  rfl

/-- C116. **Processes which are alike never wait in vain**, if for every query of the program all of them can compute their parts or none can.
For every program, and every order in which they work, they all come to its end, or they all fail at the same call. -/
theorem never_in_vain {S : List Line → Query → Prop} {ps : List Proc} (hne : ps ≠ []) (hal : ∀ p ∈ ps, ∀ p' ∈ ps, Alike p p')
    (hsv : ∀ p ∈ ps, p.saves = .ok ()) (hu : Uniform S ps) (s : Script) (hw : ∀ p ∈ ps, Within S s p.obj.sightlines) :
    Always (fun qs => AllFinish qs ∨ (AllFail qs ∧ ¬ (AllAnswer S ps ∧ Readable ps))) (ps.map (fun p => start s (.ok p))) := by
  refine always_of_strip ?_
  rw [strip_start]
  exact in_step hu s ps [] (good_self hne hal hsv) hw

theorem Always.mono {P Q : List Prog → Prop} (h : ∀ qs, P qs → Q qs) {ps : List Prog} (hp : Always P ps) : Always Q ps := by
  induction hp with
  | now hx => exact .now (h _ hx)
  | later hs _ ih => exact .later hs ih

/-- C116. **If all queries can be answered, all processes come to the end** of the program, and all have been given the same arrays. -/
theorem all_finish {S : List Line → Query → Prop} {ps : List Proc} (hne : ps ≠ []) (hal : ∀ p ∈ ps, ∀ p' ∈ ps, Alike p p')
    (hsv : ∀ p ∈ ps, p.saves = .ok ()) (ha : AllAnswer S ps) (hr : Readable ps) (s : Script) (hw : ∀ p ∈ ps, Within S s p.obj.sightlines) :
    Always AllFinish (ps.map (fun p => start s (.ok p))) := by
  refine Always.mono ?_ (never_in_vain hne hal hsv (fun ls q h => Or.inl (fun p hp => ha ls q h p hp)) s hw)
  rintro qs (h | ⟨-, h⟩)
  · exact h
  · exact absurd ⟨ha, hr⟩ h

theorem addArr_zero {a : List ℝ} {n : ℕ} (h : a.length = n) : addArr a (List.replicate n 0) = a := by
  subst h
  induction a with
  | nil => rfl
  | cons x a ih =>
    rw [List.length_cons, List.replicate_succ]
    show (x + 0) :: addArr a (List.replicate a.length 0) = x :: a
    rw [ih, add_zero]

theorem overRanks_sum {o : Obj} {one : List Seg → Outcome (List ℝ)} : ∀ {segs : List (List Seg)} {bs : List (List ℝ)}, bs ≠ [] →
    List.Forall₂ (fun s b => one s = .value b ∧ b.length = o.sightlines.length * o.nbins) segs bs →
    overRanks o one segs = .value (sumBufs bs) := by
  intro segs bs hne h
  induction h with
  | nil => exact absurd rfl hne
  | cons h1 h2 ih =>
    rename_i s b ss bs
    cases bs with
    | nil =>
      cases h2
      rw [overRanks, h1.1]
      show Outcome.value (addArr b (List.replicate _ 0)) = .value b
      rw [addArr_zero h1.2]
    | cons b' bs' =>
      rw [overRanks, h1.1, ih (by simp)]
      rfl

/-- The computation of one process for a query, from its part of the snapshot: that of C113 for the optical depth of the line, or for the column
density of the ion. -/
noncomputable def ownOf (o : Obj) (q : Query) (segs : List Seg) : Outcome (List ℝ) :=
  match q, decide (o.kernel = 2) with
  | .tau elem ion line, false => SpeciesQuery.compute_spectra o elem ion line true segs
  | .tau elem ion line, true => SpeciesQuery.compute_spectra_mesh o elem ion line true segs
  | .colden elem ion, false => SpeciesQuery.compute_spectra o elem ion 0 false segs
  | .colden elem ion, true => SpeciesQuery.compute_spectra_mesh o elem ion 0 false segs

theorem own_eq (p : Proc) (q : Query) : own p q = ownOf p.obj q p.segs := by
  unfold own ownOf
  by_cases h : p.obj.kernel = 2 <;> cases q <;> simp [h]

/-- C116. **Every process is given the spectrum of the whole snapshot**: the sum of the parts of all, each once. -/
theorem answer_is_sum {ps : List Proc} (hne : ps ≠ []) {o : Obj} (ho : ∀ p ∈ ps, p.obj = o) {q : Query}
    (ha : ∀ p ∈ ps, Answers p q) (hn : ∀ p ∈ ps, seen p q = none) (force : Bool) :
    ∃ total, overRanks o (ownOf o q) (ps.map Proc.segs) = .value total ∧
      Always (fun qs => qs = ps.map (fun _ => Prog.ended [total] .finished)) (ps.map (fun p => start (.ask q force (fun _ => .done)) (.ok p))) := by
  classical
  let b : Proc → List ℝ := fun p => if h : p ∈ ps then (ha p h).choose else []
  have hb : ∀ p (hp : p ∈ ps), own p q = .value (b p) ∧ (b p).length = o.sightlines.length * o.nbins := by
    intro p hp
    have : b p = (ha p hp).choose := dif_pos hp
    rw [this, ← ho p hp]
    exact (ha p hp).choose_spec
  refine ⟨sumBufs (ps.map b), ?_, ?_⟩
  · refine overRanks_sum (by simpa using hne) ?_
    rw [List.forall₂_map_left_iff, List.forall₂_map_right_iff, List.forall₂_same]
    intro p hp
    refine ⟨?_, (hb p hp).2⟩
    rw [← (hb p hp).1, own_eq, ho p hp]
  · refine always_of_strip ?_
    have hmap : (ps.map (fun p => start (.ask q force (fun _ => .done)) (.ok p))).map strip =
        (ps.map (fun p => (b p, fun s => play .done (keep p q s) ([] ++ [s])))).map (fun b => Prog.reduce b.1 b.2) := by
      rw [strip_start, List.map_map, List.map_map]
      refine List.map_congr_left ?_
      intro p hp
      refine ((strip_ask q force _ p []).2.2 ?_).1 _ (hb p hp).1
      rw [hn p hp]
      simp
    rw [hmap]
    refine always_reduce (n := o.sightlines.length * o.nbins) (by simpa using hne) ?_ ?_
    · intro x hx
      obtain ⟨p, hp, rfl⟩ := List.mem_map.1 hx
      exact (hb p hp).2
    · refine Always.now ?_
      rw [List.map_map, List.map_map]
      rfl

/-! Processes which are not in step. -/

theorem mem_strip {ps : List Prog} {x y : Prog} (h : x ∈ ps) (e : strip x = y) : y ∈ ps.map strip := List.mem_map.2 ⟨x, h, e⟩

/-- C116. **If a query can be answered by one process and not by another, the first waits for ever.** -/
theorem refusal_in_vain {xs : List (Py Proc)} {p p' : Proc} (hp : .ok p ∈ xs) (hp' : .ok p' ∈ xs) {q : Query} (hn : seen p q = none)
    (hn' : seen p' q = none) (ha : Answers p q) (hr : Refuses p' q) (force : Bool) (k : List ℝ → Script) :
    Always InVain (xs.map (start (.ask q force k))) := by
  obtain ⟨a, ha, -⟩ := ha
  have h1 := ((strip_ask q force k p []).2.2 (by rw [hn]; simp)).1 a ha
  obtain ⟨how, -, h2⟩ := ((strip_ask q force k p' []).2.2 (by rw [hn']; simp)).2 hr
  exact always_inVain (mem_strip (List.mem_map.2 ⟨_, hp, rfl⟩) h1) (mem_strip (List.mem_map.2 ⟨_, hp', rfl⟩) h2)

/-- C116. **If one process has an array, for instance from a savefile which another did not find, and it was the last one asked for, the other
waits for ever.** -/
theorem cached_in_vain {xs : List (Py Proc)} {p p' : Proc} (hp : .ok p ∈ xs) (hp' : .ok p' ∈ xs) {q : Query} (hn : seen p q = none)
    (ha : Answers p q) {a' : List ℝ} (hc : seen p' q = some (.ok a')) :
    Always InVain (xs.map (start (.ask q false (fun _ => .done)))) := by
  obtain ⟨a, ha, -⟩ := ha
  have h1 := ((strip_ask q false (fun _ => .done) p []).2.2 (by rw [hn]; simp)).1 a ha
  obtain ⟨p2, -, -, -, -, -, -, h2⟩ := (strip_ask q false (fun _ => .done) p' []).1 a' (by simpa using hc)
  exact always_inVain (mem_strip (List.mem_map.2 ⟨_, hp, rfl⟩) h1) (mem_strip (List.mem_map.2 ⟨_, hp', rfl⟩) h2)

/-- C116. **If the constructor fails on one process, a process which asks for a spectrum waits for ever.** -/
theorem failed_start_in_vain {xs : List (Py Proc)} {p : Proc} {e : PyErr} (hp : .ok p ∈ xs) (he : .error e ∈ xs) {q : Query}
    (hn : seen p q = none) (ha : Answers p q) (force : Bool) (k : List ℝ → Script) : Always InVain (xs.map (start (.ask q force k))) := by
  obtain ⟨a, ha, -⟩ := ha
  have h1 := ((strip_ask q force k p []).2.2 (by rw [hn]; simp)).1 a ha
  exact always_inVain (mem_strip (List.mem_map.2 ⟨_, hp, rfl⟩) h1)
    (mem_strip (y := .ended [] (.raised e)) (List.mem_map.2 ⟨_, he, rfl⟩) rfl)

/-- C116. **If the spectra cannot be saved, only process 0 is told**: the others go on, and wait for ever at the next spectrum. -/
theorem failed_save_in_vain {xs : List (Py Proc)} {p p' : Proc} (hp : .ok p ∈ xs) (hp' : .ok p' ∈ xs) (hr : p.rank ≠ 0) (hr' : p'.rank = 0)
    {e : PyErr} (hs : p'.saves = .error e) {q : Query} (hn : seen p q = none) (ha : Answers p q) (force : Bool) (k : List ℝ → Script) :
    Always InVain (xs.map (start (.save (.ask q force k)))) := by
  obtain ⟨a, ha, -⟩ := ha
  have h1 : strip (start (.save (.ask q force k)) (.ok p)) = .reduce a (fun s => play (k s) (keep p q s) ([] ++ [s])) := by
    rw [start, strip, play, strip, if_neg hr]
    exact ((strip_ask q force k p []).2.2 (by rw [hn]; simp)).1 a ha
  have h2 : strip (start (.save (.ask q force k)) (.ok p')) = .ended [] (.raised e) := by
    rw [start, strip, play, strip, if_pos hr', hs]
    rfl
  exact always_inVain (mem_strip (List.mem_map.2 ⟨_, hp, rfl⟩) h1) (mem_strip (List.mem_map.2 ⟨_, hp', rfl⟩) h2)

/-! Which queries these are. -/

/-- A process can compute its part of the spectrum of a known species and line (compare C113). -/
theorem answers_known {p : Proc} (hk : p.obj.kernel ≠ 2) {elem : String} {ion line : ℤ} {f : ℝ → ℝ → ℝ} {m : ℝ} {ln : LineData.Line}
    (h : SpeciesQuery.Answers p.obj elem ion f m p.segs) (hl : SpeciesQuery.LineFor p.obj elem ion line true ln)
    (hc : GoodConfig (configFor p.obj elem ion f m ln)) (hne : p.segs ≠ []) : Answers p (.tau elem ion line) := by
  obtain ⟨a, h1, h2⟩ := species_query_partial hc true (fun _ _ => rfl) (segs := p.segs.map (gasOf elem)) (by simpa using hne)
  refine ⟨a, ?_, h2⟩
  unfold own
  simp only [if_neg hk]
  rw [query_spectrum h hl, h1]

open Classical in
/-- C116. **An element which is not known**: if there is gas near the sightlines in the files of one process and none in those of another, the
program does not end with an error, it waits for ever. -/
theorem unknown_element_in_vain {xs : List (Py Proc)} {p p' : Proc} (hp : .ok p ∈ xs) (hp' : .ok p' ∈ xs) (hk : p.obj.kernel ≠ 2)
    (hk' : p'.obj.kernel ≠ 2) (hax : AxesGood p.obj) (hax' : AxesGood p'.obj) {elem : String} (hm : massOf elem = none) {ion line : ℤ}
    (hn : seen p (.tau elem ion line) = none) (hn' : seen p' (.tau elem ion line) = none) (hs : p.segs ≠ [])
    (hnone : ∀ seg ∈ p.segs, NoneNear p.obj seg) {seg : Seg} (hseg : seg ∈ p'.segs) (hgas : ¬ NoneNear p'.obj seg) (force : Bool)
    (k : List ℝ → Script) : Always InVain (xs.map (start (.ask (.tau elem ion line) force k))) := by
  refine refusal_in_vain hp hp' hn hn' ?_ ?_ force k
  · refine ⟨nothing p.obj, ?_, by simp [nothing]⟩
    unfold own
    simp only [if_neg hk]
    rw [unknown_element hax hm _ _ _ hs, if_pos hnone]
  · intro a
    unfold own
    simp only [if_neg hk']
    rw [unknown_element hax' hm _ _ _ (List.ne_nil_of_mem hseg), if_neg (fun h => hgas (h seg hseg))]
    simp

/-! Worked cases. -/

open Verif.Props.SpeciesQuery (exObj exTable exSeg exAnswers exAxes exNotNoneNear)

/-- A segment without gas. -/
noncomputable def exEmpty : Seg := ⟨[], exSeg.blocks⟩

/-- A process with a segment, which has computed nothing yet. -/
noncomputable def exProc (seg : Seg) (rank : ℕ) : Proc :=
  ⟨exObj exTable, [seg], fun _ => none, fun _ => none, fun i => i, rank, .ok ()⟩

/-- Along coordinate axes, and doubly ionised oxygen only. -/
def exAsks (ls : List Line) (q : Query) : Prop := (∀ l ∈ ls, l.axis = 1 ∨ l.axis = 2 ∨ l.axis = 3) ∧ q = .tau "O" 3 832

theorem exKnown {seg : Seg} (hs : seg = exSeg ∨ seg = exEmpty) (rank : ℕ) {ls : List Line} {q : Query} (h : exAsks ls q) :
    Answers (moved (exProc seg rank) ls) q := by
  obtain ⟨hax, rfl⟩ := h
  have h0 := exAnswers exTable 3 (elem := "O") (j := 4) (m := 15.9994) rfl (by norm_num) (by simp [massOf, masses])
  refine answers_known (f := fun _ _ => 1 / 2) (m := 15.9994) (ln := ⟨832.927, 0.107, 3.34e8⟩) ?_ ⟨h0.mass, h0.temp, h0.dens, h0.table, ?_⟩ ?_ ?_ ?_
  · simp [moved, exProc, exObj]
  · intro s hsm
    have hsm' : s = seg := by simpa [moved, exProc] using hsm
    subst hsm'
    rcases hs with rfl | rfl
    · exact h0.abundance _ (by simp)
    · unfold Verif.Props.SpeciesQuery.HasAbundance
      rw [if_neg (by decide)]
      exact ⟨4, rfl, by simp [exEmpty, exSeg]⟩
  · simp [SpeciesQuery.LineFor, moved, exProc, exObj, exTable]
  · refine ⟨by simp [configFor, moved, exProc, exObj], ?_, ?_⟩
    · intro l hl
      exact hax l hl
    · simp [configFor, moved, exProc, exObj, Absorption.LineAbsorption.mk', Absorption.VORONOI_MESH]
  · simp [moved, exProc]

theorem exAlike : ∀ p ∈ [exProc exSeg 0, exProc exEmpty 1], ∀ p' ∈ [exProc exSeg 0, exProc exEmpty 1], Alike p p' := by
  intro p hp p' hp'
  simp only [List.mem_cons, List.not_mem_nil, or_false] at hp hp'
  rcases hp with rfl | rfl <;> rcases hp' with rfl | rfl <;> exact ⟨rfl, fun _ => rfl, rfl⟩

theorem exAll : AllAnswer exAsks [exProc exSeg 0, exProc exEmpty 1] := by
  intro ls q h p hp
  simp only [List.mem_cons, List.not_mem_nil, or_false] at hp
  rcases hp with rfl | rfl
  · exact exKnown (Or.inl rfl) 0 h
  · exact exKnown (Or.inr rfl) 1 h

/-- A program: a sightline is drawn, its spectrum is asked for twice and saved; if it has absorption in the first pixel it is computed again. -/
noncomputable def exScript : Script :=
  .draw (fun x => .place [⟨3, ![x, x, 0]⟩] (.ask (.tau "O" 3 832) false (fun _ => .ask (.tau "O" 3 832) false (fun a =>
    .save (if a.head? = some 0 then .done else .ask (.tau "O" 3 832) true (fun _ => .done))))))

theorem exWithin (ls : List Line) : Within exAsks exScript ls := by
  intro x
  have h : exAsks [⟨3, ![x, x, 0]⟩] (.tau "O" 3 832) := ⟨by simp, rfl⟩
  refine ⟨h, fun _ => ⟨h, fun a => ?_⟩⟩
  show Within exAsks (if a.head? = some 0 then Script.done else .ask (.tau "O" 3 832) true (fun _ => .done)) [⟨3, ![x, x, 0]⟩]
  split
  · exact trivial
  · exact ⟨h, fun _ => trivial⟩

/-- Two processes, one of them without gas, run it to its end in every order. -/
example : Always AllFinish ([exProc exSeg 0, exProc exEmpty 1].map (fun p => start exScript (.ok p))) := by
  refine all_finish (by simp) exAlike ?_ exAll ?_ exScript (fun p _ => exWithin _)
  · intro p hp
    simp only [List.mem_cons, List.not_mem_nil, or_false] at hp
    rcases hp with rfl | rfl <;> rfl
  · intro p hp q e
    simp only [List.mem_cons, List.not_mem_nil, or_false] at hp
    rcases hp with rfl | rfl <;> simp [seen, exProc]

theorem exOwn (seg : Seg) (hs : seg = exSeg ∨ seg = exEmpty) (rank : ℕ) : Answers (exProc seg rank) (.tau "O" 3 832) :=
  exKnown hs rank (ls := (exObj exTable).sightlines) ⟨by simp [exObj], rfl⟩

/-- Both are given the sum. -/
example : ∃ total, overRanks (exObj exTable) (ownOf (exObj exTable) (.tau "O" 3 832)) [[exSeg], [exEmpty]] = .value total ∧
    Always (fun qs => qs = [.ended [total] .finished, .ended [total] .finished])
      ([exProc exSeg 0, exProc exEmpty 1].map (fun p => start (.ask (.tau "O" 3 832) false (fun _ => .done)) (.ok p))) := by
  refine answer_is_sum (ps := [exProc exSeg 0, exProc exEmpty 1]) (by simp) ?_ ?_ ?_ false
  · intro p hp
    simp only [List.mem_cons, List.not_mem_nil, or_false] at hp
    rcases hp with rfl | rfl <;> rfl
  · intro p hp
    simp only [List.mem_cons, List.not_mem_nil, or_false] at hp
    rcases hp with rfl | rfl
    · exact exOwn _ (Or.inl rfl) 0
    · exact exOwn _ (Or.inr rfl) 1
  · intro p hp
    simp only [List.mem_cons, List.not_mem_nil, or_false] at hp
    rcases hp with rfl | rfl <;> rfl

/-- A mistyped element: the process with gas ends with an error, the other waits for ever. -/
example (k : List ℝ → Script) : Always InVain ([.ok (exProc exEmpty 0), .ok (exProc exSeg 1)].map (start (.ask (.tau "Ca" 2 3934) false k))) :=
  unknown_element_in_vain (p := exProc exEmpty 0) (p' := exProc exSeg 1) (by simp) (by simp) (by simp [exProc, exObj]) (by simp [exProc, exObj])
    (exAxes _) (exAxes _) (by simp [massOf, masses]) rfl rfl (by simp [exProc])
    (by
      intro seg hs
      have hs' : seg = exEmpty := by simpa [exProc] using hs
      subst hs'
      have : ∀ x, x ∉ IndexTable.near_lines (exProc exEmpty 0).obj.box (exEmpty.gas.map (fun g => (g.pos, g.h))) (exProc exEmpty 0).obj.sightlines := by
        intro x hx
        have := (IndexTable.mem_near_lines_sched _ _ _ _ _).1 hx
        simp [exEmpty] at this
      exact List.eq_nil_iff_forall_not_mem.2 this)
    (seg := exSeg) (by simp [exProc]) (exNotNoneNear exTable) false k

/-- A savefile which only one process has found. -/
example : Always InVain ([.ok (exProc exSeg 0), .ok { exProc exEmpty 1 with cache := fun _ => some .onDisk, file := fun _ => some [0, 0, 0, 0] }].map
    (start (.ask (.tau "O" 3 832) false (fun _ => .done)))) :=
  cached_in_vain (p := exProc exSeg 0) (p' := { exProc exEmpty 1 with cache := fun _ => some .onDisk, file := fun _ => some [0, 0, 0, 0] })
    (by simp) (by simp) rfl (exOwn _ (Or.inl rfl) 0) (a' := [0, 0, 0, 0]) rfl

/-- The constructor fails on one process, as it does with fewer files than processes (C10). -/
example (k : List ℝ → Script) : Always InVain ([.error .indexError, .ok (exProc exSeg 1)].map (start (.ask (.tau "O" 3 832) false k))) :=
  failed_start_in_vain (p := exProc exSeg 1) (e := .indexError) (by simp) (by simp) rfl (exOwn _ (Or.inl rfl) 1) false k

/-- The directory for the savefile cannot be made (C115). -/
example (k : List ℝ → Script) : Always InVain ([.ok { exProc exSeg 0 with saves := .error .ioError }, .ok (exProc exEmpty 1)].map
    (start (.save (.ask (.tau "O" 3 832) false k)))) :=
  failed_save_in_vain (p := exProc exEmpty 1) (p' := { exProc exSeg 0 with saves := .error .ioError }) (by simp) (by simp) (by simp [exProc]) rfl
    (e := .ioError) rfl rfl (exOwn _ (Or.inr rfl) 1) false k

end Verif.Props.Lockstep
