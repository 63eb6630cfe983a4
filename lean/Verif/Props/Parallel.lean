import Verif.Lemmas.Race
import Verif.Lemmas.ComputeSpectra
import Verif.Model.OpenMP

/-!
C54: the parallel loops over sightlines are free of races, at the level of single loads and stores.
-/

namespace Verif.Props

open Verif PartInt IndexTable Absorption Race

/-- The sequential interpolator. -/
noncomputable def sequential (get_tau : Bool) (L : LineAbsorption) (nbins : ℕ) (box : ℝ)
    (lines : List Line) (parts : List Part) (out : List ℝ) : CRes (List ℝ) :=
  if get_tau then compute_tau L nbins box lines parts out
  else compute_colden L nbins box lines parts out

theorem sequential_eq (get_tau : Bool) (L : LineAbsorption) (hk : L.kernel ≠ VORONOI_MESH) {nbins : ℕ}
    (hn : 0 < nbins) (box : ℝ) (lines : List Line)
    (hax : ∀ l ∈ lines, l.axis = 1 ∨ l.axis = 2 ∨ l.axis = 3) (parts : List Part) (out : List ℝ)
    (hout : out.length = lines.length * nbins) :
    sequential get_tau L nbins box lines parts out = .ok (arrAdd out (fun m =>
      ((List.range lines.length).map (fun i =>
        lineSum get_tau L nbins (build lines box) lines parts i m)).sum)) := by
  have e : ∀ m, ((List.range lines.length).map (fun i =>
      lineSum get_tau L nbins (build lines box) lines parts i m)).sum =
      (parts.map (fun p => single (build lines box) lines (onLine get_tau L nbins) p m)).sum := by
    intro m
    unfold lineSum single
    rw [list_sum_comm]
  simp only [e]
  unfold sequential onLine
  cases get_tau
  · simp only [Bool.false_eq_true, if_false]
    exact compute_colden_eq L hk hn box lines hax parts out hout
  · simp only [if_true]
    exact compute_tau_eq L hk hn box lines hax parts out hout

theorem slices_disjoint {nbins i j m : ℕ} (h1 : i * nbins ≤ m) (h2 : m < i * nbins + nbins)
    (h3 : j * nbins ≤ m) (h4 : m < j * nbins + nbins) : i = j := by
  rcases lt_trichotomy i j with h | h | h
  · have : (i + 1) * nbins ≤ j * nbins := Nat.mul_le_mul_right _ h
    rw [add_mul, one_mul] at this
    omega
  · exact h
  · have : (j + 1) * nbins ≤ i * nbins := Nat.mul_le_mul_right _ h
    rw [add_mul, one_mul] at this
    omega

/-- C54: for every number of threads and every assignment of the sightlines to them, each thread has
a well-defined sequence of updates, all inside the output array; every execution, whatever the
interleaving of the individual loads and stores, ends with the array the sequential loop computes;
and until all the threads are done some thread can take a step. -/
theorem parallel_lines (get_tau : Bool) (L : LineAbsorption) (hk : L.kernel ≠ VORONOI_MESH) {nbins : ℕ}
    (hn : 0 < nbins) (box : ℝ) (lines : List Line)
    (hax : ∀ l ∈ lines, l.axis = 1 ∨ l.axis = 2 ∨ l.axis = 3) (parts : List Part) (out : List ℝ)
    (hout : out.length = lines.length * nbins) (queues : List (List ℕ))
    (hq : ValidQueues lines.length queues) :
    ∃ prog : Fin queues.length → List (ℕ × ℝ),
      (∀ k, threadOps get_tau L nbins lines parts
        (get_near_particles (build lines box) (posH parts)) queues[k] = .ok (prog k)) ∧
      (∀ k, ∀ o ∈ prog k, o.1 < out.length) ∧
      ∀ a' ts', Exec (out, fun k => ⟨prog k, none⟩) (a', ts') →
        (Done ts' → sequential get_tau L nbins box lines parts out = .ok a') ∧
        (¬ Done ts' → ∃ s, Step (a', ts') s) := by
  have hlt : ∀ k : Fin queues.length, ∀ i ∈ queues[k], i < lines.length := by
    intro k i hi
    have : i ∈ queues.flatten := List.mem_flatten.2 ⟨_, List.getElem_mem _, hi⟩
    simpa using hq.mem_iff.1 this
  choose prog h1 h2 h3 using fun k : Fin queues.length =>
    threadOps_eq get_tau L hn box lines hax parts queues[k] (hlt k)
  have hbound : ∀ k, ∀ o ∈ prog k, o.1 < out.length := by
    intro k o ho
    obtain ⟨i, hi, -, h⟩ := h2 k o ho
    have := slice_le (nbins := nbins) (hlt k i hi)
    rw [hout]; omega
  refine ⟨prog, h1, hbound, ?_⟩
  intro a' ts' hex
  have hnd : queues.flatten.Nodup := hq.nodup_iff.2 List.nodup_range
  have hdis : DisjointOps (fun k => (⟨prog k, none⟩ : Thread)) := by
    intro k k' hne o ho o' ho' heq
    obtain ⟨i, hi, hi1, hi2⟩ := h2 k o ho
    obtain ⟨j, hj, hj1, hj2⟩ := h2 k' o' ho'
    rw [heq] at hi1 hi2
    have hij := slices_disjoint hi1 hi2 hj1 hj2
    subst hij
    rw [List.nodup_flatten] at hnd
    have hp := List.pairwise_iff_getElem.1 hnd.2
    rcases lt_or_gt_of_ne (fun h => hne (Fin.ext h) : (k : ℕ) ≠ k') with hlt | hgt
    · exact hp k k' k.2 k'.2 hlt hi hj
    · exact hp k' k k'.2 k.2 hgt hj hi
  constructor
  · intro hdone
    rw [exec_result hex (fun _ => rfl) hdis hdone, sequential_eq get_tau L hk hn box lines hax parts out hout]
    congr 2
    funext m
    simp only [h3]
    rw [← (hq.map _).sum_eq, List.map_flatten, List.sum_flatten, List.map_map,
      ← Fin.sum_univ_fun_getElem]
    rfl
  · intro hnd
    refine exec_progress ?_ hnd
    have key : ∀ s : List ℝ × (Fin queues.length → Thread), Exec (out, fun k => ⟨prog k, none⟩) s →
        s.1.length = out.length ∧ ∀ k, ∀ o ∈ (s.2 k).todo, o.1 < out.length := by
      intro s hs
      induction hs with
      | refl => exact ⟨rfl, hbound⟩
      | tail _ hstep ih =>
        cases hstep with
        | load a ts k j x r rest hk hr =>
          refine ⟨ih.1, ?_⟩
          intro k' o ho
          by_cases h : k' = k
          · subst h
            apply ih.2 k'
            simp only [Function.update_self] at ho
            simp only [hk]; exact ho
          · apply ih.2 k'
            simpa only [Function.update_of_ne h] using ho
        | store a ts k j x r rest hk hj =>
          refine ⟨by simpa using ih.1, ?_⟩
          intro k' o ho
          by_cases h : k' = k
          · subst h
            apply ih.2 k'
            simp only [Function.update_self] at ho
            simp only [hk]; exact List.mem_cons_of_mem _ ho
          · apply ih.2 k'
            simpa only [Function.update_of_ne h] using ho
    have := key _ hex
    rw [this.1]; exact this.2

/-- The model can express a lost update: two threads adding 1 to the same element may leave 1. -/
theorem shared_element_loses_update :
    ∃ ts' : Fin 2 → Thread, Done ts' ∧
      Exec ([0], fun _ => ⟨[(0, 1)], none⟩) ([1], ts') := by
  refine ⟨Function.update (Function.update (Function.update (Function.update
    (fun _ => ⟨[(0, 1)], none⟩) 0 ⟨[(0, 1)], some 0⟩) 1 ⟨[(0, 1)], some 0⟩) 0 ⟨[], none⟩) 1 ⟨[], none⟩,
    ?_, ?_⟩
  · intro k; fin_cases k <;> simp [Function.update]
  · have s1 := Step.load (n := 2) [0] (fun _ => ⟨[(0, 1)], none⟩) 0 0 1 0 [] rfl rfl
    have s2 := Step.load (n := 2) [0] _ 1 0 1 0 [] (show Function.update
      (fun _ => (⟨[(0, 1)], none⟩ : Thread)) (0 : Fin 2) ⟨[(0, 1)], some 0⟩ 1 = _ by simp) rfl
    have s3 := Step.store (n := 2) [0] _ 0 0 1 0 [] (show Function.update (Function.update
      (fun _ => (⟨[(0, 1)], none⟩ : Thread)) (0 : Fin 2) ⟨[(0, 1)], some 0⟩) 1 ⟨[(0, 1)], some 0⟩ 0 = _ by
        simp [Function.update]) (by simp)
    have s4 := Step.store (n := 2) ([0].set 0 (0 + 1)) _ 1 0 1 0 [] (show Function.update (Function.update
      (Function.update (fun _ => (⟨[(0, 1)], none⟩ : Thread)) (0 : Fin 2) ⟨[(0, 1)], some 0⟩) 1
        ⟨[(0, 1)], some 0⟩) 0 ⟨[], none⟩ 1 = _ by simp [Function.update]) (by simp)
    have := (((Relation.ReflTransGen.single s1).tail s2).tail s3).tail s4
    simpa [Exec] using this

/-- Witness: two sightlines, two threads. -/
example : ∃ prog : Fin 2 → List (ℕ × ℝ), ∀ a' ts',
    Exec ([0, 0, 0, 0], fun k => ⟨prog k, none⟩) (a', ts') → Done ts' →
    sequential true ⟨fun _ _ => 1, 0, 1, 1, 1, 1, 10, 1⟩ 2 10 [⟨3, ![5, 5, 0]⟩, ⟨1, ![5, 5, 0]⟩]
      [⟨![5, 5, 2], ![0, 0, 1], 1, 1e4, 1⟩] [0, 0, 0, 0] = .ok a' := by
  obtain ⟨prog, -, -, h⟩ := parallel_lines true ⟨fun _ _ => 1, 0, 1, 1, 1, 1, 10, 1⟩ (by decide)
    (nbins := 2) (by norm_num) 10 [⟨3, ![5, 5, 0]⟩, ⟨1, ![5, 5, 0]⟩] (by simp)
    [⟨![5, 5, 2], ![0, 0, 1], 1, 1e4, 1⟩] [0, 0, 0, 0] rfl [[1], [0]] (by
      change List.Perm [1, 0] [0, 1]; exact List.Perm.swap _ _ _)
  exact ⟨prog, fun a' ts' hex hd => (h a' ts' hex).1 hd⟩

end Verif.Props
