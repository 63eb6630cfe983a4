import Verif.Common

/-!
`#pragma omp parallel for` over a loop whose iterations are atomic: every thread owns a queue of
iterations; at each step any thread with work left runs its next iteration.
-/

namespace Verif

/-- `Interleaving queues trace`: `trace` is the order in which the iterations ran in some execution
of the threads with the given work queues, until all the queues are empty. -/
inductive Interleaving : List (List ℕ) → List ℕ → Prop where
  | done (queues : List (List ℕ)) (h : ∀ q ∈ queues, q = []) : Interleaving queues []
  | step (before : List (List ℕ)) (i : ℕ) (rest : List ℕ) (after : List (List ℕ)) (trace : List ℕ)
      (h : Interleaving (before ++ rest :: after) trace) :
      Interleaving (before ++ (i :: rest) :: after) (i :: trace)

/-- The runtime may give any iteration to any thread, each exactly once. -/
def ValidQueues (n : ℕ) (queues : List (List ℕ)) : Prop := queues.flatten.Perm (List.range n)

end Verif
