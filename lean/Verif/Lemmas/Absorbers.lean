import Verif.Model.Absorbers
import Verif.Lemmas.Histogram
import Mathlib.Data.List.GetD

/-! Tables made by `np.arange`: edges, widths, centres, counts. -/

namespace Verif.Absorbers
open Verif.Np Verif.Spec

theorem zip_tail {α : Type} (f : ℝ → ℝ → α) (e : ℕ → ℝ) (m : ℕ) :
    ((List.range m).map e).tail.zipWith f ((List.range m).map e) =
      (List.range (m - 1)).map (fun i => f (e (i + 1)) (e i)) := by
  apply List.ext_getElem
  · simp
  · intro i h1 h2
    simp

theorem zip_tail' {α : Type} (f : ℝ → ℝ → α) (e : ℕ → ℝ) (m : ℕ) :
    ((List.range m).map e).zipWith f ((List.range m).map e).tail =
      (List.range (m - 1)).map (fun i => f (e i) (e (i + 1))) := by
  apply List.ext_getElem
  · simp
  · intro i h1 h2
    simp

theorem zip_maps {α β γ : Type} (f : α → β → γ) (a : ℕ → α) (b : ℕ → β) (n : ℕ) :
    ((List.range n).map a).zipWith f ((List.range n).map b) = (List.range n).map (fun i => f (a i) (b i)) := by
  apply List.ext_getElem
  · simp
  · intro i h1 h2
    simp

theorem histogramOf_range {e : ℕ → ℝ} (m : ℕ) (he : Monotone e) (xs : List ℝ) :
    histogramOf ((List.range m).map e) xs =
      .ok ((List.range (m - 1)).map (fun i => (Spec.count (InEdges e (m - 1) i) xs : ℤ))) := by
  unfold histogramOf
  have hc : ((List.range m).map e).IsChain (· ≤ ·) := by
    apply List.Pairwise.isChain
    rw [List.pairwise_map]
    exact List.pairwise_lt_range.imp (fun h => he h.le)
  rw [if_pos hc]
  congr 1
  have hlen : ((List.range m).map e).length - 1 = m - 1 := by simp
  rw [hlen]
  have hd : ∀ i < m, ((List.range m).map e).getD i 0 = e i := by
    intro i hi
    rw [List.getD_eq_getElem _ _ (by simpa using hi)]
    simp
  rw [histogram_counts (by
    intro i hi
    rw [hd i (by omega), hd (i + 1) (by omega)]
    exact he (by omega))]
  apply List.map_congr_left
  intro i hi
  have hi := List.mem_range.1 hi
  congr 1
  apply count_congr
  intro x _
  unfold InEdges
  dsimp only
  rw [hd i (by omega), hd (i + 1) (by omega)]

end Verif.Absorbers
