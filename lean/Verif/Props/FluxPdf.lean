import Verif.Model.FluxStats
import Verif.Lemmas.Arrays
import Verif.Spec.Flux

/-!
C21: the flux probability distribution.
-/

namespace Verif.Props
open Verif Verif.Np Verif.FluxStats Verif.Spec

open Classical in
/-- The number of pixels in a bin. -/
noncomputable def binCount (n i : ℕ) (fluxes : List ℝ) : ℕ := fluxes.countP (fun f => decide (InBin n i f))

/-- C21: every flux in [0,1] is in exactly one bin. -/
theorem one_bin {n : ℕ} (hn : 0 < n) {f : ℝ} (h0 : 0 ≤ f) (h1 : f ≤ 1) : ∃! i : ℕ, i < n ∧ InBin n i f := by
  have hnr : (0 : ℝ) < n := by exact_mod_cast hn
  by_cases hf : f = 1
  · subst hf
    refine ⟨n - 1, ⟨by omega, ?_, .inr ⟨by omega, le_rfl⟩⟩, ?_⟩
    · rw [div_le_one hnr]
      exact_mod_cast Nat.sub_le _ _
    · rintro j ⟨hj, h2, h3 | ⟨h3, -⟩⟩
      · exfalso
        rw [lt_div_iff₀ hnr] at h3
        have : (j : ℝ) + 1 ≤ n := by exact_mod_cast hj
        linarith
      · omega
  · have hlt : f < 1 := lt_of_le_of_ne h1 hf
    have hfl : 0 ≤ f * n := by positivity
    refine ⟨⌊f * n⌋₊, ⟨?_, ?_, .inl ?_⟩, ?_⟩
    · rw [Nat.floor_lt hfl]; nlinarith
    · rw [div_le_iff₀ hnr]; exact Nat.floor_le hfl
    · rw [lt_div_iff₀ hnr]; exact Nat.lt_floor_add_one _
    · rintro j ⟨hj, h2, h3⟩
      have h3' : f < ((j : ℝ) + 1) / n := by
        rcases h3 with h3 | ⟨h3, -⟩
        · exact h3
        · have : ((j : ℝ) + 1) = n := by exact_mod_cast h3
          rw [this, div_self hnr.ne']; exact hlt
      rw [div_le_iff₀ hnr] at h2
      rw [lt_div_iff₀ hnr] at h3'
      exact ((Nat.floor_eq_iff hfl).2 ⟨h2, h3'⟩).symm

theorem edge_last {n : ℕ} (hn : 0 < n) : pdfEdge n n = 1 := by
  unfold pdfEdge
  exact div_self (by exact_mod_cast hn.ne')

theorem cumCount_diff {n i : ℕ} (hi : i < n) (xs : List ℝ) :
    cumCount (pdfEdge n) n xs (i + 1) - cumCount (pdfEdge n) n xs i = (binCount n i xs : ℤ) := by
  have hnr : (0 : ℝ) < n := by exact_mod_cast (by omega : 0 < n)
  unfold cumCount binCount
  rw [if_neg (by omega : ¬i = n)]
  have hlt : pdfEdge n i < pdfEdge n (i + 1) := by
    unfold pdfEdge
    apply div_lt_div_of_pos_right _ hnr
    push_cast; linarith
  by_cases hl : i + 1 = n
  · rw [if_pos hl]
    have he : pdfEdge n (i + 1) = 1 := by rw [hl]; exact edge_last (by omega)
    rw [he] at hlt
    have he' : pdfEdge n n = 1 := edge_last (by omega)
    rw [he']
    have hiff : ∀ x, InBin n i x ↔ pdfEdge n i ≤ x ∧ x ≤ 1 := by
      intro x
      unfold InBin
      constructor
      · rintro ⟨h1, h2 | ⟨-, h2⟩⟩
        · refine ⟨h1, ?_⟩
          have : ((i : ℝ) + 1) = n := by exact_mod_cast hl
          rw [this, div_self hnr.ne'] at h2
          exact h2.le
        · exact ⟨h1, h2⟩
      · rintro ⟨h1, h2⟩
        exact ⟨h1, .inr ⟨hl, h2⟩⟩
    induction xs with
    | nil => rfl
    | cons x xs ih =>
      rw [List.countP_cons, List.countP_cons, List.countP_cons]
      push_cast
      have hx := hiff x
      by_cases a : x ≤ 1 <;> by_cases b : x < pdfEdge n i
      · have c : ¬InBin n i x := by rw [hx]; rintro ⟨h, -⟩; linarith
        simp only [a, b, c, decide_true, decide_false, if_true, if_false, Bool.false_eq_true] at ih ⊢
        push_cast
        linarith
      · have c : InBin n i x := by rw [hx]; exact ⟨not_lt.1 b, a⟩
        simp only [a, b, c, decide_true, decide_false, if_true, if_false, Bool.false_eq_true] at ih ⊢
        push_cast
        linarith
      · exfalso; linarith
      · have c : ¬InBin n i x := by rw [hx]; rintro ⟨-, h⟩; exact a h
        simp only [a, b, c, decide_false, if_false, Bool.false_eq_true] at ih ⊢
        push_cast
        linarith
  · rw [if_neg hl]
    have hiff : ∀ x, InBin n i x ↔ pdfEdge n i ≤ x ∧ x < pdfEdge n (i + 1) := by
      intro x
      unfold InBin pdfEdge
      push_cast
      constructor
      · rintro ⟨h1, h2 | ⟨h2, -⟩⟩
        · exact ⟨h1, h2⟩
        · exact absurd h2 hl
      · rintro ⟨h1, h2⟩
        exact ⟨h1, .inl h2⟩
    induction xs with
    | nil => rfl
    | cons x xs ih =>
      rw [List.countP_cons, List.countP_cons, List.countP_cons]
      push_cast
      have hx := hiff x
      by_cases a : x < pdfEdge n (i + 1) <;> by_cases b : x < pdfEdge n i
      · have c : ¬InBin n i x := by rw [hx]; rintro ⟨h, -⟩; linarith
        simp only [a, b, c, decide_true, decide_false, if_true, if_false, Bool.false_eq_true] at ih ⊢
        push_cast
        linarith
      · have c : InBin n i x := by rw [hx]; exact ⟨not_lt.1 b, a⟩
        simp only [a, b, c, decide_true, decide_false, if_true, if_false, Bool.false_eq_true] at ih ⊢
        push_cast
        linarith
      · exfalso; linarith
      · have c : ¬InBin n i x := by rw [hx]; rintro ⟨-, h⟩; exact a h
        simp only [a, b, c, decide_false, if_false, Bool.false_eq_true] at ih ⊢
        push_cast
        linarith

theorem histogram_eq (n : ℕ) (xs : List ℝ) :
    histogram (pdfEdge n) n xs = (List.range n).map (fun i => (binCount n i xs : ℤ)) := by
  unfold histogram
  apply List.map_congr_left
  intro i hi
  exact cumCount_diff (List.mem_range.1 hi) xs

theorem binCount_total {n : ℕ} (hn : 0 < n) (xs : List ℝ) (h : ∀ x ∈ xs, 0 ≤ x ∧ x ≤ 1) :
    ((List.range n).map (fun i => binCount n i xs)).sum = xs.length := by
  induction xs with
  | nil => simp [binCount]
  | cons x xs ih =>
    have ih' := ih (fun y hy => h y (by simp [hy]))
    obtain ⟨i, ⟨hi, hin⟩, huniq⟩ := one_bin hn (h x (by simp)).1 (h x (by simp)).2
    have : ∀ j ∈ List.range n, binCount n j (x :: xs) = binCount n j xs + if j = i then 1 else 0 := by
      intro j hj
      unfold binCount
      rw [List.countP_cons]
      congr 1
      by_cases hji : j = i
      · subst hji; simp [hin]
      · have : ¬InBin n j x := fun hc => hji (huniq j ⟨List.mem_range.1 hj, hc⟩)
        simp [this, hji]
    rw [List.map_congr_left this, List.sum_map_add, ih', List.length_cons]
    congr 1
    change (Multiset.map (fun a => if a = i then 1 else 0) (Multiset.range n)).sum = 1
    change ∑ a ∈ Finset.range n, (if a = i then 1 else 0) = 1
    simp [hi]

/-- C21: for optical depths and a scale that are not negative, the distribution has one value per bin, which is
the number of bins times the fraction of pixels with flux in the bin; none is negative, and times the bin width
they add up to one. -/
theorem flux_pdf_normalised {taus : List ℝ} {nbins : ℕ} {scale : ℝ} (hne : taus ≠ []) (ht : ∀ t ∈ taus, 0 ≤ t)
    (hs : 0 ≤ scale) (hn : 0 < nbins) :
    ∃ centres pdf, flux_pdf taus nbins scale = some (centres, pdf) ∧
      centres = (List.range nbins).map (fun i : ℕ => ((i : ℝ) + 1 / 2) / nbins) ∧
      pdf = (List.range nbins).map (fun i =>
        nbins * (binCount nbins i (taus.map (fun t => Real.exp (-(scale * t)))) : ℝ) / taus.length) ∧
      (∀ x ∈ pdf, 0 ≤ x) ∧ (pdf.map (fun x : ℝ => x * (1 / nbins))).sum = 1 := by
  have hnr : (0 : ℝ) < nbins := by exact_mod_cast hn
  have hflux : taus.map (fun t => Real.exp (-scale * t)) = taus.map (fun t => Real.exp (-(scale * t))) := by
    apply List.map_congr_left; intro t _; rw [neg_mul]
  set xs := taus.map (fun t => Real.exp (-(scale * t))) with hxs
  have hrange : ∀ x ∈ xs, 0 ≤ x ∧ x ≤ 1 := by
    intro x hx
    obtain ⟨t, htm, rfl⟩ := List.mem_map.1 hx
    refine ⟨(Real.exp_pos _).le, Real.exp_le_one_iff.2 ?_⟩
    have := mul_nonneg hs (ht t htm)
    linarith
  have hlen : xs.length = taus.length := by simp [hxs]
  have htotal := binCount_total hn xs hrange
  have hlpos : 0 < taus.length := List.length_pos_iff.2 hne
  have hlr : (0 : ℝ) < taus.length := by exact_mod_cast hlpos
  have hsum : (histogram (pdfEdge nbins) nbins xs).sum = (taus.length : ℤ) := by
    rw [histogram_eq, ← hlen, ← htotal]
    push_cast
    rw [List.map_map]
    rfl
  have hpdf : density (pdfEdge nbins) nbins xs = some ((List.range nbins).map (fun i =>
      nbins * (binCount nbins i xs : ℝ) / taus.length)) := by
    unfold density
    dsimp only
    rw [hsum, if_neg (by omega), histogram_eq, List.zipWith_map_right, List.zipWith_self]
    congr 1
    apply List.map_congr_left
    intro i _
    unfold pdfEdge
    push_cast
    have : ((i : ℝ) + 1) / nbins - i / nbins = 1 / nbins := by ring
    rw [this]
    field_simp
  refine ⟨(List.range nbins).map (fun i => (pdfEdge nbins (i + 1) + pdfEdge nbins i) / 2), _, ?_, ?_, rfl, ?_, ?_⟩
  · unfold flux_pdf
    dsimp only
    rw [hflux, hpdf]
    rfl
  · apply List.map_congr_left
    intro i _
    unfold pdfEdge
    push_cast
    field_simp
    ring
  · intro x hx
    obtain ⟨i, -, rfl⟩ := List.mem_map.1 hx
    positivity
  · rw [List.map_map]
    have : ((fun x : ℝ => x * (1 / nbins)) ∘ fun i => nbins * (binCount nbins i xs : ℝ) / taus.length) =
        fun i => (binCount nbins i xs : ℝ) * (1 / taus.length) := by
      funext i
      simp only [Function.comp_apply]
      field_simp
    rw [this, List.sum_map_mul_right]
    have h2 : ((List.range nbins).map (fun i => (binCount nbins i xs : ℝ))).sum = taus.length := by
      rw [← hlen, ← htotal]
      push_cast
      rw [List.map_map]
      rfl
    rw [h2]
    field_simp

/-- C21: the histogram of the stand-alone program stays inside its array whatever the optical depths. -/
theorem c_bin_in_range {pbins : ℕ} (hp : 0 < pbins) (scale tau : ℝ) :
    0 ≤ cBin pbins scale tau ∧ cBin pbins scale tau < pbins := by
  unfold cBin
  dsimp only
  split
  · omega
  · next h =>
    have hpos : 0 < Real.exp (-scale * tau) * pbins :=
      mul_pos (Real.exp_pos _) (by exact_mod_cast hp)
    refine ⟨Int.floor_nonneg.2 hpos.le, ?_⟩
    rw [Int.floor_lt]
    push_cast
    linarith

/-- C21: the stand-alone program and the Python function compute the same distribution. -/
theorem c_pdf_agrees {taus : List ℝ} {pbins : ℕ} {scale : ℝ} (hne : taus ≠ []) (ht : ∀ t ∈ taus, 0 ≤ t)
    (hs : 0 ≤ scale) (hp : 0 < pbins) :
    ∃ centres pdf, flux_pdf taus pbins scale = some (centres, pdf) ∧ calc_pdf pbins scale taus = .ok pdf := by
  obtain ⟨centres, pdf, h1, -, h3, -⟩ := flux_pdf_normalised hne ht hs hp
  refine ⟨centres, pdf, h1, ?_⟩
  have hpr : (0 : ℝ) < pbins := by exact_mod_cast hp
  unfold calc_pdf
  rw [foldlM_arrAdd _ (fun t j => if (j : ℤ) = cBin pbins scale t then 1 else 0) pbins taus (by
    intro t _ a ha
    have := c_bin_in_range hp scale t
    exact addAt_eq 1 this.1 (by rw [ha]; exact this.2)) _ (by simp)]
  change Except.ok _ = _
  congr 1
  rw [h3]
  apply List.ext_getElem?
  intro j
  rw [List.getElem?_map, arrAdd_getElem?, List.getElem?_map]
  by_cases hj : j < pbins
  · rw [List.getElem?_replicate, if_pos hj, List.getElem?_range hj]
    simp only [Option.map_some, Option.some.injEq, zero_add]
    have : (taus.map (fun t => if (j : ℤ) = cBin pbins scale t then (1 : ℝ) else 0)).sum =
        (binCount pbins j (taus.map (fun t => Real.exp (-(scale * t)))) : ℝ) := by
      clear h1 h3 hne
      induction taus with
      | nil => simp [binCount]
      | cons t taus ih =>
        have ih' := ih (fun x hx => ht x (by simp [hx]))
        rw [List.map_cons, List.sum_cons, ih', List.map_cons]
        unfold binCount
        rw [List.countP_cons]
        push_cast
        rw [add_comm]
        congr 1
        have hf0 : 0 < Real.exp (-(scale * t)) := Real.exp_pos _
        have hf1 : Real.exp (-(scale * t)) ≤ 1 :=
          Real.exp_le_one_iff.2 (by have := mul_nonneg hs (ht t (by simp)); linarith)
        have hiff : (j : ℤ) = cBin pbins scale t ↔ InBin pbins j (Real.exp (-(scale * t))) := by
          have hin : InBin pbins (cBin pbins scale t).toNat (Real.exp (-(scale * t))) := by
            have hr := c_bin_in_range hp scale t
            unfold cBin at hr ⊢
            dsimp only at hr ⊢
            rw [neg_mul] at hr ⊢
            split
            · next hge =>
              have e : ((pbins : ℤ) - 1).toNat = pbins - 1 := by omega
              rw [e]
              refine ⟨?_, .inr ⟨by omega, hf1⟩⟩
              rw [div_le_iff₀ hpr]
              push_cast [Nat.cast_sub (show 1 ≤ pbins from hp)]
              exact hge
            · next hge =>
              rw [if_neg hge] at hr
              have e : (((⌊Real.exp (-(scale * t)) * pbins⌋.toNat : ℕ) : ℝ)) =
                  (⌊Real.exp (-(scale * t)) * pbins⌋ : ℝ) := by
                have := Int.toNat_of_nonneg hr.1
                exact_mod_cast this
              refine ⟨?_, .inl ?_⟩
              · rw [div_le_iff₀ hpr, e]; exact Int.floor_le _
              · rw [lt_div_iff₀ hpr, e]; exact Int.lt_floor_add_one _
          have hr := c_bin_in_range hp scale t
          obtain ⟨i, -, huniq⟩ := one_bin hp hf0.le hf1
          constructor
          · intro h
            have : (cBin pbins scale t).toNat = j := by omega
            rw [← this]; exact hin
          · intro h
            have a := huniq j ⟨hj, h⟩
            have b := huniq _ ⟨by omega, hin⟩
            omega
        by_cases hc : (j : ℤ) = cBin pbins scale t
        · simp [hc, hiff.1 hc]
        · have : ¬InBin pbins j (Real.exp (-(scale * t))) := fun h => hc (hiff.2 h)
          simp [hc, this]
    rw [this]
    field_simp
  · rw [List.getElem?_replicate, if_neg hj, List.getElem?_eq_none (by simpa using hj)]
    rfl

/-- Witness: three pixels in two bins. -/
example : ∃ centres pdf, flux_pdf [0, 1, 5] 2 1 = some (centres, pdf) ∧ calc_pdf 2 1 [0, 1, 5] = .ok pdf :=
  c_pdf_agrees (by simp) (by simp) (by norm_num) (by norm_num)

/-! Witnesses for the theorems above. -/

example := one_bin (n := 20) (by norm_num) (f := 0.35) (by norm_num) (by norm_num)

example := binCount_total (n := 2) (by norm_num) [0, 0.3, 1] (by simp; norm_num)

example := flux_pdf_normalised (taus := [0, 1, 5]) (nbins := 2) (scale := 1) (by simp) (by simp) (by norm_num) (by norm_num)

example := c_bin_in_range (pbins := 20) (by norm_num) 0.9 3

end Verif.Props
