import Verif.Model.DistPlots
import Verif.Props.ColumnDensity
import Verif.Lemmas.Numpy

/-!
C106: plots of distributions and correlations show each spectrum once.
-/

namespace Verif.Props.DistPlots
open Verif Verif.Np Verif.Absorbers Verif.Spec Verif.DistPlots

/-! ### Histograms -/

/-- Edge `i` of bins of equal width from `a` to `b`. -/
noncomputable def edge (a b : ℝ) (n i : ℕ) : ℝ := a + i * ((b - a) / n)

theorem edge_zero (a b : ℝ) (n : ℕ) : edge a b n 0 = a := by unfold edge; simp

theorem edge_last {a b : ℝ} {n : ℕ} (hn : 0 < n) : edge a b n n = b := by
  unfold edge
  have : (n : ℝ) ≠ 0 := by exact_mod_cast hn.ne'
  field_simp
  ring

theorem edge_lt {a b : ℝ} (hab : a < b) {n : ℕ} (hn : 0 < n) {i j : ℕ} (h : i < j) : edge a b n i < edge a b n j := by
  unfold edge
  have h1 : (0 : ℝ) < n := by exact_mod_cast hn
  have h2 : (i : ℝ) < j := by exact_mod_cast h
  have : 0 < (b - a) / n := div_pos (by linarith) h1
  nlinarith

theorem edge_mono {a b : ℝ} (hab : a < b) {n : ℕ} (hn : 0 < n) : Monotone (edge a b n) := by
  intro i j h
  rcases h.lt_or_eq with h | h
  · exact (edge_lt hab hn h).le
  · rw [h]

theorem edge_width (a b : ℝ) (n i : ℕ) : edge a b n (i + 1) - edge a b n i = (b - a) / n := by
  unfold edge; push_cast; ring

theorem linspace_eq (a b : ℝ) (n : ℕ) : linspace a b (n + 1) = (List.range (n + 1)).map (edge a b n) := by
  unfold linspace edge
  simp

/-- A normalised histogram over `n` bins of equal width from `a` to `b`: `mid` are the middles of the bins, and `dens` the shares of
the numbers in the bins among all numbers from `a` to `b`, per unit of `x`; not a number if there are none. -/
structure Shows (a b : ℝ) (n : ℕ) (xs : List ℝ) (mid : List ℝ) (dens : Option (List ℝ)) : Prop where
  mids : mid = (List.range n).map (fun i : ℕ => a + (i + 1 / 2) * ((b - a) / n))
  none : dens = none ↔ ∀ x ∈ xs, ¬(a ≤ x ∧ x ≤ b)
  share : ∀ d, dens = some d → d = (List.range n).map (fun i => (count (InEdges (edge a b n) n i) xs : ℝ) /
    count (fun x => a ≤ x ∧ x ≤ b) xs / ((b - a) / n))

/-- The values of a normalised histogram times the bin width add up to one. -/
theorem Shows.total {a b : ℝ} (hab : a < b) {n : ℕ} (hn : 0 < n) {xs mid : List ℝ} {d : List ℝ} (h : Shows a b n xs mid (some d)) :
    (d.map (fun x => x * ((b - a) / n))).sum = 1 := by
  have h1 : (0 : ℝ) < n := by exact_mod_cast hn
  have hw : (b - a) / n ≠ 0 := ne_of_gt (div_pos (by linarith) h1)
  have ht := histogram_total hn (fun i _ => edge_mono hab hn (Nat.le_succ i)) xs
  rw [edge_zero, edge_last hn] at ht
  have hne : ∃ x ∈ xs, a ≤ x ∧ x ≤ b := by
    by_contra hc
    push Not at hc
    have := h.none.2 (fun x hx hh => absurd hh.2 (not_le.2 (hc x hx hh.1)))
    cases this
  have hpos : 0 < count (fun x => a ≤ x ∧ x ≤ b) xs := by
    obtain ⟨x, hx, hh⟩ := hne
    unfold count
    apply List.length_pos_of_mem (a := x)
    rw [List.mem_filter]
    exact ⟨hx, by simpa using hh⟩
  rw [h.share d rfl, List.map_map]
  have e : ((List.range n).map ((fun x => x * ((b - a) / n)) ∘ fun i => (count (InEdges (edge a b n) n i) xs : ℝ) /
      count (fun x => a ≤ x ∧ x ≤ b) xs / ((b - a) / n))).sum =
      ∑ i ∈ Finset.range n, (count (InEdges (edge a b n) n i) xs : ℝ) / count (fun x => a ≤ x ∧ x ≤ b) xs := by
    rw [← Np.sum_map_range]
    congr 1
    apply List.map_congr_left
    intro i _
    simp only [Function.comp]
    rw [div_mul_cancel₀ _ hw]
  rw [e, ← Finset.sum_div, ← Nat.cast_sum, ht]
  apply div_self
  exact_mod_cast hpos.ne'

theorem plotDist_shows {a b : ℝ} (hab : a < b) {n : ℕ} (hn : 0 < n) (xs : List (Option ℝ)) :
    ∃ mid dens, plotDist (linspace a b (n + 1)) xs = .ok (mid, dens) ∧ Shows a b n (xs.filterMap id) mid dens := by
  have hm := edge_mono hab hn
  set X := xs.filterMap id with hX
  set H := (List.range n).map (fun i => (count (InEdges (edge a b n) n i) X : ℤ)) with hH
  have hrun : plotDist (linspace a b (n + 1)) xs = .ok ((List.range n).map (fun i => (edge a b n i + edge a b n (i + 1)) / 2),
      normalise H ((List.range n).map (fun i => edge a b n (i + 1) - edge a b n i))) := by
    unfold plotDist middles
    rw [linspace_eq, histogramOf_range _ hm, zip_tail, zip_tail', ← hX]
    rfl
  refine ⟨_, _, hrun, ?_, ?_, ?_⟩
  · apply List.map_congr_left
    intro i _
    unfold edge
    push_cast
    ring
  all_goals
    have ht := histogram_total hn (fun i _ => hm (Nat.le_succ i)) X
    rw [edge_zero, edge_last hn] at ht
    have hsum : H.sum = ((count (fun x => a ≤ x ∧ x ≤ b) X : ℕ) : ℤ) := by
      rw [← ht, hH]; push_cast; rfl
    have hHne : H ≠ [] := by
      intro hc
      have := congrArg List.length hc
      rw [hH] at this
      simp at this
      omega
    unfold normalise
    rw [if_neg hHne, hsum]
  · have hz : ((count (fun x => a ≤ x ∧ x ≤ b) X : ℕ) : ℤ) = 0 ↔ ∀ x ∈ X, ¬(a ≤ x ∧ x ≤ b) := by
      unfold count
      rw [Int.natCast_eq_zero, List.length_eq_zero_iff, List.filter_eq_nil_iff]
      simp only [decide_eq_true_eq]
    rw [← hz]
    split <;> simp_all
  · intro d hd
    split at hd
    · cases hd
    · cases hd
      rw [hH, zip_maps]
      apply List.map_congr_left
      intro i _
      rw [edge_width]
      push_cast
      ring

/-! ### C106: distributions -/

/-- The logarithms of the numbers greater than 0. -/
noncomputable def logs (xs : List (Option ℝ)) : List ℝ := ((xs.filterMap id).filter (fun x => decide (0 < x))).map (Real.logb 10)

theorem logs_eq (xs : List (Option ℝ)) : (xs.map log10).filterMap id = logs xs := by
  unfold logs
  induction xs with
  | nil => rfl
  | cons x xs ih =>
    cases x with
    | none => exact ih
    | some x =>
      by_cases h : 0 < x
      · simp only [List.map_cons, log10, if_pos h, List.filterMap_cons_some (f := id) rfl, ih]
        rw [List.filter_cons_of_pos (by simpa using h), List.map_cons]
      · simp only [List.map_cons, log10, if_neg h, List.filterMap_cons_none (f := id) rfl, List.filterMap_cons_some (f := id) rfl, ih]
        rw [List.filter_cons_of_neg (by simpa using h)]

/-- C106. The plot of metallicities shows the distribution of the logarithms of those which are greater than 0 and finite: `n + 1`
bins asked for are `n` bins between -3 and 0. -/
theorem plot_metallicity_shows {n : ℕ} (hn : 0 < n) (met : List (Option ℝ)) :
    ∃ mid dens, plotMetallicity met (n + 1) = .ok (mid, dens) ∧ Shows (-3) 0 n (logs met) mid dens := by
  obtain ⟨mid, dens, h1, h2⟩ := plotDist_shows (by norm_num : (-3 : ℝ) < 0) hn (met.map log10)
  rw [logs_eq] at h2
  exact ⟨mid, dens, h1, h2⟩

/-- C106. The metallicities of all sightlines, or of a species, are what is plotted. -/
theorem plot_metallicity_of {n : ℕ} (hn : 0 < n) (MM HH : List (List ℝ)) (npix : ℕ) (dvbin solarz width : ℝ)
    {met : List (Option ℝ)} (h : WeightMean.get_metallicity MM HH npix dvbin solarz width = .ok met) :
    ∃ mid dens, plot_metallicity MM HH npix dvbin solarz (n + 1) width = .ok (mid, dens) ∧ Shows (-3) 0 n (logs met) mid dens := by
  obtain ⟨mid, dens, h1, h2⟩ := plot_metallicity_shows hn met
  refine ⟨mid, dens, ?_, h2⟩
  unfold plot_metallicity
  rw [h]
  exact h1

theorem plot_species_of {n : ℕ} (hn : 0 < n) (elem : String) (MM HH : List (List ℝ))
    {met : List (Option ℝ)} (h : WeightMean.get_ion_metallicity elem MM HH = .ok met) :
    ∃ mid dens, plot_species_metallicity elem MM HH (n + 1) = .ok (mid, dens) ∧ Shows (-3) 0 n (logs met) mid dens := by
  obtain ⟨mid, dens, h1, h2⟩ := plot_metallicity_shows hn met
  refine ⟨mid, dens, ?_, h2⟩
  unfold plot_species_metallicity
  rw [h]
  exact h1

/-- The quotients of two numbers which are both greater than 0 and finite. -/
noncomputable def quotients : List (Option ℝ) → List (Option ℝ) → List ℝ
  | some m :: ms, some i :: is => if 0 < m ∧ 0 < i then i / m :: quotients ms is else quotients ms is
  | _ :: ms, _ :: is => quotients ms is
  | _, _ => []

theorem quotients_eq (ms is : List (Option ℝ)) :
    (List.zipWith logRatio ms is).filterMap id = (quotients ms is).map (Real.logb 10) := by
  induction ms generalizing is with
  | nil => simp [quotients]
  | cons m ms ih =>
    cases is with
    | nil => simp [quotients]
    | cons i is =>
      have hn : ∀ (o : Option ℝ), o = none → (o :: List.zipWith logRatio ms is).filterMap id = (quotients ms is).map (Real.logb 10) := by
        rintro _ rfl
        exact ih is
      rw [List.zipWith_cons_cons]
      cases m with
      | none =>
        rw [hn _ (by cases h : log10 i <;> simp [logRatio, log10, h])]
        simp [quotients]
      | some m =>
        cases i with
        | none =>
          rw [hn _ (by simp [logRatio, log10])]
          simp [quotients]
        | some i =>
          by_cases h : 0 < m ∧ 0 < i
          · have : logRatio (some m) (some i) = some (Real.logb 10 (i / m)) := by
              rw [Real.logb_div h.2.ne' h.1.ne']
              simp [logRatio, log10, h.1, h.2]
            rw [this, List.filterMap_cons_some (f := id) rfl, ih is, quotients, if_pos h, List.map_cons]
          · rw [hn _ ?_, quotients, if_neg h]
            by_cases h1 : 0 < m
            · have h2 : ¬0 < i := fun h2 => h ⟨h1, h2⟩
              simp [logRatio, log10, h2]
            · cases hi : log10 (some i) <;> simp [logRatio, hi, log10, h1]

/-- C106. The plot of the ionization correction shows the distribution of the logarithm of the quotient of the two
metallicities, between a tenth and ten. -/
theorem plot_ion_corr_shows {n : ℕ} (hn : 0 < n) {met : List (Option ℝ)} (hne : met ≠ []) (ionMet : List (Option ℝ)) :
    ∃ mid dens, plot_ion_corr met ionMet (n + 1) = .ok (mid, dens) ∧
      Shows (-1) 1 n ((quotients met ionMet).map (Real.logb 10)) mid dens := by
  obtain ⟨mid, dens, h1, h2⟩ := plotDist_shows (by norm_num : (-1 : ℝ) < 1) hn (List.zipWith logRatio met ionMet)
  rw [quotients_eq] at h2
  refine ⟨mid, dens, ?_, h2⟩
  unfold plot_ion_corr
  rw [if_neg hne]
  exact h1

/-- A metallicity of a thousandth of the sun, one of the sun, one without metals and one without hydrogen. -/
example : (logs [some 1e-3, some 1, some 0, none]).length = 2 ∧ (∀ x ∈ logs [some 1e-3, some 1, some 0, none], -3 ≤ x ∧ x ≤ 0) ∧
    ([some 1e-3, some 1, some 0, none] : List (Option ℝ)) ≠ [] := by
  have h : Real.logb 10 1e-3 = -3 := by
    rw [show (1e-3 : ℝ) = 10 ^ (-3 : ℝ) by norm_num [Real.rpow_neg]]
    exact Real.logb_rpow (by norm_num) (by norm_num)
  have hl : logs [some 1e-3, some 1, some 0, none] = [-3, 0] := by
    have : (0 : ℝ) < 1e-3 := by norm_num
    simp [logs, h, this, List.filter_cons]
  rw [hl]
  refine ⟨rfl, ?_, by simp⟩
  simp

/-- C106. The plotted column density function is that of the spectra from a decade below the lower to a decade above the upper
limit, multiplied with the column density if the moment is asked for. -/
theorem plot_cddf_shows {o : Obj} {dlogN minN maxN : ℝ} {moment line dX : Bool} {rho : List (List ℝ)} (hd : 0 < dlogN)
    {n : ℕ} (hn : n = ⌈(maxN - minN + 2) / dlogN⌉₊ - 1) :
    ∃ centers vals, plot_cddf o dlogN minN maxN moment dX line rho = .ok (centers, vals) ∧ centers.length = n ∧ vals.length = n ∧
      ∀ i < n, ∃ N f, centers[i]? = some N ∧ vals[i]? = some (if moment then f * N else f) ∧
        N = (logEdge (minN - 1) dlogN i + logEdge (minN - 1) dlogN (i + 1)) / 2 ∧
        f = count (InEdges (logEdge (minN - 1) dlogN) n i) (countedAbsorbers line (cbins 50 o.dvbin) rho) /
          ((logEdge (minN - 1) dlogN (i + 1) - logEdge (minN - 1) dlogN i) * o.dist dX * (rho.length + o.discarded)) := by
  obtain ⟨c, v, h1, h2, h3, h4⟩ := cddf_spec (o := o) (dlogN := dlogN) (minN := minN - 1) (maxN := maxN + 1) (close := 50)
    (line := line) (dX := dX) (rho := rho) hd (n := n) (by rw [hn]; congr 3; ring)
  refine ⟨c, if moment then v.zipWith (· * ·) c else v, ?_, h2, ?_, ?_⟩
  · unfold plot_cddf
    rw [h1]
    rfl
  · cases moment
    · exact h3
    · simp [h2, h3]
  · intro i hi
    obtain ⟨a, b⟩ := h4 i hi
    refine ⟨_, _, a, ?_, rfl, rfl⟩
    cases moment
    · exact b
    · simp only [if_true]
      rw [List.getElem?_zipWith, a, b]

/-! ### C106: correlations -/

theorem countP_range (p : ℕ → Bool) {n k : ℕ} (hk : k ≤ n) (h1 : ∀ j < k, p j = true) (h2 : ∀ j, k ≤ j → j < n → p j = false) :
    (List.range n).countP p = k := by
  rw [List.countP_eq_length_filter]
  have : (List.range n).filter p = List.range k := by
    obtain ⟨d, rfl⟩ := Nat.exists_eq_add_of_le hk
    rw [List.range_add, List.filter_append, List.filter_eq_self.2 (by intro a ha; exact h1 a (List.mem_range.1 ha)),
      List.filter_eq_nil_iff.2, List.append_nil]
    intro a ha
    obtain ⟨j, hj, rfl⟩ := List.mem_map.1 ha
    rw [h2 (k + j) (by omega) (by have := List.mem_range.1 hj; omega)]
    simp
  rw [this, List.length_range]

/-- A value is put into the bin it lies in. -/
theorem binOf_spec {a b : ℝ} (hab : a < b) {n : ℕ} (hn : 0 < n) {x : ℝ} (ha : a ≤ x) (hb : x ≤ b) {i : ℕ} (hi : i < n) :
    binOf (linspace a b (n + 1)) x = (i : ℤ) ↔ InEdges (edge a b n) n i x := by
  have hm := edge_mono hab hn
  obtain ⟨k, ⟨hk, hin⟩, hu⟩ := inEdges_unique hn (fun i _ => hm (Nat.le_succ i)) (x := x) (by rwa [edge_zero]) (by rwa [edge_last hn])
  have hlast : (linspace a b (n + 1)).getLast? = some b := by
    rw [linspace_eq, List.range_succ, List.map_append, List.getLast?_append]
    simp [edge_last hn]
  have hbin : binOf (linspace a b (n + 1)) x = (k : ℤ) := by
    unfold binOf
    rw [hlast, linspace_eq, List.countP_map]
    by_cases hx : x < edge a b n (k + 1)
    · have hc : (List.range (n + 1)).countP ((fun e => decide (e ≤ x)) ∘ edge a b n) = k + 1 := by
        apply countP_range _ (by omega)
        · intro j hj
          simp only [Function.comp, decide_eq_true_eq]
          exact (hm (by omega)).trans hin.1
        · intro j hj _
          simp only [Function.comp, decide_eq_false_iff_not, not_le]
          exact hx.trans_le (hm hj)
      have hne : b ≠ x := by
        have := hm (show k + 1 ≤ n by omega)
        rw [edge_last hn] at this
        linarith
      rw [hc, if_neg (by simpa using hne)]
      push_cast; ring
    · obtain ⟨h1, h2⟩ := hin.2.resolve_left hx
      have hxb : x = b := le_antisymm hb (by
        have := not_lt.1 hx
        rwa [h1, edge_last hn] at this)
      have hc : (List.range (n + 1)).countP ((fun e => decide (e ≤ x)) ∘ edge a b n) = n + 1 := by
        apply countP_range _ le_rfl
        · intro j hj
          simp only [Function.comp, decide_eq_true_eq]
          have := hm (show j ≤ n by omega)
          rw [edge_last hn] at this
          rw [hxb]; exact this
        · intro j hj hj2
          omega
      rw [hc, if_pos (by rw [hxb])]
      have : (n : ℤ) = k + 1 := by exact_mod_cast h1.symm
      push_cast; linarith
  rw [hbin]
  constructor
  · intro h
    have : k = i := by exact_mod_cast h
    rw [← this]; exact hin
  · intro h
    rw [hu i ⟨hi, h⟩]

theorem autoRange_spec (xs : List ℝ) : (autoRange xs).1 < (autoRange xs).2 ∧ ∀ x ∈ xs, (autoRange xs).1 ≤ x ∧ x ≤ (autoRange xs).2 := by
  unfold autoRange
  by_cases h : xs = []
  · subst h
    simp [minOf, maxOf]
  · obtain ⟨lo, h1, h2, h3⟩ := minOf_spec h
    obtain ⟨hi, h4, h5, h6⟩ := maxOf_spec h
    rw [h1, h4]
    dsimp only
    split
    · rename_i he
      subst he
      refine ⟨by norm_num; linarith, fun x hx => ?_⟩
      have := h3 x hx
      have := h6 x hx
      constructor <;> norm_num <;> linarith
    · rename_i he
      exact ⟨lt_of_le_of_ne (h3 hi h5) he, fun x hx => ⟨h3 x hx, h6 x hx⟩⟩

open Classical in
/-- The number of points with a property. -/
noncomputable def countPts (P : ℝ × ℝ → Prop) (pts : List (ℝ × ℝ)) : ℕ := (pts.filter (fun p => decide (P p))).length

/-- A two-dimensional histogram of `pts` in `n` times `n` cells of equal size, over ranges that hold all the points: `H` has
the number of points in each cell, and each point is in one. -/
structure Cells (pts : List (ℝ × ℝ)) (n : ℕ) (ax bx ay by' : ℝ) (H : List (List ℕ)) : Prop where
  xrange : ax < bx ∧ ∀ p ∈ pts, ax ≤ p.1 ∧ p.1 ≤ bx
  yrange : ay < by' ∧ ∀ p ∈ pts, ay ≤ p.2 ∧ p.2 ≤ by'
  cell : H = (List.range n).map (fun i => (List.range n).map (fun j =>
    countPts (fun p => InEdges (edge ax bx n) n i p.1 ∧ InEdges (edge ay by' n) n j p.2) pts))
  total : (H.map List.sum).sum = pts.length

theorem sum_nat_range (f : ℕ → ℕ) (n : ℕ) : ((List.range n).map f).sum = ∑ i ∈ Finset.range n, f i := rfl

theorem countPts_total {n : ℕ} {P : ℕ → ℕ → ℝ × ℝ → Prop} {pts : List (ℝ × ℝ)}
    (h : ∀ p ∈ pts, ∃ i j, i < n ∧ j < n ∧ ∀ i' j', i' < n → j' < n → (P i' j' p ↔ i' = i ∧ j' = j)) :
    ∑ i ∈ Finset.range n, ∑ j ∈ Finset.range n, countPts (P i j) pts = pts.length := by
  classical
  induction pts with
  | nil => simp [countPts]
  | cons p pts ih =>
    have hc : ∀ i j, countPts (P i j) (p :: pts) = countPts (P i j) pts + if P i j p then 1 else 0 := by
      intro i j
      unfold countPts
      by_cases hp : P i j p
      · rw [List.filter_cons_of_pos (by simpa using hp), if_pos hp, List.length_cons]
      · rw [List.filter_cons_of_neg (by simpa using hp), if_neg hp, Nat.add_zero]
    simp only [hc, Finset.sum_add_distrib]
    rw [ih (fun q hq => h q (List.mem_cons_of_mem _ hq)), List.length_cons]
    congr 1
    obtain ⟨i, j, hi, hj, hij⟩ := h p List.mem_cons_self
    rw [Finset.sum_eq_single i, Finset.sum_eq_single j]
    · rw [if_pos ((hij i j hi hj).2 ⟨rfl, rfl⟩)]
    · intro j' hj' hne
      rw [if_neg]
      intro hc
      exact hne ((hij i j' hi (Finset.mem_range.1 hj')).1 hc).2
    · intro hc
      exact absurd (Finset.mem_range.2 hj) hc
    · intro i' hi' hne
      apply Finset.sum_eq_zero
      intro j' hj'
      rw [if_neg]
      intro hc
      exact hne ((hij i' j' (Finset.mem_range.1 hi') (Finset.mem_range.1 hj')).1 hc).1
    · intro hc
      exact absurd (Finset.mem_range.2 hi) hc

/-- The points of a plot, if all coordinates are finite. -/
theorem histogram2d_cells {n : ℕ} (hn : 0 < n) (ps : List (ℝ × ℝ)) :
    ∃ ax bx ay by' H, histogram2d (ps.map (fun p => (some p.1, some p.2))) n =
      .ok (linspace ax bx (n + 1), linspace ay by' (n + 1), H) ∧ Cells ps n ax bx ay by' H := by
  classical
  have hmap : (ps.map (fun p => (some p.1, some p.2))).mapM finite = .ok ps := by
    induction ps with
    | nil => rfl
    | cons p ps ih =>
      rw [List.map_cons, List.mapM_cons, ih]
      rfl
  have hx := autoRange_spec (ps.map Prod.fst)
  have hy := autoRange_spec (ps.map Prod.snd)
  have hx' : ∀ p ∈ ps, (autoRange (ps.map Prod.fst)).1 ≤ p.1 ∧ p.1 ≤ (autoRange (ps.map Prod.fst)).2 :=
    fun p hp => hx.2 p.1 (List.mem_map_of_mem hp)
  have hy' : ∀ p ∈ ps, (autoRange (ps.map Prod.snd)).1 ≤ p.2 ∧ p.2 ≤ (autoRange (ps.map Prod.snd)).2 :=
    fun p hp => hy.2 p.2 (List.mem_map_of_mem hp)
  have hc : ∀ i < n, ∀ j < n, ps.countP (fun p => decide
      (binOf (linspace (autoRange (ps.map Prod.fst)).1 (autoRange (ps.map Prod.fst)).2 (n + 1)) p.1 = (i : ℤ) ∧
       binOf (linspace (autoRange (ps.map Prod.snd)).1 (autoRange (ps.map Prod.snd)).2 (n + 1)) p.2 = (j : ℤ))) =
      countPts (fun p => InEdges (edge (autoRange (ps.map Prod.fst)).1 (autoRange (ps.map Prod.fst)).2 n) n i p.1 ∧
        InEdges (edge (autoRange (ps.map Prod.snd)).1 (autoRange (ps.map Prod.snd)).2 n) n j p.2) ps := by
    intro i hi j hj
    unfold countPts
    rw [List.countP_eq_length_filter]
    congr 1
    apply List.filter_congr
    intro p hp
    rw [decide_eq_decide, binOf_spec hx.1 hn (hx' p hp).1 (hx' p hp).2 hi, binOf_spec hy.1 hn (hy' p hp).1 (hy' p hp).2 hj]
  refine ⟨(autoRange (ps.map Prod.fst)).1, (autoRange (ps.map Prod.fst)).2, (autoRange (ps.map Prod.snd)).1,
    (autoRange (ps.map Prod.snd)).2, (List.range n).map (fun i => (List.range n).map (fun j =>
    countPts (fun p => InEdges (edge (autoRange (ps.map Prod.fst)).1 (autoRange (ps.map Prod.fst)).2 n) n i p.1 ∧
      InEdges (edge (autoRange (ps.map Prod.snd)).1 (autoRange (ps.map Prod.snd)).2 n) n j p.2) ps)),
    ?_, ⟨hx.1, hx'⟩, ⟨hy.1, hy'⟩, rfl, ?_⟩
  · unfold histogram2d
    rw [hmap]
    simp only [bind, Except.bind, pure, Except.pure, Except.ok.injEq, Prod.mk.injEq, true_and]
    apply List.map_congr_left
    intro i hi
    apply List.map_congr_left
    intro j hj
    exact hc i (List.mem_range.1 hi) j (List.mem_range.1 hj)
  · rw [List.map_map]
    have : (fun r => List.sum r) ∘ (fun i => (List.range n).map (fun j =>
        countPts (fun p => InEdges (edge (autoRange (ps.map Prod.fst)).1 (autoRange (ps.map Prod.fst)).2 n) n i p.1 ∧
          InEdges (edge (autoRange (ps.map Prod.snd)).1 (autoRange (ps.map Prod.snd)).2 n) n j p.2) ps)) =
        fun i => ∑ j ∈ Finset.range n, countPts (fun p => InEdges (edge (autoRange (ps.map Prod.fst)).1 (autoRange (ps.map Prod.fst)).2 n) n i p.1 ∧
          InEdges (edge (autoRange (ps.map Prod.snd)).1 (autoRange (ps.map Prod.snd)).2 n) n j p.2) ps := by
      funext i
      rfl
    rw [this, sum_nat_range]
    apply countPts_total
    intro p hp
    obtain ⟨i, ⟨hi, hin⟩, hu⟩ := inEdges_unique hn (fun i _ => edge_mono hx.1 hn (Nat.le_succ i)) (x := p.1)
      (by rw [edge_zero]; exact (hx' p hp).1) (by rw [edge_last hn]; exact (hx' p hp).2)
    obtain ⟨j, ⟨hj, hjn⟩, hv⟩ := inEdges_unique hn (fun i _ => edge_mono hy.1 hn (Nat.le_succ i)) (x := p.2)
      (by rw [edge_zero]; exact (hy' p hp).1) (by rw [edge_last hn]; exact (hy' p hp).2)
    refine ⟨i, j, hi, hj, fun i' j' hi' hj' => ?_⟩
    constructor
    · rintro ⟨h1, h2⟩
      exact ⟨hu i' ⟨hi', h1⟩, hv j' ⟨hj', h2⟩⟩
    · rintro ⟨rfl, rfl⟩
      exact ⟨hin, hjn⟩

theorem histogram2d_raises {n : ℕ} {pts : List (Option ℝ × Option ℝ)} (h : ∃ p ∈ pts, p.1 = none ∨ p.2 = none) :
    histogram2d pts n = .error .valueError := by
  have : pts.mapM finite = .error PyErr.valueError := by
    induction pts with
    | nil => obtain ⟨p, hp, _⟩ := h; cases hp
    | cons q pts ih =>
      rw [List.mapM_cons]
      obtain ⟨x, y⟩ := q
      cases x with
      | none => rfl
      | some x =>
        cases y with
        | none => rfl
        | some y =>
          obtain ⟨p, hp, hh⟩ := h
          rcases List.mem_cons.1 hp with rfl | hp
          · simp at hh
          · rw [ih ⟨p, hp, hh⟩]
            rfl
  unfold histogram2d
  rw [this]
  rfl

/-- The coordinate that is binned. -/
noncomputable def coord (log : Bool) (x : ℝ) : ℝ := if log then Real.logb 10 x else x

/-- C106. A plot of a correlation puts each of the points into one cell, if the coordinates that are drawn logarithmically are
greater than 0; -/
theorem contour_shows (numLos : ℕ) (pts : List (ℝ × ℝ)) {nbins : ℕ} (hn : 0 < nbins) (ylog xlog : Bool) (sample : ℝ)
    (hx : xlog = true → ∀ p ∈ pts, 0 < p.1) (hy : ylog = true → ∀ p ∈ pts, 0 < p.2) :
    ∃ ax bx ay by' xb yb H, plot_2d_contour numLos pts nbins ylog xlog sample = .ok (xb, yb, H, numLos / sample * 0.15) ∧
      Cells (pts.map (fun p => (coord xlog p.1, coord ylog p.2))) nbins ax bx ay by' H ∧
      xb = (List.range nbins).map (fun i : ℕ => if xlog then (10 : ℝ) ^ (ax + (i + 1 / 2) * ((bx - ax) / nbins))
        else ax + (i + 1 / 2) * ((bx - ax) / nbins)) ∧
      yb = (List.range nbins).map (fun i : ℕ => if ylog then (10 : ℝ) ^ (ay + (i + 1 / 2) * ((by' - ay) / nbins))
        else ay + (i + 1 / 2) * ((by' - ay) / nbins)) := by
  have hmap : pts.map (fun p => (if xlog then log10 (some p.1) else some p.1, if ylog then log10 (some p.2) else some p.2)) =
      (pts.map (fun p => (coord xlog p.1, coord ylog p.2))).map (fun p => (some p.1, some p.2)) := by
    rw [List.map_map]
    apply List.map_congr_left
    intro p hp
    simp only [Function.comp, coord, Prod.mk.injEq]
    constructor
    · cases xlog
      · rfl
      · simp [log10, hx rfl p hp]
    · cases ylog
      · rfl
      · simp [log10, hy rfl p hp]
  obtain ⟨ax, bx, ay, by', H, h1, h2⟩ := histogram2d_cells hn (pts.map (fun p => (coord xlog p.1, coord ylog p.2)))
  have hmid : ∀ a b : ℝ, middles (linspace a b (nbins + 1)) = (List.range nbins).map (fun i : ℕ => a + (i + 1 / 2) * ((b - a) / nbins)) := by
    intro a b
    unfold middles
    rw [linspace_eq, zip_tail']
    apply List.map_congr_left
    intro i _
    unfold edge
    push_cast
    ring
  refine ⟨ax, bx, ay, by', _, _, H, ?_, h2, rfl, rfl⟩
  unfold plot_2d_contour
  dsimp only
  rw [hmap, h1]
  simp only [bind, Except.bind, pure, Except.pure, hmid, List.map_map]
  rfl

/-- C106 is false otherwise: one coordinate of 0 raises, and nothing is drawn. -/
theorem contour_zero_raises (numLos : ℕ) {pts : List (ℝ × ℝ)} (nbins : ℕ) (ylog xlog : Bool) (sample : ℝ)
    (h : ∃ p ∈ pts, xlog = true ∧ p.1 = 0 ∨ ylog = true ∧ p.2 = 0) :
    plot_2d_contour numLos pts nbins ylog xlog sample = .error .valueError := by
  obtain ⟨p, hp, hh⟩ := h
  unfold plot_2d_contour
  dsimp only
  rw [histogram2d_raises]
  · rfl
  · refine ⟨_, List.mem_map_of_mem hp, ?_⟩
    rcases hh with ⟨rfl, h0⟩ | ⟨rfl, h0⟩
    · left; simp [log10, h0]
    · right; simp [log10, h0]

/-! ### C106: temperatures -/

/-- The gas of a sightline that counts: densities of at least 1e-6. -/
noncomputable def seen (den : List ℝ) : List ℝ := den.map (fun d => if d < 1e-6 then 0 else d)

theorem seen_nonneg (den : List ℝ) : ∀ d ∈ seen den, 0 ≤ d := by
  intro d hd
  obtain ⟨e, _, rfl⟩ := List.mem_map.1 hd
  split
  · exact le_rfl
  · have : (1e-6 : ℝ) ≤ e := by linarith
    have : (0 : ℝ) < 1e-6 := by norm_num
    linarith

/-- The sum of the densities and the mean temperature of a sightline in which there is gas. -/
noncomputable def sightline (temp den : List ℝ) : ℝ × ℝ :=
  ((seen den).sum, ((List.zipWith (· * ·) temp (seen den)).sum / (seen den).sum))

open Classical in
/-- The sightlines with gas, of which the mean temperature is below 1e5 K. -/
noncomputable def cool (rows : List (List ℝ × List ℝ)) : List (List ℝ × List ℝ) :=
  rows.filter (fun r => decide (0 < (seen r.2).sum ∧ (sightline r.1 r.2).2 < 1e5))

theorem tempPoints_eq (rows : List (List ℝ × List ℝ)) :
    tempPoints (rows.map Prod.fst) (rows.map Prod.snd) = (cool rows).map (fun r => sightline r.1 r.2) := by
  classical
  unfold tempPoints cool
  induction rows with
  | nil => rfl
  | cons r rows ih =>
    rw [List.map_cons, List.map_cons, List.zipWith_cons_cons]
    have hnn : 0 ≤ (seen r.2).sum := List.sum_nonneg (seen_nonneg r.2)
    have hm : meanTemp r.1 r.2 = if (seen r.2).sum = 0 then none else some (sightline r.1 r.2) := rfl
    by_cases h0 : (seen r.2).sum = 0
    · rw [List.filterMap_cons_none (by rw [hm, if_pos h0]; rfl), ih, List.filter_cons_of_neg]
      simp [h0]
    · have hpos : 0 < (seen r.2).sum := lt_of_le_of_ne hnn (Ne.symm h0)
      by_cases h1 : (sightline r.1 r.2).2 < 1e5
      · rw [List.filterMap_cons_some (b := sightline r.1 r.2) (by rw [hm, if_neg h0]; simp [h1]), ih,
          List.filter_cons_of_pos (by simpa using ⟨hpos, h1⟩), List.map_cons]
      · rw [List.filterMap_cons_none (by rw [hm, if_neg h0]; simp [h1]), ih, List.filter_cons_of_neg]
        intro hc
        exact h1 (of_decide_eq_true hc).2

/-- C106. The plot of temperatures shows each sightline with gas and a mean temperature below 1e5 K once, at the logarithm of
the sum of its densities and its mean temperature. -/
theorem plot_temp_shows (numLos : ℕ) (rows : List (List ℝ × List ℝ)) :
    ∃ ax bx ay by' xb yb H, plot_temp numLos (rows.map Prod.fst) (rows.map Prod.snd) = .ok (xb, yb, H, numLos / 300 * 0.15) ∧
      Cells ((cool rows).map (fun r => (Real.logb 10 (sightline r.1 r.2).1, (sightline r.1 r.2).2))) 40 ax bx ay by' H := by
  classical
  obtain ⟨ax, bx, ay, by', xb, yb, H, h1, h2, _⟩ := contour_shows numLos ((cool rows).map (fun r => sightline r.1 r.2))
    (nbins := 40) (by norm_num) false true 300 (by
      rintro _ p hp
      obtain ⟨r, hr, rfl⟩ := List.mem_map.1 hp
      unfold cool at hr
      exact (of_decide_eq_true (List.mem_filter.1 hr).2).1) (by intro h; cases h)
  refine ⟨ax, bx, ay, by', xb, yb, H, ?_, ?_⟩
  · unfold plot_temp
    rw [tempPoints_eq]
    exact h1
  · rw [List.map_map] at h2
    exact h2

theorem weighted_between {lo hi : ℝ} : ∀ {temp w : List ℝ}, temp.length = w.length → (∀ x ∈ w, 0 ≤ x) → (∀ t ∈ temp, lo ≤ t ∧ t ≤ hi) →
    lo * w.sum ≤ (List.zipWith (· * ·) temp w).sum ∧ (List.zipWith (· * ·) temp w).sum ≤ hi * w.sum
  | [], [], _, _, _ => by simp
  | t :: ts, x :: xs, hl, hw, ht => by
    have ih := weighted_between (temp := ts) (w := xs) (by simpa using hl) (fun y hy => hw y (List.mem_cons_of_mem _ hy))
      (fun y hy => ht y (List.mem_cons_of_mem _ hy))
    have hx := hw x List.mem_cons_self
    have h := ht t List.mem_cons_self
    simp only [List.zipWith_cons_cons, List.sum_cons]
    constructor <;> nlinarith [ih.1, ih.2, h.1, h.2]

/-- C106. The mean temperature lies between the lowest and the highest temperature in the sightline. -/
theorem sightline_between {temp den : List ℝ} (hl : temp.length = den.length) (hg : 0 < (seen den).sum) {lo hi : ℝ}
    (ht : ∀ t ∈ temp, lo ≤ t ∧ t ≤ hi) : lo ≤ (sightline temp den).2 ∧ (sightline temp den).2 ≤ hi := by
  have h := weighted_between (lo := lo) (hi := hi) (temp := temp) (w := seen den) (by unfold seen; simpa using hl) (seen_nonneg den) ht
  unfold sightline
  exact ⟨(le_div_iff₀ hg).2 h.1, (div_le_iff₀ hg).2 h.2⟩

/-- A sightline with two pixels of gas. -/
example : 0 < (seen [1, 2]).sum ∧ (sightline [1e4, 2e4] [1, 2]).2 < 1e5 := by
  have h : seen [1, 2] = [1, 2] := by
    unfold seen
    norm_num
  unfold sightline
  rw [h]
  norm_num

/-! ### C106: equivalent widths and column densities -/

/-- C106. Each sightline that absorbs is drawn at the logarithm of its equivalent width and its column density. -/
theorem eq_width_points (dvbin lambda : ℝ) {tau colden : List (List ℝ)} {k : ℕ} {t c : List ℝ} (ht : tau[k]? = some t) (hc : colden[k]? = some c)
    {w : ℝ} (hw : (equivalent_width dvbin lambda tau)[k]? = some w) :
    (plot_eq_width_vs_col_den dvbin lambda tau colden)[k]? = some (if 0 < w then some (Real.logb 10 w, c.sum) else none) := by
  unfold plot_eq_width_vs_col_den
  rw [List.getElem?_zipWith, hw, List.getElem?_map, hc]
  by_cases h : 0 < w <;> simp [log10, h]

/-! ### C106: by halo -/

open Classical in
/-- The number of elements with a property. -/
noncomputable def countOf {α : Type} (P : α → Prop) (l : List α) : ℕ := (l.filter (fun p => decide (P p))).length

theorem count_map {α : Type} (P : ℝ → Prop) (f : α → ℝ) (l : List α) : count P (l.map f) = countOf (fun p => P (f p)) l := by
  classical
  unfold count countOf
  rw [List.filter_map, List.length_map]
  congr 1

theorem countOf_le {α : Type} {P Q : α → Prop} (h : ∀ p, P p → Q p) (l : List α) : countOf P l ≤ countOf Q l := by
  classical
  unfold countOf
  rw [← List.countP_eq_length_filter, ← List.countP_eq_length_filter]
  apply List.countP_mono_left
  intro p _ hp
  simpa using h p (by simpa using hp)

theorem countOf_add {α : Type} {P Q R : α → Prop} (h : ∀ p, P p → Q p → False) (hp : ∀ p, P p → R p) (hq : ∀ p, Q p → R p) (l : List α) :
    countOf P l + countOf Q l ≤ countOf R l := by
  classical
  induction l with
  | nil => simp [countOf]
  | cons x l ih =>
    have hc : ∀ S : α → Prop, countOf S (x :: l) = countOf S l + if S x then 1 else 0 := by
      intro S
      unfold countOf
      by_cases hs : S x
      · rw [List.filter_cons_of_pos (by simpa using hs), if_pos hs, List.length_cons]
      · rw [List.filter_cons_of_neg (by simpa using hs), if_neg hs, Nat.add_zero]
    rw [hc, hc, hc]
    have h1 := h x
    have h2 := hp x
    have h3 := hq x
    by_cases a : P x <;> by_cases b : Q x <;> by_cases c : R x <;> simp_all <;> omega

/-- Edge `i` of the bins of the breakdown. -/
noncomputable def valueEdge (log : Bool) (lo dv : ℝ) (i : ℕ) : ℝ := if log then (10 : ℝ) ^ (Real.logb 10 lo + i * dv) else lo + i * dv

/-- The number of bins between the smallest and the largest value. -/
noncomputable def binNumber (log : Bool) (lo hi dv : ℝ) : ℕ := ⌈(coord log hi - coord log lo) / dv⌉₊ - 1

/-- A sightline has a host other than halo 0 with a virial velocity between two limits. -/
def InClass (virial : List ℝ) (c : ℝ × ℝ) (p : ℝ × ℤ) : Prop := 0 < p.2 ∧ ∃ v, virial[p.2.toNat]? = some v ∧ c.1 < v ∧ v < c.2

theorem valueEdge_mono {log : Bool} {lo dv : ℝ} (hd : 0 < dv) : Monotone (valueEdge log lo dv) := by
  intro i j hij
  unfold valueEdge
  have h1 : (i : ℝ) ≤ j := by exact_mod_cast hij
  have h2 := mul_le_mul_of_nonneg_right h1 hd.le
  cases log
  · simp only [Bool.false_eq_true, if_false]; linarith
  · simp only [if_true]
    exact Real.rpow_le_rpow_of_exponent_le (by norm_num) (by linarith)

theorem get_host {virial : List ℝ} {k : ℤ} (h0 : 0 < k) (h1 : k.toNat < virial.length) : Np.get virial k = .ok virial[k.toNat] := by
  unfold Np.get index
  rw [if_pos ⟨h0.le, by omega⟩]
  simp only [bind, Except.bind, List.getElem?_eq_getElem h1, pure, Except.pure]

theorem hosted_eq {virial : List ℝ} {sel : List (ℝ × ℤ)} (hv : ∀ p ∈ sel, 0 < p.2 → p.2.toNat < virial.length) :
    ∃ hosted, (sel.filter (fun p => decide (0 < p.2))).mapM (fun p => do
        let v ← Np.get virial p.2
        pure (p.1, v)) = .ok hosted ∧
      ∀ (P : ℝ → Prop) (c : ℝ × ℝ), count P ((hosted.filter (fun p => decide (c.1 < p.2 ∧ p.2 < c.2))).map Prod.fst) =
        countOf (fun p => InClass virial c p ∧ P p.1) sel := by
  classical
  induction sel with
  | nil => exact ⟨[], rfl, fun P c => rfl⟩
  | cons x sel ih =>
    obtain ⟨hosted, h1, h2⟩ := ih (fun p hp => hv p (List.mem_cons_of_mem _ hp))
    by_cases hx : 0 < x.2
    · have hl := hv x List.mem_cons_self hx
      refine ⟨(x.1, virial[x.2.toNat]) :: hosted, ?_, fun P c => ?_⟩
      · rw [List.filter_cons_of_pos (by simpa using hx), List.mapM_cons, h1, get_host hx hl]
        rfl
      · have e : InClass virial c x ↔ c.1 < virial[x.2.toNat] ∧ virial[x.2.toNat] < c.2 := by
          unfold InClass
          rw [List.getElem?_eq_getElem hl]
          constructor
          · rintro ⟨_, v, hvv, h⟩
            cases hvv
            exact h
          · intro h
            exact ⟨hx, _, rfl, h⟩
        have hs := h2 P c
        unfold countOf at hs ⊢
        by_cases hc : c.1 < virial[x.2.toNat] ∧ virial[x.2.toNat] < c.2
        · rw [List.filter_cons_of_pos (by simpa using hc), List.map_cons, count_cons, hs]
          by_cases hP : P x.1
          · rw [if_pos hP, List.filter_cons_of_pos (by simpa using ⟨e.2 hc, hP⟩), List.length_cons]
          · rw [if_neg hP, List.filter_cons_of_neg (by simp [hP])]
            rfl
        · rw [List.filter_cons_of_neg (by simpa using hc), hs, List.filter_cons_of_neg]
          have : ¬InClass virial c x := fun h => hc (e.1 h)
          simp [this]
    · refine ⟨hosted, ?_, fun P c => ?_⟩
      · rw [List.filter_cons_of_neg (by simpa using hx), h1]
      · rw [h2]
        unfold countOf
        rw [List.filter_cons_of_neg]
        have : ¬InClass virial c x := fun h => hx h.1
        simp [this]

/-- C106. The breakdown by halo draws for each class of virial velocities the share of the sightlines in a bin whose host is in
the class. The property holds for hosts other than halo 0, which counts as no host (`breakdown_drops_first`), and for values
below the last edge (`breakdown_misses_top`). -/
theorem breakdown_partial {virial : List ℝ} {sel : List (ℝ × ℤ)} (hne : sel ≠ []) (hv : ∀ p ∈ sel, 0 < p.2 → p.2.toNat < virial.length)
    {classes : List (ℝ × ℝ)} (hc : classes.length ≤ 3) {dv : ℝ} (hd : 0 < dv) (log : Bool)
    (hlog : log = true → ∀ p ∈ sel, 0 < p.1) :
    ∃ lo hi mid curves, plot_breakdown virial sel classes dv log = .ok (mid, curves) ∧
      (lo ∈ sel.map Prod.fst ∧ ∀ p ∈ sel, lo ≤ p.1) ∧ (hi ∈ sel.map Prod.fst ∧ ∀ p ∈ sel, p.1 ≤ hi) ∧
      mid = (List.range (binNumber log lo hi dv)).map (fun i => (valueEdge log lo dv i + valueEdge log lo dv (i + 1)) / 2) ∧
      curves = classes.map (fun c => (List.range (binNumber log lo hi dv)).map (fun i =>
        (countOf (fun p => InClass virial c p ∧ InEdges (valueEdge log lo dv) (binNumber log lo hi dv) i p.1) sel : ℝ) /
          max 1 (countOf (fun p => InEdges (valueEdge log lo dv) (binNumber log lo hi dv) i p.1) sel : ℝ))) := by
  classical
  have hne' : sel.map Prod.fst ≠ [] := by simpa using hne
  obtain ⟨lo, l1, l2, l3⟩ := minOf_spec hne'
  obtain ⟨hi, k1, k2, k3⟩ := maxOf_spec hne'
  obtain ⟨hosted, h1, h2⟩ := hosted_eq hv
  have htab : valueTable log lo hi dv =
      .ok ((List.range ⌈(coord log hi - coord log lo) / dv⌉₊).map (valueEdge log lo dv)) := by
    unfold valueTable
    cases log
    · simp only [Bool.false_eq_true, if_false, arange, if_neg hd.ne', coord]
      rfl
    · have hl : ¬lo ≤ 0 := by
        obtain ⟨p, hp, rfl⟩ := List.mem_map.1 l2
        exact not_le.2 (hlog rfl p hp)
      simp only [if_true, if_neg hl, arange, if_neg hd.ne', coord, Except.map, List.map_map]
      rfl
  refine ⟨lo, hi, _, _, ?_, ⟨l2, fun p hp => l3 _ (List.mem_map_of_mem hp)⟩, ⟨k2, fun p hp => k3 _ (List.mem_map_of_mem hp)⟩, rfl, rfl⟩
  unfold plot_breakdown
  rw [h1]
  simp only [bind, Except.bind, l1, k1]
  rw [htab]
  simp only
  rw [histogramOf_range _ (valueEdge_mono hd)]
  simp only
  rw [if_neg (by omega)]
  have hn : ⌈(coord log hi - coord log lo) / dv⌉₊ - 1 = binNumber log lo hi dv := rfl
  rw [hn]
  have hcurve : ∀ c ∈ classes, classCurve ((List.range ⌈(coord log hi - coord log lo) / dv⌉₊).map (valueEdge log lo dv))
      (((List.range (binNumber log lo hi dv)).map (fun i =>
        ((count (InEdges (valueEdge log lo dv) (binNumber log lo hi dv) i) (sel.map Prod.fst) : ℕ) : ℤ))).map (fun c => if c = 0 then 1 else c))
      hosted c = .ok ((List.range (binNumber log lo hi dv)).map (fun i =>
        (countOf (fun p => InClass virial c p ∧ InEdges (valueEdge log lo dv) (binNumber log lo hi dv) i p.1) sel : ℝ) /
          max 1 (countOf (fun p => InEdges (valueEdge log lo dv) (binNumber log lo hi dv) i p.1) sel : ℝ))) := by
    intro c _
    unfold classCurve
    rw [histogramOf_range _ (valueEdge_mono hd), hn]
    simp only [bind, Except.bind, pure, Except.pure, List.map_map]
    rw [zip_maps]
    congr 1
    apply List.map_congr_left
    intro i _
    rw [h2]
    simp only [Function.comp, count_map, one_mul]
    generalize countOf (fun p => InEdges (valueEdge log lo dv) (binNumber log lo hi dv) i p.1) sel = m
    congr 1
    rcases Nat.eq_zero_or_pos m with h | h
    · subst h; simp
    · have : (1 : ℝ) ≤ m := by exact_mod_cast h
      rw [max_eq_right this, if_neg (by exact_mod_cast h.ne')]
      simp
  have hall : classes.mapM (classCurve ((List.range ⌈(coord log hi - coord log lo) / dv⌉₊).map (valueEdge log lo dv))
      (((List.range (binNumber log lo hi dv)).map (fun i =>
        ((count (InEdges (valueEdge log lo dv) (binNumber log lo hi dv) i) (sel.map Prod.fst) : ℕ) : ℤ))).map (fun c => if c = 0 then 1 else c))
      hosted) = .ok (classes.map (fun c => (List.range (binNumber log lo hi dv)).map (fun i =>
        (countOf (fun p => InClass virial c p ∧ InEdges (valueEdge log lo dv) (binNumber log lo hi dv) i p.1) sel : ℝ) /
          max 1 (countOf (fun p => InEdges (valueEdge log lo dv) (binNumber log lo hi dv) i p.1) sel : ℝ)))) := by
    clear hc
    induction classes with
    | nil => rfl
    | cons c cs ih =>
      rw [List.mapM_cons, hcurve c List.mem_cons_self, ih (fun c hc => hcurve c (List.mem_cons_of_mem _ hc))]
      rfl
  rw [hall]
  unfold middles
  rw [zip_tail', hn]
  rfl

/-- C106. The shares are between 0 and 1, and those of two classes which do not overlap add up to at most 1. -/
theorem breakdown_share (virial : List ℝ) (sel : List (ℝ × ℤ)) (c c' : ℝ × ℝ) (hc : c.2 ≤ c'.1) (B : ℝ → Prop) :
    0 ≤ (countOf (fun p => InClass virial c p ∧ B p.1) sel : ℝ) / max 1 (countOf (fun p => B p.1) sel : ℝ) ∧
    (countOf (fun p => InClass virial c p ∧ B p.1) sel : ℝ) / max 1 (countOf (fun p => B p.1) sel : ℝ) +
      (countOf (fun p => InClass virial c' p ∧ B p.1) sel : ℝ) / max 1 (countOf (fun p => B p.1) sel : ℝ) ≤ 1 := by
  have hm : (0 : ℝ) < max 1 (countOf (fun p : ℝ × ℤ => B p.1) sel : ℝ) := lt_of_lt_of_le one_pos (le_max_left _ _)
  refine ⟨by positivity, ?_⟩
  rw [← add_div, div_le_one hm]
  apply le_trans _ (le_max_right _ _)
  have := countOf_add (P := fun p => InClass virial c p ∧ B p.1) (Q := fun p => InClass virial c' p ∧ B p.1) (R := fun p : ℝ × ℤ => B p.1) (by
    rintro p ⟨⟨_, v, h1, h2, h3⟩, _⟩ ⟨⟨_, v', h1', h2', h3'⟩, _⟩
    rw [h1] at h1'
    cases h1'
    linarith) (fun p h => h.2) (fun p h => h.2) sel
  exact_mod_cast this

/-- C106 is false of the code for the first halo of the catalogue, which is the most massive one: if it hosts all sightlines, every
share is 0, whatever the classes. -/
theorem breakdown_drops_first {virial : List ℝ} {sel : List (ℝ × ℤ)} (hne : sel ≠ []) (hz : ∀ p ∈ sel, p.2 = 0)
    {classes : List (ℝ × ℝ)} (hc : classes.length ≤ 3) {dv : ℝ} (hd : 0 < dv) :
    ∃ mid curves, plot_breakdown virial sel classes dv false = .ok (mid, curves) ∧ ∀ k ∈ curves, ∀ y ∈ k, y = 0 := by
  classical
  obtain ⟨lo, hi, mid, curves, h1, _, _, _, h5⟩ := breakdown_partial (virial := virial) hne (by
    intro p hp h
    rw [hz p hp] at h
    exact absurd h (lt_irrefl _)) hc hd false (by intro h; cases h)
  refine ⟨mid, curves, h1, ?_⟩
  intro k hk y hy
  rw [h5] at hk
  obtain ⟨c, _, rfl⟩ := List.mem_map.1 hk
  obtain ⟨i, _, rfl⟩ := List.mem_map.1 hy
  have : countOf (fun p => InClass virial c p ∧ InEdges (valueEdge false lo dv) (binNumber false lo hi dv) i p.1) sel = 0 := by
    unfold countOf
    rw [List.length_eq_zero_iff, List.filter_eq_nil_iff]
    intro p hp hh
    have hh' : InClass virial c p ∧ InEdges (valueEdge false lo dv) (binNumber false lo hi dv) i p.1 := by
      simpa using hh
    have := hh'.1.1
    rw [hz p hp] at this
    exact absurd this (lt_irrefl _)
  rw [this]
  simp

/-- C106 is false of the code for the largest value, which is in no bin unless all values are equal; then there are no bins. -/
theorem breakdown_misses_top {lo hi dv : ℝ} (hd : 0 < dv) (h : lo < hi) (i : ℕ) (hi' : i < binNumber false lo hi dv) :
    ¬InEdges (valueEdge false lo dv) (binNumber false lo hi dv) i hi := by
  have hpos : 0 < (hi - lo) / dv := div_pos (by linarith) hd
  have hcc : 0 < ⌈(hi - lo) / dv⌉₊ := Nat.ceil_pos.2 hpos
  have hb : binNumber false lo hi dv = ⌈(hi - lo) / dv⌉₊ - 1 := by simp [binNumber, coord]
  have hlt : ((binNumber false lo hi dv : ℕ) : ℝ) < (hi - lo) / dv := Nat.lt_ceil.1 (by omega)
  have hlast : valueEdge false lo dv (binNumber false lo hi dv) < hi := by
    rw [lt_div_iff₀ hd] at hlt
    simp only [valueEdge, Bool.false_eq_true, if_false]
    linarith
  have hm := valueEdge_mono (log := false) (lo := lo) hd (show i + 1 ≤ binNumber false lo hi dv by omega)
  rintro ⟨_, h2 | ⟨_, h2⟩⟩ <;> linarith

/-- C106 is false of the code for more than three classes: the colours do not suffice. -/
theorem breakdown_four_classes {virial : List ℝ} {sel : List (ℝ × ℤ)} (hne : sel ≠ []) (hv : ∀ p ∈ sel, 0 < p.2 → p.2.toNat < virial.length)
    {classes : List (ℝ × ℝ)} (hc : 3 < classes.length) {dv : ℝ} (hd : 0 < dv) :
    plot_breakdown virial sel classes dv false = .error .indexError := by
  have hne' : sel.map Prod.fst ≠ [] := by simpa using hne
  obtain ⟨lo, l1, l2, l3⟩ := minOf_spec hne'
  obtain ⟨hi, k1, k2, k3⟩ := maxOf_spec hne'
  obtain ⟨hosted, h1, h2⟩ := hosted_eq hv
  have htab : valueTable false lo hi dv = .ok ((List.range ⌈(hi - lo) / dv⌉₊).map (valueEdge false lo dv)) := by
    unfold valueTable
    simp only [Bool.false_eq_true, if_false, arange, if_neg hd.ne']
    rfl
  unfold plot_breakdown
  rw [h1]
  simp only [bind, Except.bind, l1, k1]
  rw [htab]
  simp only
  rw [histogramOf_range _ (valueEdge_mono hd)]
  simp only
  rw [if_pos hc]

/-- Three sightlines with hosts 1, 2 and none. -/
example : ([(10, 1), (20, 2), (30, -1)] : List (ℝ × ℤ)) ≠ [] ∧
    (∀ p ∈ ([(10, 1), (20, 2), (30, -1)] : List (ℝ × ℤ)), 0 < p.2 → p.2.toNat < [(100 : ℝ), 50, 20].length) ∧
    InClass [100, 50, 20] (40, 60) (10, 1) ∧ 1 < binNumber false 10 30 5 := by
  refine ⟨by simp, by simp, ⟨by norm_num, 50, rfl, by norm_num, by norm_num⟩, ?_⟩
  have : ⌈((30 : ℝ) - 10) / 5⌉₊ = 4 := by norm_num
  simp [binNumber, coord, this]

/-- The sightlines whose host is not halo 0. -/
def later (halo : List ℤ) (xx : List ℝ) : List (ℤ × ℝ) := (halo.zip xx).filter (fun p => decide (0 < p.1))

/-- C106. The plot of a quantity against the virial velocity puts each sightline with a host other than halo 0 into one cell. -/
theorem xx_vs_mass_partial {virial : List ℝ} {halo : List ℤ} {xx : List ℝ} (hv : ∀ h ∈ halo, 0 < h → h.toNat < virial.length)
    (hvp : ∀ v ∈ virial, 0 ≤ v) (log : Bool) (hlog : log = true → ∀ p ∈ later halo xx, 0 < p.2) :
    ∃ ax bx ay by' xb yb H, plot_xx_vs_mass halo virial xx log = .ok (xb, yb, H, halo.length / 40 * 0.15) ∧
      Cells ((later halo xx).map (fun p => (Real.logb 10 (virial.getD p.1.toNat 0 + 0.1), coord log p.2))) 10 ax bx ay by' H := by
  have hmem : ∀ p ∈ later halo xx, 0 < p.1 ∧ p.1.toNat < virial.length := by
    intro p hp
    unfold later at hp
    obtain ⟨h1, h2⟩ := List.mem_filter.1 hp
    have h2 := of_decide_eq_true h2
    exact ⟨h2, hv p.1 (List.of_mem_zip h1).1 h2⟩
  have hpts : (later halo xx).mapM (fun p => do
      let v ← Np.get virial p.1
      pure (v + 0.1, p.2)) = .ok ((later halo xx).map (fun p => (virial.getD p.1.toNat 0 + 0.1, p.2))) := by
    revert hmem
    generalize later halo xx = l
    intro hmem
    induction l with
    | nil => rfl
    | cons p l ih =>
      obtain ⟨h1, h2⟩ := hmem p List.mem_cons_self
      rw [List.mapM_cons, ih (fun q hq => hmem q (List.mem_cons_of_mem _ hq)), get_host h1 h2, List.map_cons,
        List.getD_eq_getElem _ _ h2]
      rfl
  obtain ⟨ax, bx, ay, by', xb, yb, H, h1, h2, _⟩ := contour_shows halo.length
    ((later halo xx).map (fun p => (virial.getD p.1.toNat 0 + 0.1, p.2))) (nbins := 10) (by norm_num) log true 40 (by
      rintro _ q hq
      obtain ⟨p, hp, rfl⟩ := List.mem_map.1 hq
      have := hvp _ (List.getElem_mem (hmem p hp).2)
      rw [List.getD_eq_getElem _ _ (hmem p hp).2]
      have : (0 : ℝ) < 0.1 := by norm_num
      dsimp only
      linarith) (by
      intro hl q hq
      obtain ⟨p, hp, rfl⟩ := List.mem_map.1 hq
      exact hlog hl p hp)
  refine ⟨ax, bx, ay, by', xb, yb, H, ?_, ?_⟩
  · unfold plot_xx_vs_mass
    dsimp only
    rw [show (halo.zip xx).filter (fun p => decide (0 < p.1)) = later halo xx from rfl, hpts]
    exact h1
  · rw [List.map_map] at h2
    exact h2

/-! Witnesses for the other theorems: small samples. -/

example (xs mid d : List ℝ) (h : Shows (-3) 0 3 xs mid (some d)) := Shows.total (by norm_num) (by norm_num) h

example := plotDist_shows (a := -3) (b := 0) (by norm_num) (n := 3) (by norm_num) [some (-1), none, some (-2.5)]

example := plot_cddf_shows (o := ⟨Units.gadget, 10000, 3, 0.7, 0.3, 2, 1⟩) (minN := 13) (maxN := 21) (moment := true) (line := true) (dX := true)
  (rho := [[1e14, 2e14], [3e20, 0]]) (dlogN := 1 / 2) (by norm_num) rfl

example := histogram2d_cells (n := 2) (by norm_num) [(1, 2), (3, 4), (2, 2)]

example := contour_shows 2 [(1, 2), (3, 4)] (nbins := 2) (by norm_num) true true 40 (by simp) (by simp)

example := contour_zero_raises 2 (pts := [(1, 2), (3, 0)]) 2 true false 40 ⟨(3, 0), by simp, by simp⟩

example := eq_width_points 2 1215 (tau := [[1, 2], [0, 3]]) (colden := [[1e13, 1e14], [1, 2]]) (k := 1) rfl rfl rfl

example := breakdown_partial (virial := [100, 50, 20]) (sel := [(10, 1), (20, 2), (30, -1)]) (by simp) (by simp) (classes := [(10, 40), (40, 60)])
  (by simp) (dv := 5) (by norm_num) false (by simp)

example := breakdown_share [100, 50, 20] [(10, 1), (20, 2), (30, -1)] (10, 40) (40, 60) (by norm_num) (fun x => x < 15)

example := breakdown_drops_first (virial := [100, 50, 20]) (sel := [(10, 0), (20, 0)]) (by simp) (by simp) (classes := [(10, 40), (40, 160)])
  (by simp) (dv := 5) (by norm_num)

example := breakdown_misses_top (lo := 10) (hi := 30) (dv := 5) (by norm_num) (by norm_num)

example := xx_vs_mass_partial (virial := [100, 50, 20]) (halo := [1, -1, 2, 0]) (xx := [1, 2, 3, 4]) (by simp) (by simp) false (by simp)

end Verif.Props.DistPlots
