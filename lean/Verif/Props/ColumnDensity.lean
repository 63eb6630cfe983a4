import Verif.Lemmas.Absorbers
import Verif.Props.Units

/-!
C23: the column density function. C25: incidence rates. C64: the two estimates of Omega.
-/

namespace Verif.Props
open Verif Verif.Np Verif.Absorbers Verif.Units Verif.Spec

theorem logEdge_mono {minN dlogN : ℝ} (hd : 0 ≤ dlogN) : Monotone (logEdge minN dlogN) := by
  intro i j hij
  unfold logEdge
  apply Real.rpow_le_rpow_of_exponent_le (by norm_num)
  have : (i : ℝ) ≤ j := by exact_mod_cast hij
  have := mul_le_mul_of_nonneg_right this hd
  linarith

theorem logEdge_pos (minN dlogN : ℝ) (i : ℕ) : 0 < logEdge minN dlogN i := by
  unfold logEdge; positivity

theorem nhiTable_eq {minN maxN dlogN : ℝ} (hd : 0 < dlogN) :
    nhiTable minN maxN dlogN = .ok ((List.range ⌈(maxN - minN) / dlogN⌉₊).map (logEdge minN dlogN)) := by
  unfold nhiTable arange
  rw [if_neg hd.ne']
  change Except.ok _ = _
  congr 1
  rw [List.map_map]
  rfl

/-- The absorbers counted: whole sightlines, or groups of pixels within `close` km/s. -/
noncomputable def countedAbsorbers (line : Bool) (c : ℕ) (rho : List (List ℝ)) : List ℝ :=
  if line then rho.map List.sum
  else (rho.map (fun row => (List.range (row.length / c)).map (absorber c row))).flatten

theorem slice_sum (row : List ℝ) (lo c : ℕ) :
    (slice row lo (lo + c)).sum = ∑ j ∈ Finset.range c, row.getD (lo + j) 0 := by
  unfold slice
  induction c with
  | zero => simp
  | succ c ih =>
    rw [Finset.sum_range_succ, ← ih]
    by_cases h : lo + c < row.length
    · rw [show lo + (c + 1) = (lo + c) + 1 by omega, List.take_succ, List.getElem?_eq_getElem h]
      rw [List.drop_append_of_le_length (by simp; omega)]
      simp [h]
    · rw [List.take_of_length_le (by omega), List.take_of_length_le (by omega), List.getD_eq_default _ _ (by omega)]
      simp

theorem absorbers_eq (line : Bool) (c : ℕ) (rho : List (List ℝ)) : absorbers line c rho = countedAbsorbers line c rho := by
  unfold absorbers countedAbsorbers
  congr 2
  apply List.map_congr_left
  intro row _
  unfold groups absorber
  apply List.map_congr_left
  intro i _
  rw [show c * (i + 1) = c * i + c by ring]
  exact slice_sum row (c * i) c

/-- C23: the column density function has one bin less than the table has edges; edge `i` is `10^(minN + i dlogN)`. The
value of a bin is the number of absorbers in the bin, divided by the width of the bin and by the path length of all
sightlines, kept and discarded. -/
theorem cddf_spec {o : Obj} {dlogN minN maxN close : ℝ} {line dX : Bool} {rho : List (List ℝ)} (hd : 0 < dlogN)
    {n : ℕ} (hn : n = ⌈(maxN - minN) / dlogN⌉₊ - 1) :
    ∃ centers vals, column_density_function o dlogN minN maxN line close dX rho = .ok (centers, vals) ∧
      centers.length = n ∧ vals.length = n ∧
      ∀ i < n, centers[i]? = some ((logEdge minN dlogN i + logEdge minN dlogN (i + 1)) / 2) ∧
        vals[i]? = some (Spec.count (InEdges (logEdge minN dlogN) n i)
            (countedAbsorbers line (cbins close o.dvbin) rho) /
          ((logEdge minN dlogN (i + 1) - logEdge minN dlogN i) * o.dist dX * (rho.length + o.discarded))) := by
  unfold column_density_function
  rw [nhiTable_eq hd]
  simp only [bind, Except.bind]
  rw [histogramOf_range _ (logEdge_mono hd.le)]
  rw [zip_tail, zip_tail', ← hn]
  simp only [pure, Except.pure]
  rw [zip_maps]
  refine ⟨_, _, rfl, by simp, by simp, ?_⟩
  intro i hi
  rw [List.getElem?_map, List.getElem?_map, List.getElem?_range hi, absorbers_eq]
  exact ⟨rfl, by simp⟩

/-- C23: every absorber between the first and the last edge is counted in exactly one bin: widths times values, times the
path length, add up to the number of those absorbers. -/
theorem cddf_counts_once {o : Obj} {dlogN minN maxN close : ℝ} {line dX : Bool} {rho : List (List ℝ)} (hd : 0 < dlogN)
    (hdist : 0 < o.dist dX) (hlines : 0 < (rho.length : ℝ) + o.discarded)
    {n : ℕ} (hn : n = ⌈(maxN - minN) / dlogN⌉₊ - 1) (hn0 : 0 < n) {centers vals : List ℝ}
    (h : column_density_function o dlogN minN maxN line close dX rho = .ok (centers, vals)) :
    ∑ i ∈ Finset.range n, vals.getD i 0 * (logEdge minN dlogN (i + 1) - logEdge minN dlogN i)
        * (o.dist dX * (rho.length + o.discarded)) =
      Spec.count (fun x => logEdge minN dlogN 0 ≤ x ∧ x ≤ logEdge minN dlogN n)
        (countedAbsorbers line (cbins close o.dvbin) rho) := by
  obtain ⟨c', v', h', -, -, hv⟩ := cddf_spec (o := o) (close := close) (line := line) (dX := dX) (rho := rho) hd hn
  rw [h] at h'
  obtain ⟨rfl, rfl⟩ := Prod.mk.inj (Except.ok.inj h')
  have hm : Monotone (logEdge minN dlogN) := logEdge_mono hd.le
  rw [← histogram_total hn0 (fun i _ => hm (Nat.le_succ i)), Nat.cast_sum]
  apply Finset.sum_congr rfl
  intro i hi
  have hi := Finset.mem_range.1 hi
  rw [List.getD_eq_getElem?_getD, (hv i hi).2, Option.getD_some]
  have hw : 0 < logEdge minN dlogN (i + 1) - logEdge minN dlogN i := by
    unfold logEdge
    rw [sub_pos]
    apply Real.rpow_lt_rpow_of_exponent_lt (by norm_num)
    push_cast; linarith
  field_simp

/-- C23: an absorber in the range of the table is in exactly one bin. -/
theorem cddf_one_bin {dlogN minN : ℝ} (hd : 0 < dlogN) {n : ℕ} (hn : 0 < n) {x : ℝ} (h0 : logEdge minN dlogN 0 ≤ x)
    (h1 : x ≤ logEdge minN dlogN n) : ∃! i : ℕ, i < n ∧ InEdges (logEdge minN dlogN) n i x :=
  inEdges_unique hn (fun i _ => logEdge_mono hd.le (Nat.le_succ i)) h0 h1

/-- C23 is false of the code at the top of the range asked for: the last edge of the table is below `10^maxN`, so an
absorber at `10^maxN` is in no bin, whatever the range and spacing. -/
theorem cddf_misses_top {dlogN minN maxN : ℝ} (hd : 0 < dlogN) (hm : minN < maxN) {n : ℕ}
    (hn : n = ⌈(maxN - minN) / dlogN⌉₊ - 1) :
    logEdge minN dlogN n < (10 : ℝ) ^ maxN ∧ ∀ i < n, ¬InEdges (logEdge minN dlogN) n i ((10 : ℝ) ^ maxN) := by
  have hpos : 0 < (maxN - minN) / dlogN := div_pos (by linarith) hd
  have hc : 0 < ⌈(maxN - minN) / dlogN⌉₊ := Nat.ceil_pos.2 hpos
  have hlt : (n : ℝ) < (maxN - minN) / dlogN := by
    have : n < ⌈(maxN - minN) / dlogN⌉₊ := by omega
    exact Nat.lt_ceil.1 this
  have hlast : logEdge minN dlogN n < (10 : ℝ) ^ maxN := by
    unfold logEdge
    apply Real.rpow_lt_rpow_of_exponent_lt (by norm_num)
    rw [lt_div_iff₀ hd] at hlt
    linarith
  refine ⟨hlast, fun i hi => ?_⟩
  rintro ⟨-, h | ⟨-, h⟩⟩
  · have := logEdge_mono (minN := minN) hd.le (show i + 1 ≤ n by omega)
    linarith
  · have := logEdge_mono (minN := minN) hd.le (show i + 1 ≤ n by omega)
    linarith

/-- C23, finding: with the default range (13 to 23, spacing 0.2) the last edge is `10^22.8`. -/
theorem cddf_default_range : ⌈((23 : ℝ) - 13) / 0.2⌉₊ - 1 = 49 ∧ logEdge 13 0.2 49 = (10 : ℝ) ^ (22.8 : ℝ) := by
  constructor
  · have : ((23 : ℝ) - 13) / 0.2 = ((50 : ℕ) : ℝ) := by norm_num
    rw [this, Nat.ceil_natCast]
  · unfold logEdge; norm_num

theorem sum_blocks (f : ℕ → ℝ) (c m : ℕ) :
    ∑ i ∈ Finset.range m, ∑ j ∈ Finset.range c, f (c * i + j) = ∑ k ∈ Finset.range (c * m), f k := by
  induction m with
  | zero => simp
  | succ m ih =>
    rw [Finset.sum_range_succ, ih, Nat.mul_succ, Finset.sum_range_add]

theorem list_sum_eq (row : List ℝ) : row.sum = ∑ k ∈ Finset.range row.length, row.getD k 0 := by
  induction row with
  | nil => simp
  | cons a row ih =>
    rw [List.length_cons, Finset.sum_range_succ', List.sum_cons, ih]
    simp [add_comm]

/-- C23: grouping pixels conserves the column density of a sightline when the number of pixels in an absorber divides the
number of pixels. -/
theorem grouping_conserves_partial {c : ℕ} {row : List ℝ} (hdvd : c ∣ row.length) :
    ((List.range (row.length / c)).map (absorber c row)).sum = row.sum ∧ groups c row = (List.range (row.length / c)).map (absorber c row) := by
  have hg : groups c row = (List.range (row.length / c)).map (absorber c row) := by
    have := absorbers_eq false c [row]
    simpa [absorbers, countedAbsorbers] using this
  refine ⟨?_, hg⟩
  rw [list_sum_eq row, show ((List.range (row.length / c)).map (absorber c row)).sum
    = ∑ i ∈ Finset.range (row.length / c), absorber c row i from rfl]
  unfold absorber
  rw [sum_blocks (fun k => row.getD k 0), Nat.mul_div_cancel' hdvd]

/-- C23: in general the pixels after the last whole group are left out, and only these. -/
theorem grouping_drops (c : ℕ) (row : List ℝ) : (groups c row).sum =
    row.sum - (row.drop (c * (row.length / c))).sum := by
  have hg : groups c row = (List.range (row.length / c)).map (absorber c row) := by
    have := absorbers_eq false c [row]
    simpa [absorbers, countedAbsorbers] using this
  rw [hg, show ((List.range (row.length / c)).map (absorber c row)).sum
    = ∑ i ∈ Finset.range (row.length / c), absorber c row i from rfl]
  unfold absorber
  rw [sum_blocks (fun k => row.getD k 0)]
  have h1 : row.sum = (row.take (c * (row.length / c))).sum + (row.drop (c * (row.length / c))).sum := by
    rw [← List.sum_append, List.take_append_drop]
  have h2 := slice_sum row 0 (c * (row.length / c))
  simp only [slice, Nat.zero_add, List.drop_zero] at h2
  rw [← h2, h1]; ring

/-- C23 is false of the code: with 50 km/s absorbers and pixels of 20 km/s, two pixels are grouped, and the column density of the
third pixel of a sightline is lost. -/
theorem grouping_loses : cbins 50 20 = 2 ∧ (groups (cbins 50 20) [1, 1, 5]).sum = 2 ∧ ([1, 1, 5] : List ℝ).sum = 7 := by
  have hc : cbins 50 20 = 2 := by
    unfold cbins npRound
    have hf : Int.fract ((50 : ℝ) / 20) = 1 / 2 := by
      rw [show (50 : ℝ) / 20 = 1 / 2 + ((2 : ℕ) : ℝ) by norm_num, Int.fract_add_natCast, Int.fract_eq_self]
      norm_num
    have hfl : ⌊(50 : ℝ) / 20⌋ = 2 := by rw [Int.floor_eq_iff]; norm_num
    rw [hf, hfl]
    norm_num
    decide
  rw [hc]
  refine ⟨rfl, ?_, by norm_num⟩
  simp [groups, slice, List.range_succ]
  norm_num

/-- A group is never empty. -/
theorem cbins_pos (close dvbin : ℝ) : 0 < cbins close dvbin := by
  unfold cbins
  have : (1 : ℤ) ≤ max (npRound (close / dvbin)) 1 := le_max_right _ _
  omega

/-! Witnesses: sixteen bins of half a decade, sightlines of two pixels, and a row of four pixels taken in pairs. -/

example (u : UnitSystem) := cddf_spec (o := ⟨u, 10000, 3, 0.7, 0.3, 2, 1⟩) (minN := 13) (maxN := 21) (close := 50) (line := true) (dX := true)
  (rho := [[1e14, 2e14], [3e20, 0]]) (dlogN := 1 / 2) (by norm_num) rfl

example (u : UnitSystem) := cddf_one_bin (dlogN := 1 / 2) (minN := 13) (by norm_num) (n := 16) (by norm_num) (x := 10 ^ (13 : ℝ))
  (by simp [logEdge]) (by unfold logEdge; exact Real.rpow_le_rpow_of_exponent_le (by norm_num) (by norm_num))

example := cddf_misses_top (dlogN := 1 / 2) (minN := 13) (maxN := 21) (by norm_num) (by norm_num) rfl

example := grouping_conserves_partial (c := 2) (row := [1e14, 2e14, 3e13, 5]) (by norm_num)

/-- With a path of positive length every absorber between the edges is counted once. -/
example (u : UnitSystem) (hd : 0 < (⟨u, 10000, 3, 0.7, 0.3, 2, 1⟩ : Obj).dist true) :
    ∃ centers vals, ∑ i ∈ Finset.range 15, vals.getD i 0 * (logEdge 13 (1 / 2) (i + 1) - logEdge 13 (1 / 2) i)
        * ((⟨u, 10000, 3, 0.7, 0.3, 2, 1⟩ : Obj).dist true * (2 + 1)) =
      Spec.count (fun x => logEdge 13 (1 / 2) 0 ≤ x ∧ x ≤ logEdge 13 (1 / 2) 15)
        (countedAbsorbers true (cbins 50 2) [[1e14, 2e14], [3e20, 0]]) ∧
      column_density_function ⟨u, 10000, 3, 0.7, 0.3, 2, 1⟩ (1 / 2) 13 21 true 50 true [[1e14, 2e14], [3e20, 0]] = .ok (centers, vals) := by
  have hn : 15 = ⌈((21 : ℝ) - 13) / (1 / 2)⌉₊ - 1 := by
    have : ((21 : ℝ) - 13) / (1 / 2) = (16 : ℕ) := by norm_num
    rw [this, Nat.ceil_natCast]
  obtain ⟨c, v, h, -⟩ := cddf_spec (o := ⟨u, 10000, 3, 0.7, 0.3, 2, 1⟩) (minN := 13) (maxN := 21) (close := 50) (line := true) (dX := true)
    (rho := [[1e14, 2e14], [3e20, 0]]) (dlogN := 1 / 2) (by norm_num) hn
  refine ⟨c, v, ?_, h⟩
  simpa using cddf_counts_once (by norm_num) hd (by norm_num) hn (by norm_num) h

end Verif.Props
