import Verif.Lemmas.Rounding
import Verif.Props.Additive
import Verif.Props.Deposit
import Verif.Props.WeightMean

/-!
C104: the sums behind a spectrum in floating point. However the particles are divided into files and processes, and in
whatever order the arrays of the processes are added up, the result is the exact sum up to a relative error that is
small and known beforehand.
-/

namespace Verif.Props

open Verif PartInt IndexTable Absorption ComputeSpectra Race Rounding
open Verif.Props.WeightMean (Physical PhysicalConfig)

/-- Rounding to the nearest number with 24 or 53 binary digits has a relative error of at most half a unit in the last
place. -/
theorem roundTo_faithful : Faithful (fun w x => roundTo w.digits x) := by
  intro w x
  dsimp only
  have hp : 1 ≤ w.digits := by cases w <;> decide
  generalize w.digits = p at hp
  unfold roundTo
  by_cases hx : x = 0
  · simp [hx]
  have hx' : 0 < |x| := abs_pos.2 hx
  set e := Int.log 2 |x| with he
  have h2 : (2 : ℝ) ^ e ≤ |x| := by exact_mod_cast Int.zpow_log_le_self (b := 2) (by norm_num) hx'
  have hs : (0 : ℝ) < (2 : ℝ) ^ (e - ((p : ℤ) - 1)) := by positivity
  have hmul : (2 : ℝ) ^ ((p : ℤ) - 1 - e) * (2 : ℝ) ^ (e - ((p : ℤ) - 1)) = 1 := by
    rw [← zpow_add₀ (by norm_num)]; simp
  have hr := abs_sub_round (x * (2 : ℝ) ^ ((p : ℤ) - 1 - e))
  have e1 : (round (x * (2 : ℝ) ^ ((p : ℤ) - 1 - e)) : ℝ) * (2 : ℝ) ^ (e - ((p : ℤ) - 1)) - x =
      -((x * (2 : ℝ) ^ ((p : ℤ) - 1 - e) - round (x * (2 : ℝ) ^ ((p : ℤ) - 1 - e))) * (2 : ℝ) ^ (e - ((p : ℤ) - 1))) := by
    linear_combination x * hmul
  rw [e1, abs_neg, abs_mul, abs_of_pos hs]
  have e2 : (2 : ℝ) ^ (e - ((p : ℤ) - 1)) = 2 * ((2 : ℝ)⁻¹ ^ p * (2 : ℝ) ^ e) := by
    rw [show e - ((p : ℤ) - 1) = e + (-(p : ℤ)) + 1 by ring, zpow_add₀ (by norm_num), zpow_add₀ (by norm_num),
      zpow_neg, zpow_natCast, zpow_one, inv_pow]
    ring
  have hu : (0 : ℝ) < (2 : ℝ)⁻¹ ^ p := by positivity
  calc _ ≤ 1 / 2 * (2 : ℝ) ^ (e - ((p : ℤ) - 1)) := by gcongr
    _ = (2 : ℝ)⁻¹ ^ p * (2 : ℝ) ^ e := by rw [e2]; ring
    _ ≤ _ := by gcongr

/-- Gas and line for which nothing negative is ever added: as in C05, with particles no larger than half the box. -/
structure Deposits (c : Config) (get_tau : Bool) (raws : List Raw) : Prop where
  config : GoodConfig c
  units : PhysicalConfig c
  temps : TempRead get_tau c.sp
  abs : GoodAbs c.L
  profile : ∀ x t, 0 < t → 0 ≤ c.L.profile x (c.L.voigt_fac / (c.L.bfac * √t))
  gas : ∀ r ∈ raws, Physical c r ∧ r.h ≤ c.L.vbox / c.L.velfac / 2

theorem Deposits.sub {c : Config} {get_tau : Bool} {raws raws' : List Raw} (h : Deposits c get_tau raws)
    (hs : ∀ r ∈ raws', r ∈ raws) : Deposits c get_tau raws' :=
  ⟨h.config, h.units, h.temps, h.abs, h.profile, fun r hr => h.gas r (hs r hr)⟩

/-- What is handed to the interpolator for a physical gas particle. -/
structure GoodDeposit (L : LineAbsorption) (get_tau : Bool) (p : Part) : Prop where
  dens : 0 ≤ p.dens
  temp : get_tau = true → 0 < p.temp
  h : 0 ≤ p.h
  box : p.h ≤ L.vbox / L.velfac / 2

theorem fixTemp_pos (t : ℝ) : 0 < fixTemp t := by
  unfold fixTemp
  split_ifs with h
  · norm_num
  · linarith

theorem goodDeposit_of_prep {c : Config} {get_tau : Bool} (hpc : PhysicalConfig c) {r : Raw} (hr : Physical c r)
    (hb : r.h ≤ c.L.vbox / c.L.velfac / 2) {p : Part} (hp : prep c get_tau r = some p) : GoodDeposit c.L get_tau p := by
  have he : 0 ≤ elemDen c r := mul_nonneg (mul_nonneg hr.den hpc.rscale) hr.massFrac
  have hh := (prep_pos hp).2
  refine ⟨?_, ?_, by rw [hh]; exact hr.h.le, by rw [hh]; exact hb⟩
  · unfold prep at hp
    split at hp
    · cases hp
      exact div_nonneg (mul_nonneg he hr.nHI) hpc.amumass
    · cases hp
      exact div_nonneg he hpc.amumass
    · rename_i table hs
      split at hp
      · cases hp
        exact div_nonneg (mul_nonneg he (hpc.table table (Or.inl hs) _ _)) hpc.amumass
      · cases hp
    · rename_i table hs
      split at hp
      · cases hp
        exact div_nonneg (mul_nonneg he (hpc.table table (Or.inr hs) _ _)) hpc.amumass
      · cases hp
  · rintro rfl
    unfold prep at hp
    split at hp
    · cases hp; exact fixTemp_pos _
    · cases hp; exact fixTemp_pos _
    · split at hp
      · cases hp; exact fixTemp_pos _
      · cases hp
    · split at hp
      · cases hp; exact fixTemp_pos _
      · cases hp

theorem partOps_nonneg {L : LineAbsorption} (hL : GoodAbs L)
    (hprof : ∀ x t, 0 < t → 0 ≤ L.profile x (L.voigt_fac / (L.bfac * √t))) (hk : L.kernel ≠ VORONOI_MESH)
    {get_tau : Bool} {nbins : ℕ} (hn : 0 < nbins) (i : ℕ) (l : Line) {p : Part} (hp : GoodDeposit L get_tau p) (d : ℝ) :
    ∀ o ∈ partOps get_tau L nbins i l p d, 0 ≤ o.2 := by
  unfold partOps
  split_ifs with ht
  · unfold tauOps
    simp only [hk, false_and, if_false, ne_eq, not_false_eq_true, true_and]
    split_ifs
    · simp
    · simp only [tauLoopOps_eq, ← List.map_append]
      intro o ho
      obtain ⟨z, -, rfl⟩ := List.mem_map.1 ho
      exact tauPixel_nonneg L hL hn (fun x => hprof x _ (hp.temp ht)) hp.dens (hp.temp ht) hp.h (fun h => absurd h hk) _ _ _
  · unfold coldenOps
    simp only [hk, false_and, if_false, ne_eq, not_false_eq_true, true_and]
    split_ifs
    · simp
    · intro o ho
      obtain ⟨z, -, rfl⟩ := List.mem_map.1 ho
      exact mul_nonneg hp.dens (kern_frac_nonneg _ hp.h _ _ _ _)

theorem hits_partOps_le {L : LineAbsorption} (hL : GoodAbs L) (hk : L.kernel ≠ VORONOI_MESH)
    {get_tau : Bool} {nbins : ℕ} (hn : 0 < nbins) (i : ℕ) (l : Line) {p : Part} (hp : GoodDeposit L get_tau p) {d : ℝ}
    (hd : 0 ≤ d) (m : ℕ) : hits (partOps get_tau L nbins i l p d) m ≤ 3 := by
  unfold partOps
  split_ifs
  · exact (hits_tauOps_le L hn _ _ _ _ _ _ m).trans (by norm_num)
  · exact hits_coldenOps_le L hk hL.vbox hL.velfac hn hd hp.h hp.box _ _ m

theorem opsSum_nonneg {ops : List (ℕ × ℝ)} (h : ∀ o ∈ ops, 0 ≤ o.2) (m : ℕ) : 0 ≤ opsSum ops m := by
  unfold opsSum
  apply List.sum_nonneg
  intro x hx
  obtain ⟨o, ho, rfl⟩ := List.mem_map.1 hx
  split_ifs
  · exact h o ho
  · exact le_rfl

theorem interpolateFl_within {fl : Width → ℝ → ℝ} (hf : Faithful fl) {c : Config} (hc : GoodConfig c) (hL : GoodAbs c.L)
    (hprof : ∀ x t, 0 < t → 0 ≤ c.L.profile x (c.L.voigt_fac / (c.L.bfac * √t))) {get_tau : Bool} {parts : List Part}
    (hp : ∀ p ∈ parts, GoodDeposit c.L get_tau p) :
    (∀ m, 0 ≤ (parts.map (fun p => single (build c.lines c.box) c.lines
        (if get_tau then tauOn c.L c.nbins else coldenOn c.L c.nbins) p m)).sum) ∧
    ∃ a, interpolateFl fl c get_tau parts = .ok a ∧ a.length = (zeros c).length ∧
      ∀ (m : ℕ) (x : ℝ), a[m]? = some x → Within (3 * parts.length) 0 x ((parts.map (fun p =>
        single (build c.lines c.box) c.lines (if get_tau then tauOn c.L c.nbins else coldenOn c.L c.nbins) p m)).sum) := by
  have hq : ∀ i ∈ List.range c.lines.length, i < c.lines.length := fun i hi => List.mem_range.1 hi
  obtain ⟨ops, h1, h2, h3⟩ := threadOps_eq get_tau c.L hc.nbins c.box c.lines hc.axes parts _ hq
  have h4 := threadOps_flat get_tau c.L (nbins := c.nbins) c.box c.lines hc.axes parts _ hq
  rw [h1] at h4
  injection h4 with h4
  have hsum : ∀ m, opsSum ops m = (parts.map (fun p => single (build c.lines c.box) c.lines
      (if get_tau then tauOn c.L c.nbins else coldenOn c.L c.nbins) p m)).sum := by
    intro m
    rw [h3]
    unfold lineSum single
    rw [list_sum_comm]
    rfl
  have hnn : ∀ o ∈ ops, 0 ≤ o.2 := by
    intro o ho
    rw [h4] at ho
    obtain ⟨i, -, ho⟩ := List.mem_flatMap.1 ho
    obtain ⟨l, p, d, -, hpp, ho⟩ := mem_allOps ho
    exact partOps_nonneg hL hprof hc.kernel hc.nbins i l (hp p hpp) d o ho
  have hin : ∀ o ∈ ops, o.1 < (zeros c).length := by
    intro o ho
    obtain ⟨i, hi, -, h5⟩ := h2 o ho
    have hi' := List.mem_range.1 hi
    rw [zeros, List.length_replicate]
    calc o.1 < i * c.nbins + c.nbins := h5
      _ = (i + 1) * c.nbins := by ring
      _ ≤ _ := Nat.mul_le_mul_right _ hi'
  have hz : ∀ (m : ℕ) (x : ℝ), (zeros c)[m]? = some x → Within 0 0 x 0 := by
    intro m x hx
    have : x = 0 := by
      have := List.mem_of_getElem? hx
      rw [zeros] at this
      exact (List.mem_replicate.1 this).2
    rw [this]; exact Within.refl 0
  obtain ⟨a, ha, hlen, hw⟩ := foldl_ops hf ops (zeros c) hin hnn (fun _ => 0) (fun _ => 0) (fun _ => le_rfl) hz
  refine ⟨fun m => by rw [← hsum]; exact opsSum_nonneg hnn m, a, ?_, hlen, ?_⟩
  · unfold interpolateFl
    rw [h1]; exact ha
  · intro m x hx
    have := hw m x hx
    rw [zero_add, zero_add] at this
    rw [← hsum]
    refine this.mono (opsSum_nonneg hnn m) ?_ le_rfl
    rw [h4]
    exact hits_thread_le hc.nbins c.box m
      (fun i l p d _ hpp hd => hits_partOps_le hL hc.kernel hc.nbins i l (hp p hpp) hd m) _ List.nodup_range

/-- The exact sum in element `m`. -/
noncomputable def exactSum (c : Config) (get_tau : Bool) (raws : List Raw) (m : ℕ) : ℝ :=
  (raws.map (fun r => contrib c get_tau r m)).sum

theorem exactSum_append (c : Config) (get_tau : Bool) (a b : List Raw) (m : ℕ) :
    exactSum c get_tau (a ++ b) m = exactSum c get_tau a m + exactSum c get_tau b m := by simp [exactSum]

theorem single_file_within {fl : Width → ℝ → ℝ} (hf : Faithful fl) {c : Config} {get_tau : Bool} {seg : List Raw}
    (hd : Deposits c get_tau seg) :
    (∀ m, 0 ≤ exactSum c get_tau seg m) ∧
    ∃ w a, single_file_fl fl c get_tau seg = .value (w, a) ∧ a.length = (zeros c).length ∧
      (w = .double ↔ partsOf c get_tau seg ≠ []) ∧
      ∀ (m : ℕ) (x : ℝ), a[m]? = some x → Within (3 * seg.length) 0 x (exactSum c get_tau seg m) := by
  classical
  obtain ⟨o, ho, h⟩ := read_particle_data_eq hd.config.axes get_tau hd.temps seg
  have hsum : ∀ m, ((partsOf c get_tau seg).map (fun p => single (build c.lines c.box) c.lines
        (if get_tau then tauOn c.L c.nbins else coldenOn c.L c.nbins) p m)).sum = exactSum c get_tau seg m := by
    intro m
    unfold partsOf exactSum
    rw [filterMap_sum]
    exact sum_filter_zero seg (Near c) (fun r => contrib c get_tau r m) (fun r _ hr => contrib_of_far hr m)
  have hparts : ∀ p ∈ partsOf c get_tau seg, GoodDeposit c.L get_tau p := by
    intro p hp
    unfold partsOf at hp
    obtain ⟨r, hr, hpr⟩ := List.mem_filterMap.1 hp
    obtain ⟨g1, g2⟩ := hd.gas r (List.mem_filter.1 hr).1
    exact goodDeposit_of_prep hd.units g1 g2 hpr
  obtain ⟨hnn, a, ha, hlen, hw⟩ := interpolateFl_within hf hd.config hd.abs hd.profile hparts
  simp only [hsum] at hnn hw
  refine ⟨hnn, ?_⟩
  unfold single_file_fl
  rw [ho]
  change o = none ∧ partsOf c get_tau seg = [] ∨ o = some (partsOf c get_tau seg) ∧ partsOf c get_tau seg ≠ [] at h
  rcases h with ⟨rfl, h⟩ | ⟨rfl, h⟩
  · refine ⟨.single, zeros c, rfl, rfl, by simp [h], ?_⟩
    intro m x hx
    have hx0 : x = 0 := by
      have := List.mem_of_getElem? hx
      rw [zeros] at this
      exact (List.mem_replicate.1 this).2
    have : exactSum c get_tau seg m = 0 := by rw [← hsum, h]; rfl
    rw [this, hx0]
    exact within_exact _ _ le_rfl
  · simp only [ha]
    refine ⟨.double, a, rfl, hlen, by simp [h], ?_⟩
    intro m x hx
    refine (hw m x hx).mono (hnn m) (Nat.mul_le_mul_left 3 ?_) le_rfl
    unfold partsOf
    exact (List.length_filterMap_le _ _).trans (List.length_filter_le _ _)

theorem addInto_within {fl : Width → ℝ → ℝ} (hf : Faithful fl) {w w' : Width} {n k : ℕ} {x y s t : ℝ} (hs : 0 ≤ s) (ht : 0 ≤ t)
    (hx : Within n k x s) (hy : Within n k y t) :
    Within (n + 1) (k + if w = .single then 1 else 0) (addInto fl w w' x y) (s + t) := by
  have hst : 0 ≤ s + t := add_nonneg hs ht
  have h := hx.add hy
  unfold addInto
  cases w <;> cases w' <;> simp [Width.wider]
  · exact (h.single hf hst).mono hst (by omega) (by omega)
  · exact ((h.double hf hst).single hf hst)
  · exact h.double hf hst
  · exact h.double hf hst

theorem getElem?_zipWith_some {f : ℝ → ℝ → ℝ} {a b : List ℝ} {m : ℕ} {x : ℝ} (h : (List.zipWith f a b)[m]? = some x) :
    ∃ y z, a[m]? = some y ∧ b[m]? = some z ∧ x = f y z := by
  rw [List.getElem?_zipWith] at h
  cases ha : a[m]? <;> cases hb : b[m]? <;> simp [ha, hb] at h
  exact ⟨_, _, rfl, rfl, h.symm⟩

theorem addSegments_within {fl : Width → ℝ → ℝ} (hf : Faithful fl) {c : Config} {get_tau : Bool} (segs : List (List Raw))
    (hd : Deposits c get_tau segs.flatten) (w : Width) (a : List ℝ) (ha : a.length = (zeros c).length) (n k : ℕ) (s : ℕ → ℝ)
    (hs : ∀ m, 0 ≤ s m) (hw : ∀ (m : ℕ) (x : ℝ), a[m]? = some x → Within n k x (s m)) :
    (∀ m, 0 ≤ exactSum c get_tau segs.flatten m) ∧
    ∃ out, addSegmentsFl fl c get_tau w a segs = .value (w, out) ∧ out.length = (zeros c).length ∧
      ∀ (m : ℕ) (x : ℝ), out[m]? = some x → Within (n + 3 * segs.flatten.length + segs.length)
        (k + if w = .single then segs.length else 0) x (s m + exactSum c get_tau segs.flatten m) := by
  induction segs generalizing a n k s with
  | nil =>
    refine ⟨fun m => by simp [exactSum], a, rfl, ha, fun m x hx => ?_⟩
    have := hw m x hx
    simpa [exactSum] using this
  | cons seg segs ih =>
    rw [List.flatten_cons] at hd ⊢
    obtain ⟨h0, w', b, h1, h2, -, h3⟩ := single_file_within hf (hd.sub (raws' := seg) (by simp +contextual))
    obtain ⟨i0, out, i1, i2, i3⟩ := ih (hd.sub (by simp +contextual)) (List.zipWith (addInto fl w w') a b)
      (by rw [List.length_zipWith, ha, h2, min_self]) (n + 3 * seg.length + 1) (k + if w = .single then 1 else 0)
      (fun m => s m + exactSum c get_tau seg m) (fun m => add_nonneg (hs m) (h0 m)) (by
        intro m x hx
        obtain ⟨y, z, hy, hz, rfl⟩ := getElem?_zipWith_some hx
        exact addInto_within hf (hs m) (h0 m)
          ((hw m y hy).mono (hs m) (Nat.le_add_right _ _) le_rfl)
          ((h3 m z hz).mono (h0 m) (Nat.le_add_left _ _) (Nat.zero_le _)))
    refine ⟨fun m => by rw [exactSum_append]; exact add_nonneg (h0 m) (i0 m), out, ?_, i2, ?_⟩
    · unfold addSegmentsFl
      rw [h1]; exact i1
    · intro m x hx
      have hst : 0 ≤ s m + exactSum c get_tau (seg ++ segs.flatten) m := by
        rw [exactSum_append]; exact add_nonneg (hs m) (add_nonneg (h0 m) (i0 m))
      rw [exactSum_append, ← add_assoc]
      rw [exactSum_append, ← add_assoc] at hst
      refine (i3 m x hx).mono hst ?_ ?_
      · rw [List.length_append, List.length_cons]; omega
      · rw [List.length_cons]
        split_ifs <;> omega

theorem compute_within {fl : Width → ℝ → ℝ} (hf : Faithful fl) {c : Config} {get_tau : Bool} {segs : List (List Raw)}
    (hne : segs ≠ []) (hd : Deposits c get_tau segs.flatten) :
    (∀ m, 0 ≤ exactSum c get_tau segs.flatten m) ∧
    ∃ w out, compute_spectra_fl fl c get_tau segs = .value (w, out) ∧ out.length = (zeros c).length ∧
      (w = .double ↔ partsOf c get_tau (segs.headD []) ≠ []) ∧
      ∀ (m : ℕ) (x : ℝ), out[m]? = some x → Within (3 * segs.flatten.length + segs.length)
        (if w = .single then segs.length else 0) x (exactSum c get_tau segs.flatten m) := by
  cases segs with
  | nil => exact absurd rfl hne
  | cons seg segs =>
    rw [List.flatten_cons] at hd ⊢
    obtain ⟨h0, w, a, h1, h2, h4, h3⟩ := single_file_within hf (hd.sub (raws' := seg) (by simp +contextual))
    obtain ⟨i0, out, i1, i2, i3⟩ := addSegments_within hf segs (hd.sub (by simp +contextual)) w a h2 (3 * seg.length) 0
      (exactSum c get_tau seg) h0 h3
    have hnn : ∀ m, 0 ≤ exactSum c get_tau (seg ++ segs.flatten) m := fun m => by
      rw [exactSum_append]; exact add_nonneg (h0 m) (i0 m)
    refine ⟨hnn, w, out, ?_, i2, h4, ?_⟩
    · unfold compute_spectra_fl
      simp only
      rw [h1]; exact i1
    · intro m x hx
      have := i3 m x hx
      rw [← exactSum_append] at this
      refine this.mono (hnn m) ?_ ?_
      · rw [List.length_append, List.length_cons]; omega
      · rw [List.length_cons]
        split_ifs <;> omega

theorem reduction_within {fl : Width → ℝ → ℝ} (hf : Faithful fl) {c : Config} {get_tau : Bool} (t : Reduction)
    (hne : ∀ r ∈ t.ranks, r ≠ []) (hd : Deposits c get_tau t.ranks.flatten.flatten) :
    (∀ m, 0 ≤ exactSum c get_tau t.ranks.flatten.flatten m) ∧
    ∃ out, compute_spectra_mpi_fl fl c get_tau t = .value out ∧ out.length = (zeros c).length ∧
      ∀ (m : ℕ) (x : ℝ), out[m]? = some x →
        Within (3 * t.ranks.flatten.flatten.length + t.ranks.flatten.length)
          (t.ranks.flatten.length + t.ranks.length) x (exactSum c get_tau t.ranks.flatten.flatten m) := by
  induction t with
  | rank segs =>
    simp only [Reduction.ranks, List.flatten_cons, List.flatten_nil, List.append_nil, List.length_singleton] at hd ⊢
    obtain ⟨h0, w, out, h1, h2, -, h3⟩ := compute_within hf (hne segs (by simp [Reduction.ranks])) hd
    refine ⟨h0, out.map (fl .single), ?_, by simpa using h2, ?_⟩
    · unfold compute_spectra_mpi_fl
      rw [h1]
    · intro m x hx
      rw [List.getElem?_map, Option.map_eq_some_iff] at hx
      obtain ⟨y, hy, rfl⟩ := hx
      refine ((h3 m y hy).single hf (h0 m)).mono (h0 m) le_rfl ?_
      split_ifs <;> omega
  | add l r ihl ihr =>
    simp only [Reduction.ranks, List.flatten_append, List.length_append] at hd hne ⊢
    obtain ⟨l0, a, l1, l2, l3⟩ := ihl (fun x hx => hne x (by simp [hx])) (hd.sub (fun r hr => List.mem_append_left _ hr))
    obtain ⟨r0, b, r1, r2, r3⟩ := ihr (fun x hx => hne x (by simp [hx])) (hd.sub (fun r hr => List.mem_append_right _ hr))
    have hnn : ∀ m, 0 ≤ exactSum c get_tau (l.ranks.flatten.flatten ++ r.ranks.flatten.flatten) m := fun m => by
      rw [exactSum_append]; exact add_nonneg (l0 m) (r0 m)
    have hpos : ∀ t : Reduction, 1 ≤ t.ranks.length := by
      intro t
      induction t with
      | rank _ => simp [Reduction.ranks]
      | add l r h _ => simp only [Reduction.ranks, List.length_append]; omega
    refine ⟨hnn, List.zipWith (fun x y => fl .single (x + y)) a b, ?_, ?_, ?_⟩
    · unfold compute_spectra_mpi_fl
      rw [l1, r1]
    · rw [List.length_zipWith, l2, r2, min_self]
    · intro m x hx
      obtain ⟨y, z, hy, hz, rfl⟩ := getElem?_zipWith_some hx
      have hl := hpos l
      have hr := hpos r
      have h := ((l3 m y hy).mono (l0 m) (n' := 3 * (l.ranks.flatten.flatten.length + r.ranks.flatten.flatten.length) +
          (l.ranks.flatten.length + r.ranks.flatten.length))
          (k' := l.ranks.flatten.length + r.ranks.flatten.length + (l.ranks.length + r.ranks.length) - 1)
          (by omega) (by omega)).add
        ((r3 m z hz).mono (r0 m) (by omega) (by omega))
      rw [← exactSum_append] at h
      refine (h.single hf (hnn m)).mono (hnn m) le_rfl (by omega)

/-- `(1+2⁻⁵³)ⁿ (1+2⁻²⁴)ᵏ - 1`: the relative error after `n` roundings in double and `k` in single precision. -/
noncomputable def roundoff (n k : ℕ) : ℝ := (1 + (2 : ℝ)⁻¹ ^ 53) ^ n * (1 + (2 : ℝ)⁻¹ ^ 24) ^ k - 1

theorem lo_ge (n k : ℕ) : 1 - roundoff n k ≤ (1 - (2 : ℝ)⁻¹ ^ 53) ^ n * (1 - (2 : ℝ)⁻¹ ^ 24) ^ k := by
  have key : ∀ u : ℝ, 0 ≤ u → u ≤ 1 → ∀ n : ℕ, 0 ≤ (1 - u) ^ n ∧ 1 ≤ (1 + u) ^ n ∧ 2 ≤ (1 + u) ^ n + (1 - u) ^ n := by
    intro u hu hu1 n
    refine ⟨pow_nonneg (by linarith) n, one_le_pow₀ (by linarith), ?_⟩
    have h1 := one_add_mul_le_pow (a := u) (by linarith) n
    have h2 := one_add_mul_le_pow (a := -u) (by linarith) n
    have e : (1 - u : ℝ) = 1 + -u := by ring
    rw [e]; linarith
  obtain ⟨a1, a2, a3⟩ := key ((2 : ℝ)⁻¹ ^ 53) (by positivity) (by norm_num) n
  obtain ⟨b1, b2, b3⟩ := key ((2 : ℝ)⁻¹ ^ 24) (by positivity) (by norm_num) k
  unfold roundoff
  generalize (1 + (2 : ℝ)⁻¹ ^ 53) ^ n = A at *
  generalize (1 - (2 : ℝ)⁻¹ ^ 53) ^ n = A' at *
  generalize (1 + (2 : ℝ)⁻¹ ^ 24) ^ k = B at *
  generalize (1 - (2 : ℝ)⁻¹ ^ 24) ^ k = B' at *
  have hA : 2 - A ≤ A' := by linarith
  have hB : 2 - B ≤ B' := by linarith
  by_cases hA2 : A ≤ 2
  · by_cases hB2 : B ≤ 2
    · have : (2 - A) * (2 - B) ≤ A' * B' := mul_le_mul hA hB (by linarith) a1
      nlinarith [mul_nonneg (sub_nonneg.2 a2) (sub_nonneg.2 b2)]
    · nlinarith [mul_nonneg a1 b1]
  · nlinarith [mul_nonneg a1 b1]

theorem within_abs_le {n k : ℕ} {x s : ℝ} (h : Within n k x s) (hs : 0 ≤ s) : |x - s| ≤ roundoff n k * s := by
  rw [_root_.abs_le]
  have h1 := mul_le_mul_of_nonneg_right (lo_ge n k) hs
  have h2 := h.2
  constructor
  · linarith [h.1]
  · unfold roundoff; linarith

/-- The roundoff grows no faster than the number of roundings. -/
theorem roundoff_le (n k : ℕ) (h : (n : ℝ) * (2 : ℝ)⁻¹ ^ 53 + k * (2 : ℝ)⁻¹ ^ 24 ≤ 1) :
    roundoff n k ≤ 2 * (n * (2 : ℝ)⁻¹ ^ 53 + k * (2 : ℝ)⁻¹ ^ 24) := by
  have h1 : (1 + (2 : ℝ)⁻¹ ^ 53) ^ n ≤ Real.exp (n * (2 : ℝ)⁻¹ ^ 53) := by
    rw [Real.exp_nat_mul]
    exact pow_le_pow_left₀ (by positivity) (by linarith [Real.add_one_le_exp ((2 : ℝ)⁻¹ ^ 53)]) n
  have h2 : (1 + (2 : ℝ)⁻¹ ^ 24) ^ k ≤ Real.exp (k * (2 : ℝ)⁻¹ ^ 24) := by
    rw [Real.exp_nat_mul]
    exact pow_le_pow_left₀ (by positivity) (by linarith [Real.add_one_le_exp ((2 : ℝ)⁻¹ ^ 24)]) k
  have h3 : (1 + (2 : ℝ)⁻¹ ^ 53) ^ n * (1 + (2 : ℝ)⁻¹ ^ 24) ^ k ≤
      Real.exp (n * (2 : ℝ)⁻¹ ^ 53 + k * (2 : ℝ)⁻¹ ^ 24) := by
    rw [Real.exp_add]
    exact mul_le_mul h1 h2 (by positivity) (by positivity)
  have hx : 0 ≤ (n : ℝ) * (2 : ℝ)⁻¹ ^ 53 + k * (2 : ℝ)⁻¹ ^ 24 := by positivity
  unfold roundoff
  generalize (n : ℝ) * (2 : ℝ)⁻¹ ^ 53 + k * (2 : ℝ)⁻¹ ^ 24 = x at *
  have h4 := Real.abs_exp_sub_one_sub_id_le (x := x) (by rw [_root_.abs_le]; constructor <;> linarith)
  have h5 := (_root_.abs_le.1 h4).2
  nlinarith

/-- `|x - y| ≤ ε y` in every element, for arrays of the same length. -/
def CloseTo (ε : ℝ) (xs ys : List ℝ) : Prop := List.Forall₂ (fun x y => |x - y| ≤ ε * y) xs ys

theorem closeTo_of {ε : ℝ} {xs ys : List ℝ} (hl : xs.length = ys.length)
    (h : ∀ (m : ℕ) (x y : ℝ), xs[m]? = some x → ys[m]? = some y → |x - y| ≤ ε * y) : CloseTo ε xs ys := by
  unfold CloseTo
  rw [List.forall₂_iff_get]
  refine ⟨hl, fun i h1 h2 => ?_⟩
  exact h i _ _ (List.getElem?_eq_getElem h1) (List.getElem?_eq_getElem h2)

/-- C104: with MPI, for every division of the particles into files and processes and every order of the final sum, the
spectrum is the exact one up to the roundoff of three sums in double precision per particle and one per file, and one in
single precision per file and process. -/
theorem spectra_roundoff {fl : Width → ℝ → ℝ} (hf : Faithful fl) {c : Config} {get_tau : Bool} (t : Reduction)
    (hne : ∀ r ∈ t.ranks, r ≠ []) (hd : Deposits c get_tau t.ranks.flatten.flatten) :
    ∃ computed exact, compute_spectra_mpi_fl fl c get_tau t = .value computed ∧
      compute_spectra_mpi c get_tau t.ranks = .value exact ∧
      CloseTo (roundoff (3 * t.ranks.flatten.flatten.length + t.ranks.flatten.length)
        (t.ranks.flatten.length + t.ranks.length)) computed exact := by
  obtain ⟨h0, out, h1, h2, h3⟩ := reduction_within hf t hne hd
  refine ⟨out, _, h1, compute_spectra_mpi_eq hd.config get_tau hd.temps _ hne, closeTo_of (by simp [h2]) ?_⟩
  intro m x y hx hy
  rw [arrAdd_getElem?, Option.map_eq_some_iff] at hy
  obtain ⟨z, hz, rfl⟩ := hy
  have hz0 : z = 0 := by
    have := List.mem_of_getElem? hz
    rw [zeros] at this
    exact (List.mem_replicate.1 this).2
  rw [hz0, zero_add]
  exact within_abs_le (h3 m x hx) (h0 m)

/-- C104: without MPI, if the first file has a particle to interpolate, all the sums are in double precision. -/
theorem spectra_roundoff_serial {fl : Width → ℝ → ℝ} (hf : Faithful fl) {c : Config} {get_tau : Bool}
    {seg : List Raw} {segs : List (List Raw)} (hfirst : partsOf c get_tau seg ≠ [])
    (hd : Deposits c get_tau (seg :: segs).flatten) :
    ∃ computed exact, compute_spectra_fl fl c get_tau (seg :: segs) = .value (.double, computed) ∧
      compute_spectra c get_tau (seg :: segs) = .value exact ∧
      CloseTo (roundoff (3 * (seg :: segs).flatten.length + (seg :: segs).length) 0) computed exact := by
  obtain ⟨h0, w, out, h1, h2, h4, h3⟩ := compute_within hf (segs := seg :: segs) (by simp) hd
  have hw : w = .double := h4.2 hfirst
  subst hw
  refine ⟨out, _, h1, compute_spectra_eq hd.config get_tau hd.temps _ (by simp), closeTo_of (by simp [h2]) ?_⟩
  intro m x y hx hy
  rw [arrAdd_getElem?, Option.map_eq_some_iff] at hy
  obtain ⟨z, hz, rfl⟩ := hy
  have hz0 : z = 0 := by
    have := List.mem_of_getElem? hz
    rw [zeros] at this
    exact (List.mem_replicate.1 this).2
  rw [hz0, zero_add]
  have := within_abs_le (h3 m x hx) (h0 m)
  rw [if_neg (by decide)] at this
  exact this

/-- C104: two divisions of the same particles, over any files and processes and with any order of the final sum, agree
up to the roundoff of each. -/
theorem layouts_agree {fl : Width → ℝ → ℝ} (hf : Faithful fl) {c : Config} {get_tau : Bool} (t t' : Reduction)
    (hne : ∀ r ∈ t.ranks, r ≠ []) (hne' : ∀ r ∈ t'.ranks, r ≠ [])
    (hp : t.ranks.flatten.flatten.Perm t'.ranks.flatten.flatten) (hd : Deposits c get_tau t.ranks.flatten.flatten) :
    ∃ computed computed' exact, compute_spectra_mpi_fl fl c get_tau t = .value computed ∧
      compute_spectra_mpi_fl fl c get_tau t' = .value computed' ∧
      CloseTo (roundoff (3 * t.ranks.flatten.flatten.length + t.ranks.flatten.length)
        (t.ranks.flatten.length + t.ranks.length)) computed exact ∧
      CloseTo (roundoff (3 * t.ranks.flatten.flatten.length + t'.ranks.flatten.length)
        (t'.ranks.flatten.length + t'.ranks.length)) computed' exact := by
  obtain ⟨a, s, h1, h2, h3⟩ := spectra_roundoff hf t hne hd
  obtain ⟨a', s', h1', h2', h3'⟩ := spectra_roundoff hf t' hne' (hd.sub (fun r hr => hp.mem_iff.2 hr))
  have hs : s = s' := by
    rw [compute_spectra_mpi_eq hd.config get_tau hd.temps _ hne] at h2
    rw [compute_spectra_mpi_eq hd.config get_tau hd.temps _ hne'] at h2'
    injection h2 with h2
    injection h2' with h2'
    rw [← h2, ← h2']
    congr 1
    funext m
    exact (hp.map _).sum_eq
  subst hs
  rw [← hp.length_eq] at h3'
  exact ⟨a, a', s, h1, h1', h3, h3'⟩

/-- Disagreement with the expectation that the sums are in double precision without MPI: a first file without a particle
near a sightline makes the result an array of `float32`, to which that of the other files is rounded. -/
theorem empty_first_file_single (fl : Width → ℝ → ℝ) {c : Config} {get_tau : Bool} {first seg : List Raw}
    (hc : GoodConfig c) (hsp : TempRead get_tau c.sp) (hfirst : partsOf c get_tau first = []) {a : List ℝ}
    (hseg : compute_spectra_fl fl c get_tau [seg] = .value (.double, a)) (hlen : a.length = (zeros c).length) :
    compute_spectra_fl fl c get_tau [first, seg] = .value (.single, a.map (fun x => fl .single (fl .double x))) := by
  have h1 : single_file_fl fl c get_tau first = .value (.single, zeros c) := by
    obtain ⟨o, ho, h⟩ := read_particle_data_eq hc.axes get_tau hsp first
    change o = none ∧ partsOf c get_tau first = [] ∨ o = some (partsOf c get_tau first) ∧ partsOf c get_tau first ≠ [] at h
    rcases h with ⟨rfl, -⟩ | ⟨-, h⟩
    · unfold single_file_fl; rw [ho]
    · exact absurd hfirst h
  have h2 : single_file_fl fl c get_tau seg = .value (.double, a) := by
    unfold compute_spectra_fl at hseg
    simp only at hseg
    cases h : single_file_fl fl c get_tau seg with
    | value t => rw [h] at hseg; simpa [addSegmentsFl] using hseg
    | raised e => rw [h] at hseg; cases hseg
    | crashed e => rw [h] at hseg; cases hseg
  unfold compute_spectra_fl
  simp only
  rw [h1]
  simp only [addSegmentsFl]
  rw [h2]
  simp only
  congr 2
  apply List.ext_getElem?
  intro m
  rw [List.getElem?_zipWith, List.getElem?_map]
  by_cases hm : m < a.length
  · rw [List.getElem?_eq_getElem hm, List.getElem?_eq_getElem (by omega : m < (zeros c).length)]
    simp [zeros, addInto, Width.wider]
  · rw [List.getElem?_eq_none (by omega : a.length ≤ m), List.getElem?_eq_none (by omega : (zeros c).length ≤ m)]
    rfl

/-- Single precision is not enough for `1 + 2⁻³⁰`. -/
theorem roundTo_single_loses : roundTo Width.single.digits (1 + (2 : ℝ)⁻¹ ^ 30) = 1 := by
  have hlog : Int.log 2 |1 + (2 : ℝ)⁻¹ ^ 30| = 0 := by
    rw [abs_of_pos (by positivity)]
    have h1 : (2 : ℝ) ^ (0 : ℤ) ≤ 1 + (2 : ℝ)⁻¹ ^ 30 := by norm_num
    have h2 : 1 + (2 : ℝ)⁻¹ ^ 30 < (2 : ℝ) ^ ((0 : ℤ) + 1) := by norm_num
    have := (Int.zpow_le_iff_le_log (b := 2) (r := 1 + (2 : ℝ)⁻¹ ^ 30) (x := 0) (by norm_num) (by positivity)).1
      (by exact_mod_cast h1)
    have := (Int.lt_zpow_iff_log_lt (b := 2) (r := 1 + (2 : ℝ)⁻¹ ^ 30) (x := 0 + 1) (by norm_num) (by positivity)).1
      (by exact_mod_cast h2)
    omega
  unfold roundTo
  rw [hlog]
  have : round ((1 + (2 : ℝ)⁻¹ ^ 30) * (2 : ℝ) ^ (((Width.single.digits : ℕ) : ℤ) - 1 - 0)) = 8388608 := by
    rw [round_eq_iff]
    simp only [Width.digits]
    norm_num
  rw [this]
  simp only [Width.digits]
  norm_num

/-! ### A concrete case -/

theorem exDeposits (get_tau : Bool) {raws : List Raw} (h : ∀ r ∈ raws, ∃ z, r = exRaw z) :
    Deposits (exConfig .HI) get_tau raws where
  config := exConfig_good _
  units := ⟨by norm_num [exConfig], by norm_num [exConfig], by simp [exConfig]⟩
  temps := trivial
  abs := ⟨by norm_num [exConfig], by norm_num [exConfig], by norm_num [exConfig], by norm_num [exConfig]⟩
  profile := by intros; norm_num [exConfig]
  gas := by
    intro r hr
    obtain ⟨z, rfl⟩ := h r hr
    exact ⟨⟨by norm_num [exRaw], by norm_num [exRaw], by norm_num [exRaw], by norm_num [exRaw]⟩, by norm_num [exRaw, exConfig]⟩

/-- Witness: three particles in one file, or over three processes added up in the other order. The roundoff is below one in
a million in both. -/
example : (∃ computed computed' exact,
    compute_spectra_mpi_fl (fun w x => roundTo w.digits x) (exConfig .HI) true
      (.rank [[exRaw 2, exRaw 9, exRaw 4]]) = .value computed ∧
    compute_spectra_mpi_fl (fun w x => roundTo w.digits x) (exConfig .HI) true
      (.add (.rank [[exRaw 4]]) (.add (.rank [[], [exRaw 9]]) (.rank [[exRaw 2]]))) = .value computed' ∧
    CloseTo (roundoff 10 2) computed exact ∧ CloseTo (roundoff 13 7) computed' exact) ∧
    roundoff 10 2 < 1e-6 ∧ roundoff 13 7 < 1e-6 := by
  refine ⟨?_, ?_, ?_⟩
  · exact layouts_agree roundTo_faithful (c := exConfig .HI) (get_tau := true)
      (.rank [[exRaw 2, exRaw 9, exRaw 4]]) (.add (.rank [[exRaw 4]]) (.add (.rank [[], [exRaw 9]]) (.rank [[exRaw 2]])))
      (by simp [Reduction.ranks]) (by simp [Reduction.ranks]) (by
        simp only [Reduction.ranks, List.flatten_cons, List.flatten_nil, List.append_nil, List.cons_append, List.nil_append]
        exact ((List.Perm.swap _ _ _).trans ((List.Perm.swap _ _ _).cons _)).trans (List.Perm.swap _ _ _))
      (exDeposits true (by simp [Reduction.ranks]))
  · refine lt_of_le_of_lt (roundoff_le 10 2 (by norm_num)) (by norm_num)
  · refine lt_of_le_of_lt (roundoff_le 13 7 (by norm_num)) (by norm_num)

/-- Over two processes, the second with two files. -/
example := spectra_roundoff roundTo_faithful (c := exConfig .HI) (get_tau := true) (.add (.rank [[exRaw 4]]) (.rank [[], [exRaw 9, exRaw 2]]))
  (by simp [Reduction.ranks]) (exDeposits true (by simp [Reduction.ranks]))

end Verif.Props
