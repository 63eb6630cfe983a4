import Verif.Model.HaloStats
import Verif.Lemmas.Absorbers
import Verif.Props.HaloAssigned
import Verif.Props.EquivalentWidth

/-!
C90: the statistics of the halos that host absorption.
-/

namespace Verif.Props
open Verif Verif.Np Verif.HaloAssigned Verif.HaloStats Verif.SpecTools Verif.Absorbers Verif.Spec

theorem firstHalo_unique {halos : List Halo} {p : Pos3} {k k' : ℕ} {d d' : ℝ} (h : FirstHalo halos p k d) (h' : FirstHalo halos p k' d') :
    k = k' := by
  obtain ⟨⟨a, ha, hd, hda⟩, hb⟩ := h
  obtain ⟨⟨a', ha', hd', hda'⟩, hb'⟩ := h'
  rcases lt_trichotomy k k' with hlt | heq | hlt
  · have := hb' k hlt a ha; rw [← hd] at this; linarith
  · exact heq
  · have := hb k' hlt a' ha'; rw [← hd'] at this; linarith

/-- Halo `k` of the catalogue is the first that contains one of the positions on the sightline. -/
def HostsOne (halos : List Halo) (cofm : Pos3) (axis : ℤ) (zs : List (Option ℝ)) (k : ℕ) : Prop :=
  ∃ z, some z ∈ zs ∧ ∃ d, FirstHalo halos (onSightline cofm axis z) k d

theorem assigned_iff {halos : List Halo} {c : Pos3} {a : ℤ} {zs : List (Option ℝ)} {o : List (ℕ × ℝ)}
    (h : AssignSpec halos c a (zs.filterMap id) o) (k : ℕ) : k ∈ (o.map Prod.fst).dedup ↔ HostsOne halos c a zs k := by
  obtain ⟨g, rfl, hg⟩ := h
  rw [List.mem_dedup, List.mem_map]
  constructor
  · rintro ⟨⟨k', d⟩, hm, rfl⟩
    obtain ⟨z, hz, hgz⟩ := List.mem_filterMap.1 hm
    obtain ⟨x, hx, hxz⟩ := List.mem_filterMap.1 hz
    exact ⟨z, by rw [← hxz]; exact hx, d, (hg z hz).2 _ _ hgz⟩
  · rintro ⟨z, hz, d, hf⟩
    have hzm : z ∈ zs.filterMap id := List.mem_filterMap.2 ⟨some z, hz, rfl⟩
    rcases hgz : g z with _ | ⟨k', d'⟩
    · obtain ⟨⟨h, hh, hd, hlt⟩, -⟩ := hf
      have := (hg z hzm).1 hgz h (List.mem_of_getElem? hh)
      linarith
    · have := (hg z hzm).2 _ _ hgz
      exact ⟨(k', d'), List.mem_filterMap.2 ⟨z, hzm, hgz⟩, firstHalo_unique this hf⟩

/-- C90, partial: `find_nearby_halos` gives, for every sightline, the halos (and subhalos) that contain the position of a stretch of
absorption, each once. Missing: of halos that overlap only the first is given, and distances are not periodic (C29). -/
theorem find_nearby_partial {nbins : ℕ} {box : ℝ} {den : List (List ℝ)} {cofm : List Pos3} {axis : List ℤ} {halos subhalos : List Halo}
    (hb : 0 < box) (hn : 0 < nbins) (hne : den ≠ []) (hrows : ∀ row ∈ den, row.length = nbins ∧ ∀ x ∈ row, 0 ≤ x)
    (hr : ∀ h ∈ halos, 0 ≤ h.radius) (hrs : ∀ h ∈ subhalos, 0 ≤ h.radius) (ha : ∀ a ∈ axis, a = 1 ∨ a = 2 ∨ a = 3)
    (hc : den.length ≤ cofm.length) (hx : den.length ≤ axis.length) :
    ∃ near subs, find_nearby_halos nbins box den cofm axis halos subhalos = .ok (near, subs) ∧ near.length = den.length ∧ subs.length = den.length ∧
      ∀ (i : ℕ) row c a, den[i]? = some row → cofm[i]? = some c → axis[i]? = some a →
        ∃ zs l m, RowSpec box 1e19 1e-2 row zs ∧ near[i]? = some l ∧ subs[i]? = some m ∧ l.Nodup ∧ m.Nodup ∧
          (∀ k, k ∈ l ↔ HostsOne halos c a zs k) ∧ ∀ k, k ∈ m ↔ HostsOne subhalos c a zs k := by
  obtain ⟨zpos, hz, hspec⟩ := contiguous_positions (thresh := 1e19) (relthresh := 1e-2) hb (by norm_num) (by norm_num) hn hne hrows
  have hzl : zpos.length = den.length := hspec.length_eq.symm
  set zp := zpos.map (fun z => z.filterMap id) with hzp
  have hzpl : zp.length = den.length := by rw [hzp, List.length_map, hzl]
  obtain ⟨h, hh, hhl, hhs⟩ := assign_spec_partial (cofm := cofm) (axis := axis) (zpos := zp) hr ha (by omega) (by omega)
  obtain ⟨s, hs, hsl, hss⟩ := assign_spec_partial (cofm := cofm) (axis := axis) (zpos := zp) hrs ha (by omega) (by omega)
  refine ⟨h.map (fun r => (r.map Prod.fst).dedup), s.map (fun r => (r.map Prod.fst).dedup), ?_, ?_, ?_, ?_⟩
  · unfold find_nearby_halos
    simp only [hz, bind, Except.bind]
    rw [← hzp, hh, hs]
    rfl
  · simp [hhl, hzpl]
  · simp [hsl, hzpl]
  · intro i row c a hrow hcc haa
    have hi : i < den.length := (List.getElem?_eq_some_iff.1 hrow).1
    have hzi : zpos[i]? = some (zpos[i]'(by omega)) := List.getElem?_eq_getElem (by omega)
    have hzpi : zp[i]? = some ((zpos[i]'(by omega)).filterMap id) := by rw [hzp, List.getElem?_map, hzi]; rfl
    obtain ⟨o, ho, hos⟩ := hhs i _ c a hzpi hcc haa
    obtain ⟨o', ho', hos'⟩ := hss i _ c a hzpi hcc haa
    have hrs := (List.forall₂_iff_get.1 hspec).2 i hi (by omega)
    simp only [List.get_eq_getElem] at hrs
    rw [List.getElem?_eq_getElem hi] at hrow
    rw [Option.some.inj hrow] at hrs
    refine ⟨_, _, _, hrs, by rw [List.getElem?_map, ho]; rfl, by rw [List.getElem?_map, ho']; rfl, List.nodup_dedup _, List.nodup_dedup _,
      assigned_iff hos, assigned_iff hos'⟩

/-- The virial velocities of the hosts of the sightlines that have one. -/
noncomputable def hostVelocities (halos : List ℤ) (virial : List ℝ) : List ℝ :=
  (halos.filter (fun h => decide (h ≠ -1))).map (fun h => virial.getD h.toNat 0)

/-- Edge `i` of the table of logarithms. -/
noncomputable def hostEdge (lo dm : ℝ) (i : ℕ) : ℝ := Real.logb 10 (lo + 0.1) + i * dm

theorem hostEdge_mono {lo dm : ℝ} (hd : 0 ≤ dm) : Monotone (hostEdge lo dm) := by
  intro i j hij
  unfold hostEdge
  have : (i : ℝ) ≤ j := by exact_mod_cast hij
  have := mul_le_mul_of_nonneg_right this hd
  linarith

/-- C90, partial: `mass_hist` gives the number of sightlines whose host has a virial velocity in each of the logarithmic bins, divided
by the width and the number in all bins, so that times the width they add up to one. Missing: the bins do not cover the hosts with the
smallest and the largest velocity (`mass_hist_misses`), and there are none for hosts that are nearly alike (`mass_hist_alike`). -/
theorem mass_hist_partial {dm : ℝ} (hd : 0 < dm) {halos : List ℤ} {virial : List ℝ} (hv : ∀ x ∈ virial, 0 ≤ x)
    (hin : ∀ h ∈ halos, h = -1 ∨ 0 ≤ h ∧ h < virial.length) {lo hi : ℝ}
    (hlo : lo ∈ hostVelocities halos virial ∧ ∀ v ∈ hostVelocities halos virial, lo ≤ v)
    (hhi : hi ∈ hostVelocities halos virial ∧ ∀ v ∈ hostVelocities halos virial, v ≤ hi) (h0 : 0 < hi) {n : ℕ}
    (hn : n = ⌈(Real.logb 10 hi - Real.logb 10 (lo + 0.1)) / dm⌉₊ - 1) :
    ∃ mbin pdf, mass_hist dm halos virial = .ok (mbin, pdf) ∧ mbin.length = n ∧
      (∀ i < n, mbin[i]? = some (((10 : ℝ) ^ hostEdge lo dm i + (10 : ℝ) ^ hostEdge lo dm (i + 1)) / 2)) ∧
      (n = 0 → pdf = some []) ∧
      (0 < n → ∀ d, pdf = some d → d.length = n ∧
        (∀ i < n, d[i]? = some (Spec.count (fun v => 0 < v ∧ InEdges (hostEdge lo dm) n i (Real.logb 10 v)) (hostVelocities halos virial) / dm /
          Spec.count (fun v => 0 < v ∧ hostEdge lo dm 0 ≤ Real.logb 10 v ∧ Real.logb 10 v ≤ hostEdge lo dm n) (hostVelocities halos virial))) ∧
        ∑ i ∈ Finset.range n, d.getD i 0 * dm = 1) := by
  set V := hostVelocities halos virial with hV
  have hne : V ≠ [] := List.ne_nil_of_mem hlo.1
  have hmap : (halos.filter (fun h => decide (h ≠ -1))).mapM (get virial) = .ok V := by
    refine mapM_pure _ ?_
    intro a ha
    obtain ⟨ha1, ha2⟩ := List.mem_filter.1 ha
    simp only [decide_eq_true_eq] at ha2
    obtain ⟨hp, hq⟩ := (hin a ha1).resolve_left ha2
    have hlt : a.toNat < virial.length := by omega
    refine get_eq (k := a.toNat) (index_nonneg hp (by omega)) ?_
    rw [List.getD_eq_getElem _ _ hlt, List.getElem?_eq_getElem hlt]
  have hloe : minOf V = .ok lo := by
    obtain ⟨m, h1, h2, h3⟩ := minOf_spec hne
    rw [h1, le_antisymm (h3 lo hlo.1) (hlo.2 m h2)]
  have hhie : maxOf V = .ok hi := by
    obtain ⟨m, h1, h2, h3⟩ := maxOf_spec hne
    rw [h1, le_antisymm (hhi.2 m h2) (h3 hi hhi.1)]
  have hmono := hostEdge_mono (lo := lo) hd.le
  set X := (V.filter (fun x => decide (0 < x))).map (Real.logb 10) with hX
  have hcount : ∀ P : ℝ → Prop, Spec.count P X = Spec.count (fun v => 0 < v ∧ P (Real.logb 10 v)) V := by
    intro P
    rw [hX]
    clear_value V
    clear hX hhie hloe hne hmap hlo hhi hV
    induction V with
    | nil => rfl
    | cons w ew ih =>
      rw [count_cons, ← ih, List.filter_cons]
      by_cases h0 : 0 < w
      · rw [if_pos (by simpa using h0), List.map_cons, count_cons]
        by_cases h1 : P (Real.logb 10 w)
        · rw [if_pos h1, if_pos ⟨h0, h1⟩]
        · rw [if_neg h1, if_neg (fun hc => h1 hc.2)]
      · rw [if_neg (by simpa using h0), if_neg (fun hc => h0 hc.1)]
        simp
  set H := (List.range n).map (fun i => (Spec.count (InEdges (hostEdge lo dm) n i) X : ℤ)) with hH
  have hrun : mass_hist dm halos virial = .ok ((List.range n).map (fun i => ((10 : ℝ) ^ hostEdge lo dm i + (10 : ℝ) ^ hostEdge lo dm (i + 1)) / 2),
      normalise H ((List.range n).map (fun i => hostEdge lo dm (i + 1) - hostEdge lo dm i))) := by
    unfold mass_hist
    simp only [hmap, hloe, hhie, bind, Except.bind]
    rw [if_neg h0.ne']
    unfold arange
    rw [if_neg hd.ne']
    simp only
    rw [show (fun i : ℕ => Real.logb 10 (lo + 0.1) + (i : ℝ) * dm) = hostEdge lo dm from rfl, ← hX, histogramOf_range _ hmono, zip_tail,
      List.map_map, zip_tail', ← hn]
    rfl
  have hsum : H.sum = ((∑ i ∈ Finset.range n, Spec.count (InEdges (hostEdge lo dm) n i) X : ℕ) : ℤ) := by
    rw [hH]; push_cast; rfl
  refine ⟨_, _, hrun, by simp, ?_, ?_, ?_⟩
  · intro i hi
    rw [List.getElem?_map, List.getElem?_range hi]
    rfl
  · intro h
    have : H = [] := by rw [hH, h]; rfl
    unfold normalise
    rw [if_pos this]
  · intro hn0 d hdd
    have hHne : H ≠ [] := by
      intro hc
      have := congrArg List.length hc
      rw [hH] at this
      simp at this
      omega
    unfold normalise at hdd
    rw [if_neg hHne, hsum] at hdd
    split_ifs at hdd with hz
    have hd' := (Option.some.inj hdd).symm
    have htot := histogram_total hn0 (fun i _ => hmono (Nat.le_succ i)) X
    rw [htot, hcount] at hd' hz
    have hw : ∀ i, hostEdge lo dm (i + 1) - hostEdge lo dm i = dm := by
      intro i; unfold hostEdge; push_cast; ring
    rw [hH, zip_maps] at hd'
    refine ⟨by rw [hd']; simp, ?_, ?_⟩
    · intro i hi
      rw [hd', List.getElem?_map, List.getElem?_range hi]
      simp only [Option.map_some, hw, hcount]
      push_cast
      rfl
    · have hget : ∀ i ∈ Finset.range n, d.getD i 0 * dm =
          (Spec.count (InEdges (hostEdge lo dm) n i) X : ℝ) /
            (Spec.count (fun v => 0 < v ∧ hostEdge lo dm 0 ≤ Real.logb 10 v ∧ Real.logb 10 v ≤ hostEdge lo dm n) V : ℝ) := by
        intro i hi
        rw [hd', List.getD_eq_getElem?_getD, List.getElem?_map, List.getElem?_range (Finset.mem_range.1 hi)]
        simp only [Option.map_some, hw, Option.getD_some]
        push_cast
        field_simp
      rw [Finset.sum_congr rfl hget, ← Finset.sum_div, ← Nat.cast_sum, htot, hcount]
      apply div_self
      exact_mod_cast hz

/-- The hosts with the smallest and the largest virial velocity are in no bin. -/
theorem mass_hist_misses {dm lo hi : ℝ} (hd : 0 < dm) (hl : 0 ≤ lo) (hlh : lo ≤ hi) {n : ℕ}
    (hn : n = ⌈(Real.logb 10 hi - Real.logb 10 (lo + 0.1)) / dm⌉₊ - 1) {i : ℕ} (hi' : i < n) :
    ¬(0 < lo ∧ InEdges (hostEdge lo dm) n i (Real.logb 10 lo)) ∧ ¬InEdges (hostEdge lo dm) n i (Real.logb 10 hi) := by
  have hc : 0 < ⌈(Real.logb 10 hi - Real.logb 10 (lo + 0.1)) / dm⌉₊ := by omega
  have hpos := Nat.ceil_pos.1 hc
  have hnlt : (n : ℝ) < (Real.logb 10 hi - Real.logb 10 (lo + 0.1)) / dm := Nat.lt_ceil.1 (by omega)
  have hlast : hostEdge lo dm n < Real.logb 10 hi := by
    unfold hostEdge
    rw [lt_div_iff₀ hd] at hnlt
    linarith
  constructor
  · rintro ⟨h0, h1, -⟩
    have h2 := hostEdge_mono (lo := lo) hd.le (Nat.zero_le i)
    have h3 : Real.logb 10 lo < Real.logb 10 (lo + 0.1) := Real.logb_lt_logb (by norm_num) h0 (by norm_num)
    have h4 : hostEdge lo dm 0 = Real.logb 10 (lo + 0.1) := by simp [hostEdge]
    linarith
  · have hm := hostEdge_mono (lo := lo) hd.le (show i + 1 ≤ n by omega)
    rintro ⟨-, h | ⟨-, h⟩⟩ <;> linarith

/-- If the virial velocities of all hosts are within 0.1 km/s, for instance with a single host, there are no bins. -/
theorem mass_hist_alike {dm : ℝ} (hd : 0 < dm) {halos : List ℤ} {virial : List ℝ} (hv : ∀ x ∈ virial, 0 ≤ x)
    (hin : ∀ h ∈ halos, h = -1 ∨ 0 ≤ h ∧ h < virial.length) {lo hi : ℝ}
    (hlo : lo ∈ hostVelocities halos virial ∧ ∀ v ∈ hostVelocities halos virial, lo ≤ v)
    (hhi : hi ∈ hostVelocities halos virial ∧ ∀ v ∈ hostVelocities halos virial, v ≤ hi) (h0 : 0 < hi) (h1 : hi ≤ lo + 0.1) :
    mass_hist dm halos virial = .ok ([], some []) := by
  have hle : Real.logb 10 hi ≤ Real.logb 10 (lo + 0.1) := Real.logb_le_logb_of_le (by norm_num) h0 h1
  have hn : (0 : ℕ) = ⌈(Real.logb 10 hi - Real.logb 10 (lo + 0.1)) / dm⌉₊ - 1 := by
    rw [Nat.ceil_eq_zero.2 (div_nonpos_of_nonpos_of_nonneg (by linarith) hd.le)]
  obtain ⟨m, p, hr, hm, -, hp, -⟩ := mass_hist_partial hd hv hin hlo hhi h0 hn
  rw [hr, hp rfl, List.length_eq_zero_iff.1 hm]

/-- Without a single host `mass_hist` raises. -/
theorem mass_hist_none {dm : ℝ} {halos : List ℤ} (virial : List ℝ) (h : ∀ x ∈ halos, x = -1) : mass_hist dm halos virial = .error .valueError := by
  have : halos.filter (fun h => decide (h ≠ -1)) = [] := by
    rw [List.filter_eq_nil_iff]
    intro a ha
    simp [h a ha]
  unfold mass_hist
  rw [this]
  rfl

example : ∀ h ∈ ([0, -1, 2] : List ℤ), h = -1 ∨ 0 ≤ h ∧ h < ([100, 50, 20] : List ℝ).length := by
  intro h hh
  simp at hh
  rcases hh with rfl | rfl | rfl <;> simp

example : hostVelocities [0, -1, 2] [100, 50, 20] = [100, 20] := by simp [hostVelocities]

/-- The number of groups per dex of stellar mass and per comoving Mpc³ for groups of mass `m` in solar masses over h, in a box of `L`
Mpc/h: those between `a` and `b` solar masses. -/
noncomputable def massFunction (L h : ℝ) (groups : List ℝ) (P : ℝ → Prop) (dex : ℝ) : ℝ :=
  (Spec.count (fun m => P (m / h)) groups : ℝ) / (L / h) ^ 3 / dex

theorem massEdge_mono : Monotone massEdge := by
  intro i j hij
  unfold massEdge
  apply Real.rpow_le_rpow_of_exponent_le (by norm_num)
  have : (i : ℝ) ≤ j := by exact_mod_cast hij
  linarith

/-- C90, partial: the stellar mass function is the number of groups in each of 49 bins between 10⁶ and 10¹² solar masses, per dex and
volume, for a box of 25 Mpc/h with `h = 0.7` and masses in 10¹⁰ solar masses over h. Missing: other boxes, for which the volume is not
that of the box (`gsmf_wrong_volume`). -/
theorem gsmf_partial (groups : List ℝ) : ∃ sm gsmf, get_stellar_mass_function groups = .ok (sm, gsmf) ∧ sm.length = 49 ∧ gsmf.length = 49 ∧
    ∀ i < 49, sm[i]? = some ((massEdge (i + 1) + massEdge i) / 2) ∧
      gsmf[i]? = some (massFunction 25 0.7 (groups.map (· * 1e10)) (InEdges massEdge 49 i) (6 / 49)) := by
  have hlog : Real.logb 10 (massEdge 1) - Real.logb 10 (massEdge 0) = 6 / 49 := by
    unfold massEdge
    rw [Real.logb_rpow (by norm_num) (by norm_num), Real.logb_rpow (by norm_num) (by norm_num)]
    norm_num
  refine ⟨(List.range 49).map (fun i => (massEdge (i + 1) + massEdge i) / 2),
    (List.range 49).map (fun i => massFunction 25 0.7 (groups.map (· * 1e10)) (InEdges massEdge 49 i) (6 / 49)), ?_, by simp, by simp, ?_⟩
  · unfold get_stellar_mass_function
    simp only
    rw [histogramOf_range 50 massEdge_mono, zip_tail, hlog]
    simp only [bind, Except.bind, pure, Except.pure, List.map_map]
    congr 2
    apply List.map_congr_left
    intro i _
    unfold massFunction
    simp only [Function.comp]
    have : (Spec.count (InEdges massEdge 49 i) (groups.map (fun m => m * 1e10 / 0.7))) =
        Spec.count (fun m => InEdges massEdge 49 i (m / 0.7)) (groups.map (· * 1e10)) := by
      unfold Spec.count
      rw [List.filter_map, List.filter_map, List.length_map, List.length_map]
      rfl
    rw [show (50 - 1 : ℕ) = 49 from rfl, this]
    push_cast
    rfl
  · intro i hi
    rw [List.getElem?_map, List.getElem?_map, List.getElem?_range hi]
    exact ⟨rfl, rfl⟩

/-- For a box of `L` Mpc/h the true number density in a bin is `(25 / L)³` times the one returned. -/
theorem gsmf_wrong_volume {L : ℝ} (hL : 0 < L) (groups : List ℝ) : ∃ sm gsmf, get_stellar_mass_function groups = .ok (sm, gsmf) ∧
    ∀ i < 49, ∃ g, gsmf[i]? = some g ∧
      massFunction L 0.7 (groups.map (· * 1e10)) (InEdges massEdge 49 i) (6 / 49) = (25 / L) ^ 3 * g := by
  obtain ⟨sm, g, h1, -, -, h2⟩ := gsmf_partial groups
  refine ⟨sm, g, h1, fun i hi => ⟨_, (h2 i hi).2, ?_⟩⟩
  unfold massFunction
  generalize (Spec.count _ _ : ℝ) = c
  field_simp

/-! Witnesses for the histogram of host velocities and the other theorems. -/

example (i : ℕ) := mass_hist_misses (dm := 0.1) (lo := 20) (hi := 100) (by norm_num) (by norm_num) (by norm_num) rfl (i := i)

theorem exHosts : hostVelocities [0, -1, 2] [100, 50, 20] = [100, 20] := by simp [hostVelocities]

example := mass_hist_partial (dm := 0.1) (by norm_num) (halos := [0, -1, 2]) (virial := [100, 50, 20]) (by simp) (by simp) (lo := 20) (hi := 100)
  (by rw [exHosts]; norm_num) (by rw [exHosts]; norm_num) (by norm_num) rfl

example := mass_hist_alike (dm := 0.1) (by norm_num) (halos := [2, -1, 2]) (virial := [100, 50, 20]) (by simp) (by simp) (lo := 20) (hi := 20)
  (by simp [hostVelocities]) (by simp [hostVelocities]) (by norm_num) (by norm_num)

example := gsmf_wrong_volume (L := 50) (by norm_num) [1, 3, 0.2]

example := find_nearby_partial (nbins := 3) (box := 10) (den := [[0, 3e20, 1], [1e21, 0, 2e21]]) (cofm := [⟨1, 0, 0⟩, ⟨5, 5, 5⟩]) (axis := [1, 3])
  (halos := [⟨1, ⟨1, 0, 0⟩⟩]) (subhalos := []) (by norm_num) (by norm_num) (by simp) (by simp; norm_num) (by simp) (by simp) (by simp) (by simp) (by simp)

end Verif.Props
