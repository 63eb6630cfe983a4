import Verif.Model.Plots
import Verif.Lemmas.Session
import Verif.Props.SpecTools
import Verif.Props.VoigtSystems
import Mathlib.Data.List.GetD

/-!
C89: what is drawn by the plots of single spectra, and that drawing does not change the data.
-/

namespace Verif.Props
open Verif Verif.Np Verif.Store Verif.Plots

/-- `p` is the first pixel with the largest value. -/
def FirstPeak (a : List ℝ) (p : ℕ) : Prop := p < a.length ∧ (∀ y ∈ a, y ≤ a.getD p 0) ∧ ∀ j < p, a.getD j 0 < a.getD p 0

/-- The value in a pixel of a periodic spectrum. -/
noncomputable def pixelAt (a : List ℝ) (p : ℤ) : ℝ := a.getD (p % (a.length : ℤ)).toNat 0

/-- What is drawn for an optical depth. -/
noncomputable def drawn (flux : Bool) (t : ℝ) : ℝ := if flux then Real.exp (-t) else t

theorem argmax_first {a : List ℝ} (h : a ≠ []) : ∃ p, argmax a = .ok p ∧ FirstPeak a p := by
  obtain ⟨k, m, h1, -, h3, h4, h5, h6⟩ := argmax_spec h
  have hm : a.getD k 0 = m := by rw [List.getD_eq_getElem?_getD, h4]; rfl
  refine ⟨k, h1, h3, ?_, ?_⟩
  · rw [hm]; exact h5
  · intro j hj
    rw [hm]
    have hl : j < a.length := by omega
    have hle : a.getD j 0 ≤ m := h5 _ (by rw [List.getD_eq_getElem _ _ hl]; exact List.getElem_mem hl)
    refine lt_of_le_of_ne hle (fun hc => h6 j hj ?_)
    rw [List.getElem?_eq_getElem hl, ← hc, List.getD_eq_getElem _ _ hl]

theorem roll_getD (a : List ℝ) (k : ℤ) {i : ℕ} (hi : i < a.length) : (roll a k).getD i 0 = pixelAt a ((i : ℤ) - k) := by
  rw [List.getD_eq_getElem?_getD, roll_get a k hi]; rfl

theorem trunc_zero : Construct.trunc 0 = 0 := by simp [Construct.trunc]

/-- The curve drawn by `plot_spectrum` for any offset. -/
theorem plot_spectrum_any {tau : List ℝ} (h : tau ≠ []) (dvbin : ℝ) (flux : Bool) (offset : ℝ) :
    ∃ peak curve, plot_spectrum dvbin tau flux offset = .ok (peak, curve) ∧ FirstPeak tau peak ∧ curve.length = tau.length ∧
      ∀ k : ℤ, -((tau.length / 2 : ℕ) : ℤ) ≤ k → k < (tau.length : ℤ) - ((tau.length / 2 : ℕ) : ℤ) →
        curve[(((tau.length / 2 : ℕ) : ℤ) + k).toNat]? =
          some ((k : ℝ) * dvbin, drawn flux (pixelAt tau ((peak : ℤ) + k - Construct.trunc (offset * dvbin)))) := by
  obtain ⟨p, hp, hf⟩ := argmax_first h
  refine ⟨p, _, by unfold plot_spectrum; rw [hp]; rfl, hf, by simp [roll_length], ?_⟩
  intro k h0 h1
  obtain ⟨i, hi⟩ : ∃ i : ℕ, (i : ℤ) = ((tau.length / 2 : ℕ) : ℤ) + k := ⟨_, Int.toNat_of_nonneg (by omega)⟩
  have hik : (((tau.length / 2 : ℕ) : ℤ) + k).toNat = i := by omega
  have hil : i < tau.length := by omega
  rw [hik, List.getElem?_zip_eq_some]
  refine ⟨?_, ?_⟩
  · rw [List.getElem?_map, List.getElem?_range hil]
    have : (i : ℝ) = ((tau.length / 2 : ℕ) : ℝ) + (k : ℝ) := by
      have := congrArg ((↑) : ℤ → ℝ) hi
      rw [Int.cast_add, Int.cast_natCast, Int.cast_natCast] at this
      exact this
    simp [this]
  · rw [List.getElem?_map, roll_get _ _ hil]
    have hn : (0 : ℤ) < tau.length := by omega
    have hm : ((i : ℤ) - (((tau.length / 2 : ℕ) : ℤ) - (p : ℤ) + Construct.trunc (offset * dvbin))) =
        (p : ℤ) + k - Construct.trunc (offset * dvbin) := by omega
    rw [hm]
    have h2 : (((p : ℤ) + k - Construct.trunc (offset * dvbin)) % (tau.length : ℤ)).toNat < tau.length := by
      have := Int.emod_nonneg ((p : ℤ) + k - Construct.trunc (offset * dvbin)) hn.ne'
      have := Int.emod_lt_of_pos ((p : ℤ) + k - Construct.trunc (offset * dvbin)) hn
      omega
    unfold pixelAt
    rw [List.getElem?_eq_getElem h2, List.getD_eq_getElem _ _ h2]
    rfl

/-- C89: `plot_spectrum` without an offset draws the whole spectrum once, with the pixel of the (first) largest optical depth at zero
velocity and all other pixels at their periodic distance from it. -/
theorem plot_spectrum_spec {tau : List ℝ} (h : tau ≠ []) (dvbin : ℝ) (flux : Bool) :
    ∃ peak curve, plot_spectrum dvbin tau flux 0 = .ok (peak, curve) ∧ FirstPeak tau peak ∧ curve.length = tau.length ∧
      ∀ k : ℤ, -((tau.length / 2 : ℕ) : ℤ) ≤ k → k < (tau.length : ℤ) - ((tau.length / 2 : ℕ) : ℤ) →
        curve[(((tau.length / 2 : ℕ) : ℤ) + k).toNat]? = some ((k : ℝ) * dvbin, drawn flux (pixelAt tau ((peak : ℤ) + k))) := by
  obtain ⟨p, c, h1, h2, h3, h4⟩ := plot_spectrum_any h dvbin flux 0
  refine ⟨p, c, h1, h2, h3, ?_⟩
  simpa [trunc_zero] using h4

example : ([0, 3, 1] : List ℝ) ≠ [] := by simp

/-- C89, partial: an offset of a whole number of pixels moves the curve by that many pixels if pixels are 1 km/s wide. Missing: other
widths, for which it does not (`plot_spectrum_offset_wrong`). -/
theorem plot_spectrum_offset_partial {tau : List ℝ} (h : tau ≠ []) (flux : Bool) (o : ℤ) :
    ∃ peak curve, plot_spectrum 1 tau flux (o : ℝ) = .ok (peak, curve) ∧ FirstPeak tau peak ∧ curve.length = tau.length ∧
      ∀ k : ℤ, -((tau.length / 2 : ℕ) : ℤ) ≤ k → k < (tau.length : ℤ) - ((tau.length / 2 : ℕ) : ℤ) →
        curve[(((tau.length / 2 : ℕ) : ℤ) + k).toNat]? = some ((k : ℝ), drawn flux (pixelAt tau ((peak : ℤ) + (k - o)))) := by
  obtain ⟨p, c, h1, h2, h3, h4⟩ := plot_spectrum_any h 1 flux o
  refine ⟨p, c, h1, h2, h3, ?_⟩
  intro k ha hb
  rw [h4 k ha hb]
  have : Construct.trunc ((o : ℝ) * 1) = o := by
    unfold Construct.trunc; simp
  rw [this, mul_one, add_sub_assoc]

/-- With pixels of 2 km/s and an offset of 2 km/s the peak of every long enough spectrum is drawn at 8 km/s. -/
theorem plot_spectrum_offset_wrong {tau : List ℝ} (h : 10 ≤ tau.length) (flux : Bool) :
    ∃ peak curve, plot_spectrum 2 tau flux 2 = .ok (peak, curve) ∧ FirstPeak tau peak ∧
      curve[tau.length / 2 + 4]? = some (8, drawn flux (tau.getD peak 0)) := by
  have hne : tau ≠ [] := by rintro rfl; simp at h
  obtain ⟨p, c, h1, h2, h3, h4⟩ := plot_spectrum_any hne 2 flux 2
  refine ⟨p, c, h1, h2, ?_⟩
  have h5 := h4 4 (by omega) (by omega)
  have ht : Construct.trunc ((2 : ℝ) * 2) = 4 := by
    unfold Construct.trunc
    rw [if_pos (by norm_num)]
    rw [Int.floor_eq_iff]; norm_num
  rw [ht] at h5
  have h6 : (((tau.length / 2 : ℕ) : ℤ) + 4).toNat = tau.length / 2 + 4 := by omega
  have h7 : pixelAt tau ((p : ℤ) + 4 - 4) = tau.getD p 0 := by
    unfold pixelAt
    have := h2.1
    rw [add_sub_cancel_right, Int.emod_eq_of_lt (by omega) (by omega)]; rfl
  rw [h6, h7] at h5
  rw [h5]; norm_num

/-- The curve and the limit of `plot_density` for any number of pixels. -/
theorem plot_density_any {den : List ℝ} (h : den ≠ []) (dvbin velfac thresh : ℝ) :
    ∃ peak curve lim, plot_density dvbin velfac den thresh = .ok (curve, lim) ∧ FirstPeak den peak ∧ curve.length = den.length ∧
      (∀ k : ℤ, -((den.length / 2 : ℕ) : ℤ) ≤ k → k < (den.length : ℤ) - ((den.length / 2 : ℕ) : ℤ) →
        curve[(((den.length / 2 : ℕ) : ℤ) + k).toNat]? =
          some (((k : ℝ) - ((den.length % 2 : ℕ) : ℝ) / 2) * (dvbin / velfac), pixelAt den ((peak : ℤ) + k) + 1e-30)) ∧
      (0 ≤ dvbin / velfac → ∀ p ∈ curve, thresh + 1e-30 < p.2 → |p.1| + 50 ≤ lim) := by
  obtain ⟨p, hp, hf⟩ := argmax_first h
  set R := roll den (((den.length / 2 : ℕ) : ℤ) - (p : ℤ)) with hR
  have hRl : R.length = den.length := roll_length _ _
  set phys := dvbin / velfac with hphys
  set curve : Curve := (List.range den.length).map (fun (i : ℕ) => ((i : ℝ) * phys - (den.length : ℝ) / 2 * phys, R.getD i 0 + 1e-30)) with hcurve
  set ind := (List.range den.length).filter (fun i => decide (thresh < R.getD i 0)) with hind
  have hrun : ∃ lim, plot_density dvbin velfac den thresh = .ok (curve, lim) ∧
      ∀ first last, ind.head? = some first → ind.getLast? = some last →
        lim = max |(first : ℝ) * phys - (den.length : ℝ) / 2 * phys - 50| |(last : ℝ) * phys - (den.length : ℝ) / 2 * phys + 50| := by
    unfold plot_density
    rw [hp]
    simp only [bind, Except.bind, pure, Except.pure]
    rw [← hR, hRl, ← hphys, ← hind, ← hcurve]
    rcases h1 : ind.head? with _ | f <;> rcases h2 : ind.getLast? with _ | l
    · exact ⟨_, rfl, by simp⟩
    · exact ⟨_, rfl, by simp⟩
    · exact ⟨_, rfl, by simp⟩
    · refine ⟨_, rfl, ?_⟩
      intro f' l' hf' hl'
      rw [← Option.some.inj hf', ← Option.some.inj hl']
  obtain ⟨lim, hrun, hlim⟩ := hrun
  refine ⟨p, curve, lim, hrun, hf, by simp [hcurve], ?_, ?_⟩
  · intro k h0 h1
    obtain ⟨i, hi⟩ : ∃ i : ℕ, (i : ℤ) = ((den.length / 2 : ℕ) : ℤ) + k := ⟨_, Int.toNat_of_nonneg (by omega)⟩
    have hik : (((den.length / 2 : ℕ) : ℤ) + k).toNat = i := by omega
    have hil : i < den.length := by omega
    rw [hik, hcurve, List.getElem?_map, List.getElem?_range hil]
    have hir : (i : ℝ) = ((den.length / 2 : ℕ) : ℝ) + (k : ℝ) := by
      have := congrArg ((↑) : ℤ → ℝ) hi
      rw [Int.cast_add, Int.cast_natCast, Int.cast_natCast] at this
      exact this
    have hn : (den.length : ℝ) = 2 * ((den.length / 2 : ℕ) : ℝ) + ((den.length % 2 : ℕ) : ℝ) := by
      exact_mod_cast (Nat.div_add_mod den.length 2).symm
    rw [Option.map_some, hR, roll_getD _ _ hil]
    congr 2
    · rw [hir]
      generalize ((den.length / 2 : ℕ) : ℝ) = a at *
      generalize ((den.length % 2 : ℕ) : ℝ) = b at *
      rw [hn]; ring
    · have : (i : ℤ) - (((den.length / 2 : ℕ) : ℤ) - (p : ℤ)) = (p : ℤ) + k := by omega
      rw [this]
  · intro hpos q hq hth
    rw [hcurve] at hq
    obtain ⟨i, hi, rfl⟩ := List.mem_map.1 hq
    dsimp only at hth ⊢
    have hi' : i < den.length := List.mem_range.1 hi
    have hmem : i ∈ ind := by
      rw [hind, List.mem_filter]
      exact ⟨hi, by simpa using (by linarith : thresh < R.getD i 0)⟩
    have hsort : ind.Pairwise (· < ·) := List.Pairwise.filter _ List.pairwise_lt_range
    have hne : ind ≠ [] := List.ne_nil_of_mem hmem
    rw [hlim _ _ (List.head?_eq_some_head hne) (List.getLast?_eq_some_getLast hne)]
    have hfirst : ind.head hne ≤ i := by
      obtain ⟨j, hj, hji⟩ := List.getElem_of_mem hmem
      rw [← hji, List.head_eq_getElem]
      rcases Nat.eq_zero_or_pos j with h0 | h0
      · subst h0; exact le_rfl
      · exact (List.pairwise_iff_getElem.1 hsort 0 j (by omega) hj h0).le
    have hlast : i ≤ ind.getLast hne := by
      obtain ⟨j, hj, hji⟩ := List.getElem_of_mem hmem
      rw [← hji, List.getLast_eq_getElem]
      by_cases h0 : j = ind.length - 1
      · subst h0; exact le_rfl
      · exact (List.pairwise_iff_getElem.1 hsort j (ind.length - 1) hj (by omega) (by omega)).le
    have hf1 : ((ind.head hne : ℕ) : ℝ) * phys ≤ (i : ℝ) * phys := mul_le_mul_of_nonneg_right (by exact_mod_cast hfirst) hpos
    have hl1 : (i : ℝ) * phys ≤ ((ind.getLast hne : ℕ) : ℝ) * phys := mul_le_mul_of_nonneg_right (by exact_mod_cast hlast) hpos
    have ha := (neg_abs_le (((ind.head hne : ℕ) : ℝ) * phys - (den.length : ℝ) / 2 * phys - 50))
    have hb := (le_abs_self (((ind.getLast hne : ℕ) : ℝ) * phys - (den.length : ℝ) / 2 * phys + 50))
    have hc := le_max_left |((ind.head hne : ℕ) : ℝ) * phys - (den.length : ℝ) / 2 * phys - 50| |((ind.getLast hne : ℕ) : ℝ) * phys - (den.length : ℝ) / 2 * phys + 50|
    have hd := le_max_right |((ind.head hne : ℕ) : ℝ) * phys - (den.length : ℝ) / 2 * phys - 50| |((ind.getLast hne : ℕ) : ℝ) * phys - (den.length : ℝ) / 2 * phys + 50|
    rcases abs_cases ((i : ℝ) * phys - (den.length : ℝ) / 2 * phys) with h' | h' <;> linarith [h'.1]

/-- C89, partial: for an even number of pixels `plot_density` draws the whole sightline once, centred on its densest pixel, and the
limits show every pixel above the threshold with 50 kpc/h to spare. Missing: odd numbers of pixels, for which the curve is half a pixel
off (`plot_density_odd`). -/
theorem plot_density_partial {den : List ℝ} (h : den ≠ []) (he : Even den.length) (dvbin velfac thresh : ℝ) :
    ∃ peak curve lim, plot_density dvbin velfac den thresh = .ok (curve, lim) ∧ FirstPeak den peak ∧ curve.length = den.length ∧
      (∀ k : ℤ, -((den.length / 2 : ℕ) : ℤ) ≤ k → k < (den.length : ℤ) - ((den.length / 2 : ℕ) : ℤ) →
        curve[(((den.length / 2 : ℕ) : ℤ) + k).toNat]? = some ((k : ℝ) * (dvbin / velfac), pixelAt den ((peak : ℤ) + k) + 1e-30)) ∧
      (0 ≤ dvbin / velfac → ∀ p ∈ curve, thresh + 1e-30 < p.2 → |p.1| + 50 ≤ lim) := by
  obtain ⟨p, c, l, h1, h2, h3, h4, h5⟩ := plot_density_any h dvbin velfac thresh
  refine ⟨p, c, l, h1, h2, h3, ?_, h5⟩
  rw [Nat.even_iff] at he
  rw [he] at h4
  simpa using h4

example : ([0, 3, 1, 1] : List ℝ) ≠ [] ∧ Even ([0, 3, 1, 1] : List ℝ).length := ⟨by simp, by decide⟩

/-- For an odd number of pixels the densest one is drawn half a pixel to the left of the centre. -/
theorem plot_density_odd {den : List ℝ} (ho : Odd den.length) (dvbin velfac thresh : ℝ) :
    ∃ peak curve lim, plot_density dvbin velfac den thresh = .ok (curve, lim) ∧ FirstPeak den peak ∧
      curve[den.length / 2]? = some (-(dvbin / velfac) / 2, den.getD peak 0 + 1e-30) := by
  have hne : den ≠ [] := by rintro rfl; simp at ho
  obtain ⟨p, c, l, h1, h2, h3, h4, h5⟩ := plot_density_any hne dvbin velfac thresh
  refine ⟨p, c, l, h1, h2, ?_⟩
  rw [Nat.odd_iff] at ho
  have h6 := h4 0 (by omega) (by omega)
  rw [ho] at h6
  have h7 : (((den.length / 2 : ℕ) : ℤ) + 0).toNat = den.length / 2 := by omega
  have h8 : pixelAt den ((p : ℤ) + 0) = den.getD p 0 := by
    unfold pixelAt
    have := h2.1
    rw [add_zero, Int.emod_eq_of_lt (by omega) (by omega)]; rfl
  rw [h7, h8] at h6
  rw [h6]
  norm_num
  ring

/-- What a cached query returns is what the dictionary holds afterwards. -/
theorem cached_entry {g : Grp} {k : Key} {force : Bool} {comp : St → Py Arr × St} {s s' : St} {r : ℕ}
    (h : cached g k force comp s = (.ok r, s')) : (s'.dicts g).lookup k = some r := by
  have hrec : ∀ s : St, (match comp s with
      | (.ok a, s1) => ((.ok s1.heap.length : Py ℕ), s1.store g k a)
      | (.error e, s1) => (.error e, s1)) = (.ok r, s') → (s'.dicts g).lookup k = some r := by
    intro s hs
    split at hs
    · rename_i a s1 _
      obtain ⟨h1, h2⟩ := Prod.mk.inj hs
      rw [← h2, ← Except.ok.inj h1]
      have := store_entry s1 g g k k a
      rw [if_pos ⟨rfl, rfl⟩] at this
      exact this
    · exact absurd (Prod.mk.inj hs).1 (by simp)
  unfold cached at h
  dsimp only at h
  split at h
  · exact hrec _ h
  · split at h
    · split at h
      · rename_i r' hr'
        obtain ⟨h1, h2⟩ := Prod.mk.inj h
        rw [← h2, ← Except.ok.inj h1]
        exact hr'
      · exact hrec _ h
    · exact hrec _ h
    · exact absurd (Prod.mk.inj h).1 (by simp)

/-- An array in memory is returned as it is. -/
theorem cached_loaded {g : Grp} {k : Key} {comp : St → Py Arr × St} {s : St} {r : ℕ} (h : (s.dicts g).lookup k = some r)
    (hl : 1 < (s.read r).length) : cached g k false comp s = (.ok r, s) := by
  have hre : reallyLoad g k s = (.ok (), s) := by
    unfold reallyLoad
    rw [h]
    dsimp only
    rw [if_pos hl]
  unfold cached
  simp only [Bool.false_eq_true, if_false]
  rw [hre]
  dsimp only
  rw [h]

theorem write_read {s : St} {r : ℕ} (a : Arr) (h : 0 < (s.read r).length) : (Session.write s r a).read r = a := by
  have hr : r < s.heap.length := by
    by_contra hc
    unfold St.read at h
    rw [List.getElem?_eq_none (by omega)] at h
    simp at h
  unfold Session.write St.read
  simp [hr]

theorem shiftVel_length (nbins : ℕ) (a : Arr) (row ax : ℕ) (d : ℝ) : (shiftVel nbins a row ax d).length = a.length := by
  simp [shiftVel]

/-- The velocities of the sightline are all moved by the same amount. -/
theorem velAt_shift {nbins : ℕ} {a : Arr} {row ax j : ℕ} (hax : ax < 3) (hj : j < nbins) (hl : (row + 1) * (nbins * 3) ≤ a.length) (d : ℝ) :
    velAt nbins (shiftVel nbins a row ax d) row ax j = velAt nbins a row ax j - d := by
  unfold velAt shiftVel
  have h1 : ((row * nbins + j) * 3 + ax) / 3 = row * nbins + j := by omega
  have h2 : ((row * nbins + j) * 3 + ax) % 3 = ax := by omega
  have h3 : (row * nbins + j) / nbins = row := by
    rw [mul_comm row, Nat.mul_add_div (by omega), Nat.div_eq_of_lt hj, add_zero]
  have h4 : (row * nbins + j) * 3 + ax < a.length := by nlinarith
  rw [List.getD_eq_getElem?_getD, List.getElem?_map, List.getElem?_range h4]
  simp only [Option.map_some, Option.getD_some]
  rw [if_pos ⟨by rw [h1, h3], h2⟩]

/-- Assigning two or more coordinates to fewer elements raises. -/
theorem coords_many {v : View} {ind : List ℕ} {imax : ℕ} (hm : imax ∈ ind) (h2 : 2 ≤ ind.length) : coords v ind imax = .error .valueError := by
  unfold coords
  set coord := ind.map (fun (i : ℕ) => ((i : ℝ) - (imax : ℝ)) * v.dvbin) with hc
  have hlen : coord.length = ind.length := by simp [hc]
  have hcount : coord.countP (fun c => decide ((v.nbins : ℝ) / 2 < c)) ≠ (coord.map (· - (v.nbins : ℝ))).length := by
    rw [List.length_map]
    intro hall
    rw [List.countP_eq_length] at hall
    have h0 : (0 : ℝ) ∈ coord := by
      rw [hc]; exact List.mem_map.2 ⟨imax, hm, by simp⟩
    have := hall 0 h0
    have hp : (0 : ℝ) ≤ (v.nbins : ℝ) / 2 := by positivity
    simp only [decide_eq_true_eq] at this
    linarith
  have : maskAssign (fun c => decide ((v.nbins : ℝ) / 2 < c)) coord (coord.map (· - (v.nbins : ℝ))) = .error .valueError := by
    unfold maskAssign
    split
    · rename_i x hx
      have := congrArg List.length hx
      rw [List.length_map, List.length_singleton] at this
      omega
    · rw [if_neg hcount]
  dsimp only
  rw [this]; rfl

theorem coords_one (v : View) (imax : ℕ) : coords v [imax] imax = .ok [0] := by
  unfold coords
  have hp : ¬ (v.nbins : ℝ) / 2 < 0 := by
    have : (0 : ℝ) ≤ (v.nbins : ℝ) / 2 := by positivity
    linarith
  have hq : ¬ (0 : ℝ) < -(v.nbins : ℝ) / 2 := by
    have : (0 : ℝ) ≤ (v.nbins : ℝ) / 2 := by positivity
    linarith
  simp [maskAssign, hp, hq, bind, Except.bind]

/-- The pixels of a row whose density is above a threshold. -/
noncomputable def pixelsAbove (thresh : ℝ) (den : List ℝ) : List ℕ := (List.range den.length).filter (fun i => decide (thresh < den.getD i 0))

/-- The object, and the row and the velocities used by `plot_den_to_tau`. -/
structure Sightline (v : View) (elem : String) (ion num : ℤ) (s : St) (den : List ℝ) (vel : Arr) (row axis : ℕ) : Prop where
  /-- the density along the sightline -/
  dens : ∃ all s1, get_density v.env elem ion false s = (.ok all, s1) ∧ Np.get (Session.rowsOf v.nbins all) num = .ok den ∧
    ∃ r s2, get_velocity v.env elem ion s1 = (.ok r, s2) ∧ s2.read r = vel
  nonempty : den ≠ []
  /-- the axis of the sightline -/
  along : Np.get v.axis num = .ok axis
  axis_range : 1 ≤ axis ∧ axis ≤ 3
  /-- the velocities have a row for the sightline -/
  here : index (vel.length / (v.nbins * 3)) num = .ok row

/-- The velocities after the plot. -/
theorem den_to_tau_any {v : View} {elem : String} {ion num : ℤ} {s : St} {den : List ℝ} {vel : Arr} {row axis : ℕ}
    (h : Sightline v elem ion num s den vel row axis) (thresh voff xscale : ℝ) :
    ∃ peak s3, FirstPeak den peak ∧
      plot_den_to_tau v elem ion num thresh voff xscale s =
        ((coords v (pixelsAbove thresh den) peak).map (fun coord => List.zipWith (fun cc ii => (cc / xscale,
          cc + velAt v.nbins (shiftVel v.nbins vel row (axis - 1) (velAt v.nbins vel row (axis - 1) peak - voff)) row (axis - 1) ii))
            coord (pixelsAbove thresh den)), s3) ∧
      (1 < vel.length → (Query.velocity elem ion).answer v.env s3 =
        .ok (shiftVel v.nbins vel row (axis - 1) (velAt v.nbins vel row (axis - 1) peak - voff))) := by
  obtain ⟨⟨all, s1, h1, h2, r, s2, h3, h4⟩, hne, hax, hr, hrow⟩ := h
  obtain ⟨p, hp, hf⟩ := argmax_first hne
  set a := shiftVel v.nbins vel row (axis - 1) (velAt v.nbins vel row (axis - 1) p - voff) with ha
  refine ⟨p, Session.write s2 r a, hf, ?_, ?_⟩
  · unfold plot_den_to_tau
    rw [h1]
    dsimp only
    rw [h2]
    dsimp only
    rw [hp]
    dsimp only
    rw [hax]
    dsimp only
    rw [h3]
    dsimp only
    rw [h4, hrow]
    dsimp only
    rw [← ha]
    rw [← pixelsAbove]
    rcases hc : coords v (pixelsAbove thresh den) p with e | c
    · rfl
    · rfl
  · intro hl
    have hread : (Session.write s2 r a).read r = a := write_read a (by rw [h4]; omega)
    have he : ((Session.write s2 r a).dicts .velocity).lookup ⟨elem, ion, none⟩ = some r := by
      have := cached_entry h3
      exact this
    have hq : get_velocity v.env elem ion (Session.write s2 r a) = (.ok r, Session.write s2 r a) :=
      cached_loaded he (by rw [hread, ha, shiftVel_length]; exact hl)
    change valueOf (get_velocity v.env elem ion (Session.write s2 r a)) = _
    rw [hq]
    change Except.ok ((Session.write s2 r a).read r) = _
    rw [hread]

theorem peak_above {thresh : ℝ} {den : List ℝ} {p : ℕ} (hf : FirstPeak den p) (h : pixelsAbove thresh den ≠ []) : p ∈ pixelsAbove thresh den := by
  obtain ⟨i, hi⟩ := List.exists_mem_of_ne_nil _ h
  unfold pixelsAbove at hi ⊢
  obtain ⟨h1, h2⟩ := List.mem_filter.1 hi
  refine List.mem_filter.2 ⟨List.mem_range.2 hf.1, ?_⟩
  have hl := List.mem_range.1 h1
  have := hf.2.1 (den.getD i 0) (by rw [List.getD_eq_getElem _ _ hl]; exact List.getElem_mem hl)
  simp only [decide_eq_true_eq] at h2 ⊢
  linarith

/-- C89, partial: if the densest pixel alone is above the threshold, one line is drawn, from the origin to `voff`. Missing: more pixels,
for which nothing is drawn (`den_to_tau_fails`). -/
theorem den_to_tau_partial {v : View} {elem : String} {ion num : ℤ} {s : St} {den : List ℝ} {vel : Arr} {row axis : ℕ}
    (h : Sightline v elem ion num s den vel row axis) {thresh : ℝ} (h1 : (pixelsAbove thresh den).length = 1) (voff xscale : ℝ)
    (hlen : den.length = v.nbins) : ∃ s3, plot_den_to_tau v elem ion num thresh voff xscale s = (.ok [(0, voff)], s3) := by
  obtain ⟨p, s3, hf, hrun, -⟩ := den_to_tau_any h thresh voff xscale
  have hne : pixelsAbove thresh den ≠ [] := by intro hc; rw [hc] at h1; simp at h1
  obtain ⟨x, hx⟩ := List.length_eq_one_iff.1 h1
  have hpx := peak_above hf hne
  rw [hx, List.mem_singleton] at hpx
  subst hpx
  have hp : p < v.nbins := by rw [← hlen]; exact hf.1
  have hl : (row + 1) * (v.nbins * 3) ≤ vel.length := by
    have := h.here
    have hr : row < vel.length / (v.nbins * 3) := by
      unfold index at this
      split at this
      · have := Except.ok.inj this; omega
      · split at this
        · have := Except.ok.inj this; omega
        · exact absurd this (by simp)
    exact le_trans (Nat.mul_le_mul_right _ hr) (Nat.div_mul_le_self _ _)
  refine ⟨s3, ?_⟩
  rw [hrun, hx, coords_one]
  have := velAt_shift (ax := axis - 1) (by have := h.axis_range; omega) hp hl (velAt v.nbins vel row (axis - 1) p - voff)
  simp only [Except.map, List.zipWith_cons_cons, List.zipWith_nil_left, this]
  simp

/-- With two or more pixels above the threshold `plot_den_to_tau` raises a `ValueError`. -/
theorem den_to_tau_fails {v : View} {elem : String} {ion num : ℤ} {s : St} {den : List ℝ} {vel : Arr} {row axis : ℕ}
    (h : Sightline v elem ion num s den vel row axis) {thresh : ℝ} (h2 : 2 ≤ (pixelsAbove thresh den).length) (voff xscale : ℝ) :
    (plot_den_to_tau v elem ion num thresh voff xscale s).1 = .error .valueError := by
  obtain ⟨p, s3, hf, hrun, -⟩ := den_to_tau_any h thresh voff xscale
  have hne : pixelsAbove thresh den ≠ [] := by intro hc; rw [hc] at h2; simp at h2
  rw [hrun, coords_many (peak_above hf hne) h2]
  rfl

/-- Drawing changes the data: after `plot_den_to_tau`, whether it raises or not, `get_velocity` returns velocities along the sightline
from which that of the densest pixel has been subtracted. -/
theorem den_to_tau_changes_velocity {v : View} {elem : String} {ion num : ℤ} {s : St} {den : List ℝ} {vel : Arr} {row axis : ℕ}
    (h : Sightline v elem ion num s den vel row axis) (thresh voff xscale : ℝ) (hlen : den.length = v.nbins) (hl : 1 < vel.length) :
    ∃ peak, FirstPeak den peak ∧ ∃ vel', (Query.velocity elem ion).answer v.env (plot_den_to_tau v elem ion num thresh voff xscale s).2 = .ok vel' ∧
      velAt v.nbins vel' row (axis - 1) peak = voff := by
  obtain ⟨p, s3, hf, hrun, hq⟩ := den_to_tau_any h thresh voff xscale
  refine ⟨p, hf, _, by rw [hrun]; exact hq hl, ?_⟩
  have hp : p < v.nbins := by rw [← hlen]; exact hf.1
  have hle : (row + 1) * (v.nbins * 3) ≤ vel.length := by
    have := h.here
    have hr : row < vel.length / (v.nbins * 3) := by
      unfold index at this
      split at this
      · have := Except.ok.inj this; omega
      · split at this
        · have := Except.ok.inj this; omega
        · exact absurd this (by simp)
    exact le_trans (Nat.mul_le_mul_right _ hr) (Nat.div_mul_le_self _ _)
  rw [velAt_shift (by have := h.axis_range; omega) hp hle]
  ring

/-- An object with one sightline of two pixels. -/
noncomputable def plotEnv : Env where
  compute _ _ _ _ := .ok [0, 1]
  lines _ _ := .ok []
  pick _ := []
  phys := 1
  weighted _ _ _ := .ok [1, 2, 3, 4, 5, 6]
  divide _ a _ := .ok a

theorem plotEnv_sightline : Sightline ⟨plotEnv, 2, 1, [1]⟩ "H" 1 0 (St.fresh none) [0, 1] [1, 2, 3, 4, 5, 6] 0 1 where
  dens := by
    refine ⟨_, _, rfl, ?_, _, _, rfl, rfl⟩
    change Np.get (Session.rowsOf 2 [0 / (1 : ℝ), 1 / 1]) 0 = _
    norm_num [Session.rowsOf, Np.get, index, List.range_succ, bind, Except.bind, pure, Except.pure]
  nonempty := by simp
  along := rfl
  axis_range := ⟨le_rfl, by norm_num⟩
  here := rfl

/-- Drawing is not free of side effects: the same query gives other values before and after. -/
theorem plot_changes_data : ∃ (v : View) (s : St) (a a' : Arr), (Query.velocity "H" 1).answer v.env s = .ok a ∧
    (Query.velocity "H" 1).answer v.env (plot_den_to_tau v "H" 1 0 0.5 0 1 s).2 = .ok a' ∧ a' ≠ a := by
  obtain ⟨p, hf, vel', h1, h2⟩ := den_to_tau_changes_velocity plotEnv_sightline 0.5 0 1 rfl (by norm_num)
  refine ⟨_, St.fresh none, [1, 2, 3, 4, 5, 6], vel', rfl, h1, ?_⟩
  rintro rfl
  obtain ⟨hp, -, -⟩ := hf
  have : p = 0 ∨ p = 1 := by simp at hp; omega
  rcases this with rfl | rfl <;> norm_num [velAt] at h2

example : (pixelsAbove 0.5 [0, 1]).length = 1 := by norm_num [pixelsAbove, List.range_succ]
example : 2 ≤ (pixelsAbove (-1) [0, 1]).length := by norm_num [pixelsAbove, List.range_succ]

example := plot_spectrum_offset_partial (tau := [0, 3, 1]) (by simp) true 2

example := plot_spectrum_offset_wrong (tau := [0, 3, 1, 0, 0, 0, 0, 0, 0, 0]) (by simp) true

example := plot_density_odd (den := [0, 3, 1]) (by decide) 2 0.1 1

end Verif.Props
