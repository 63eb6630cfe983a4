import Verif.Model.WeightMean
import Verif.Props.Additive
import Verif.Props.Deposit

/-!
C51: quantities averaged over the gas of a pixel.
-/

namespace Verif.Props.WeightMean
open Verif Verif.WeightMean Verif.ComputeSpectra Verif.PartInt Verif.IndexTable Verif.Absorption Verif.Props

/-! ### What the interpolator does with weights -/

theorem pixelSum_scale (off nbins : ℕ) (k : ℝ) (val : ℤ → ℝ) (zs : List ℤ) (m : ℕ) :
    pixelSum off nbins (fun z => k * val z) zs m = k * pixelSum off nbins val zs m := by
  unfold pixelSum
  rw [← List.sum_map_mul_left]
  congr 1
  apply List.map_congr_left
  intro z _
  split <;> simp

theorem coldenF_scale (L : LineAbsorption) (off nbins : ℕ) (dr2 k dens pos smooth : ℝ) (m : ℕ) :
    coldenF L off nbins dr2 (k * dens) pos smooth m = k * coldenF L off nbins dr2 dens pos smooth m := by
  unfold coldenF
  split
  · simp
  · split
    · simp
    · dsimp only
      rw [← pixelSum_scale]
      congr 1
      funext z
      ring

/-- The column density of a particle with another density. -/
theorem single_scale (t : Table) (lines : List Line) (L : LineAbsorption) (nbins : ℕ) (p q : Part) (k : ℝ) (hpos : q.pos = p.pos)
    (hh : q.h = p.h) (hd : q.dens = k * p.dens) (m : ℕ) :
    single t lines (coldenOn L nbins) q m = k * single t lines (coldenOn L nbins) p m := by
  unfold single
  rw [← List.sum_map_mul_left]
  congr 1
  apply List.map_congr_left
  intro i _
  rw [hpos, hh]
  cases lines[i]? with
  | none => simp
  | some l =>
    simp only [Option.elim_some]
    cases StdMap.find? (get_near_lines t p.pos p.h) i with
    | none => simp
    | some d =>
      simp only [Option.elim_some, coldenOn]
      rw [hpos, hh, hd, coldenF_scale]

/-- The particles are the same whether or not temperatures are needed. -/
theorem prep_both {c : Config} (hT : TempRead false c.sp) (r : Raw) :
    (prep c true r = none ∧ prep c false r = none) ∨ ∃ p q, prep c true r = some p ∧ prep c false r = some q ∧ p.pos = r.pos ∧
      q.pos = r.pos ∧ p.h = r.h ∧ q.h = r.h ∧ q.dens = p.dens ∧ p.temp = fixTemp r.temp ∧ p.vel = r.vel := by
  unfold prep
  cases hs : c.sp with
  | HI => exact Or.inr ⟨_, _, rfl, rfl, rfl, rfl, rfl, rfl, rfl, by simp [toPart], rfl⟩
  | all => exact Or.inr ⟨_, _, rfl, rfl, rfl, rfl, rfl, rfl, rfl, by simp [toPart], rfl⟩
  | ion table =>
    dsimp only
    split
    · exact Or.inr ⟨_, _, rfl, rfl, rfl, rfl, rfl, rfl, rfl, by simp [toPart], rfl⟩
    · exact Or.inl ⟨rfl, rfl⟩
  | Hion table =>
    rw [hs] at hT
    simp [TempRead] at hT

/-- The contribution of a particle to a weighted sum is its column density times its weight. -/
theorem weighted_contrib {c : Config} (hT : TempRead false c.sp) (phys : ℝ) {w : Part → ℝ} {W : Raw → ℝ} {r : Raw}
    (hw : ∀ p, prep c true r = some p → w p = W r) (m : ℕ) :
    (prep c true r).elim 0 (fun p => single (build c.lines c.box) c.lines (coldenOn c.L c.nbins)
      { p with dens := p.dens * w p / phys } m) = contrib c false r m * W r / phys := by
  unfold contrib
  rcases prep_both hT r with ⟨h1, h2⟩ | ⟨p, q, h1, h2, h3, h4, h5, h6, h7, _⟩
  · rw [h1, h2]
    simp
  · rw [h1, h2]
    simp only [Option.elim_some, Bool.false_eq_true, if_false]
    rw [single_scale _ _ _ _ q { p with dens := p.dens * w p / phys } (W r / phys) (by simp [h3, h4]) (by simp [h5, h6])
      (by dsimp only; rw [hw p h1, h7]; ring)]
    ring

theorem weighted_single_file_eq {c : Config} (hc : GoodConfig c) (hT : TempRead false c.sp) (phys : ℝ) {w : Part → ℝ}
    {W : Raw → ℝ} (seg : List Raw) (hw : ∀ r ∈ seg, ∀ p, prep c true r = some p → w p = W r) :
    weighted_single_file c phys w seg =
      .value (arrAdd (zeros c) (fun m => (seg.map (fun r => contrib c false r m * W r / phys)).sum)) := by
  classical
  have hT1 : TempRead true c.sp := by
    cases h : c.sp <;> simp [TempRead]
  obtain ⟨o, ho, h⟩ := read_particle_data_eq hc.axes true hT1 seg
  have hsum : ∀ m, (((seg.filter (fun r => decide (Near c r))).filterMap (prep c true)).map (fun p =>
      single (build c.lines c.box) c.lines (coldenOn c.L c.nbins) { p with dens := p.dens * w p / phys } m)).sum =
      (seg.map (fun r => contrib c false r m * W r / phys)).sum := by
    intro m
    rw [filterMap_sum]
    rw [← sum_filter_zero seg (Near c) (fun r => contrib c false r m * W r / phys)
      (fun r _ hr => by rw [contrib_of_far hr m]; simp)]
    congr 1
    apply List.map_congr_left
    intro r hr
    exact weighted_contrib hT phys (hw r (List.mem_filter.1 hr).1) m
  unfold weighted_single_file
  rw [ho]
  rcases h with ⟨rfl, h⟩ | ⟨rfl, -⟩
  · dsimp only
    have : (fun m => (seg.map (fun r => contrib c false r m * W r / phys)).sum) = fun _ => 0 := by
      funext m
      rw [← hsum m, h]; rfl
    rw [this, arrAdd_zero]
  · dsimp only
    rw [interpolate_eq hc]
    dsimp only
    congr 2
    funext m
    rw [← hsum m, List.map_map]
    simp only [Bool.false_eq_true, if_false]
    rfl

theorem addFiles_eq {c : Config} {func : List Raw → Outcome (List ℝ)} {F : Raw → ℕ → ℝ} (segs : List (List Raw))
    (hf : ∀ seg ∈ segs, func seg = .value (arrAdd (zeros c) (fun m => (seg.map (fun r => F r m)).sum)))
    (a : List ℝ) (ha : a.length = (zeros c).length) :
    addFiles func a segs = .value (arrAdd a (fun m => (segs.flatten.map (fun r => F r m)).sum)) := by
  induction segs generalizing a with
  | nil => simp [addFiles, arrAdd_zero]
  | cons seg segs ih =>
    unfold addFiles
    rw [hf seg (by simp)]
    dsimp only
    rw [addArr_arrAdd _ c ha, ih (fun s hs => hf s (by simp [hs])) _ (by simpa using ha), arrAdd_arrAdd]
    simp

theorem sumFiles_eq {c : Config} {func : List Raw → Outcome (List ℝ)} {F : Raw → ℕ → ℝ} (segs : List (List Raw)) (hne : segs ≠ [])
    (hf : ∀ seg ∈ segs, func seg = .value (arrAdd (zeros c) (fun m => (seg.map (fun r => F r m)).sum))) :
    sumFiles func segs = .value (arrAdd (zeros c) (fun m => (segs.flatten.map (fun r => F r m)).sum)) := by
  cases segs with
  | nil => exact absurd rfl hne
  | cons seg segs =>
    rw [sumFiles]
    rw [hf seg (by simp)]
    dsimp only
    rw [addFiles_eq segs (fun s hs => hf s (by simp [hs])) _ (by simp), arrAdd_arrAdd]
    simp

theorem divide_get (c : Config) (f g : ℕ → ℝ) (phys : ℝ) {m : ℕ} (hm : m < c.lines.length * c.nbins) :
    (divide (arrAdd (zeros c) f) ((arrAdd (zeros c) g).map (fun x => x / phys)))[m]? =
      some (f m / (if g m / phys = 0 then 1 else g m / phys)) := by
  unfold divide
  have hz : (zeros c)[m]? = some 0 := by
    unfold zeros
    rw [List.getElem?_replicate, if_pos hm]
  rw [List.getElem?_zipWith, List.getElem?_map, arrAdd_getElem?, arrAdd_getElem?, hz]
  simp

theorem divide_length (c : Config) (f g : ℕ → ℝ) (phys : ℝ) :
    (divide (arrAdd (zeros c) f) ((arrAdd (zeros c) g).map (fun x => x / phys))).length = c.lines.length * c.nbins := by
  unfold divide
  simp [zeros]

/-! ### Averages -/

/-- The average of values with weights, 0 if nothing has weight. -/
noncomputable def average (l : List (ℝ × ℝ)) : ℝ :=
  if (l.map Prod.fst).sum = 0 then 0 else (l.map (fun wx => wx.1 * wx.2)).sum / (l.map Prod.fst).sum

/-- With non-negative weights an average of something lies between the smallest and the largest value. -/
theorem average_between {l : List (ℝ × ℝ)} (hw : ∀ wx ∈ l, 0 ≤ wx.1) (hs : (l.map Prod.fst).sum ≠ 0) {lo hi : ℝ}
    (hx : ∀ wx ∈ l, lo ≤ wx.2 ∧ wx.2 ≤ hi) : lo ≤ average l ∧ average l ≤ hi := by
  have hpos : 0 < (l.map Prod.fst).sum := lt_of_le_of_ne (List.sum_nonneg (by
    intro x hx'
    obtain ⟨wx, h1, rfl⟩ := List.mem_map.1 hx'
    exact hw wx h1)) (Ne.symm hs)
  have hb : lo * (l.map Prod.fst).sum ≤ (l.map (fun wx => wx.1 * wx.2)).sum ∧
      (l.map (fun wx => wx.1 * wx.2)).sum ≤ hi * (l.map Prod.fst).sum := by
    clear hs hpos
    induction l with
    | nil => simp
    | cons a l ih =>
      obtain ⟨i1, i2⟩ := ih (fun wx h => hw wx (by simp [h])) (fun wx h => hx wx (by simp [h]))
      obtain ⟨x1, x2⟩ := hx a (by simp)
      have ha := hw a (by simp)
      simp only [List.map_cons, List.sum_cons]
      constructor <;> nlinarith
  unfold average
  rw [if_neg hs, le_div_iff₀ hpos, div_le_iff₀ hpos]
  exact hb

/-- Gas with a density and a size. -/
structure Physical (c : Config) (r : Raw) : Prop where
  h : 0 < r.h
  den : 0 ≤ r.den
  massFrac : 0 ≤ r.massFrac
  nHI : 0 ≤ r.nHI

/-- Units and ionisation fractions are not negative. -/
structure PhysicalConfig (c : Config) : Prop where
  rscale : 0 ≤ c.rscale
  amumass : 0 ≤ c.amumass
  table : ∀ table, c.sp = .ion table ∨ c.sp = .Hion table → ∀ d t, 0 ≤ table d t

theorem coldenF_nonneg (L : LineAbsorption) (off nbins : ℕ) {dr2 dens pos h : ℝ} (hd : 0 ≤ dens) (hh : 0 ≤ h) (m : ℕ) :
    0 ≤ coldenF L off nbins dr2 dens pos h m := by
  unfold coldenF
  split_ifs
  · exact le_rfl
  · exact le_rfl
  · exact pixelSum_nonneg (fun z _ => mul_nonneg hd (kern_frac_nonneg _ hh _ _ _ _)) m
  · exact pixelSum_nonneg (fun z _ => mul_nonneg hd (kern_frac_nonneg _ hh _ _ _ _)) m

theorem contrib_nonneg {c : Config} (hpc : PhysicalConfig c) {r : Raw} (hr : Physical c r) (m : ℕ) : 0 ≤ contrib c false r m := by
  have he : 0 ≤ elemDen c r := mul_nonneg (mul_nonneg hr.den hpc.rscale) hr.massFrac
  unfold contrib
  cases hp : prep c false r with
  | none => simp
  | some p =>
    have hd : 0 ≤ p.dens ∧ p.h = r.h := by
      refine ⟨?_, (prep_pos hp).2⟩
      unfold prep at hp
      split at hp
      · cases hp
        exact div_nonneg (mul_nonneg he hr.nHI) hpc.amumass
      · cases hp
        exact div_nonneg he hpc.amumass
      · rename_i table hs
        split at hp
        · cases hp
          exact div_nonneg (mul_nonneg he (hpc.table table (Or.inl hs) _ _)) hpc.amumass
        · cases hp
      · rename_i table hs
        split at hp
        · cases hp
          exact div_nonneg (mul_nonneg he (hpc.table table (Or.inr hs) _ _)) hpc.amumass
        · cases hp
    simp only [Option.elim_some, Bool.false_eq_true, if_false]
    unfold single
    apply List.sum_nonneg
    intro x hx
    obtain ⟨i, _, rfl⟩ := List.mem_map.1 hx
    cases c.lines[i]? with
    | none => simp
    | some l =>
      simp only [Option.elim_some]
      cases StdMap.find? (get_near_lines (build c.lines c.box) p.pos p.h) i with
      | none => simp
      | some d =>
        simp only [Option.elim_some, coldenOn]
        exact coldenF_nonneg _ _ _ hd.1 (by rw [hd.2]; exact hr.h.le) m

/-- The column density of one particle in each pixel: what the query gives for a snapshot made of this particle. -/
def IsColumn (c : Config) (col : Raw → List ℝ) : Prop := ∀ r, compute_spectra c false [[r]] = .value (col r)

theorem column_unique {c : Config} (hc : GoodConfig c) (hT : TempRead false c.sp) {col : Raw → List ℝ} (hcol : IsColumn c col)
    (r : Raw) {m : ℕ} (hm : m < c.lines.length * c.nbins) : (col r).getD m 0 = contrib c false r m := by
  have h1 := hcol r
  rw [compute_spectra_eq hc false hT _ (by simp)] at h1
  injection h1 with h1
  rw [← h1, List.getD, arrAdd_getElem?]
  have hz : (zeros c)[m]? = some 0 := by
    unfold zeros
    rw [List.getElem?_replicate, if_pos hm]
  rw [hz]
  simp

theorem column_exists {c : Config} (hc : GoodConfig c) (hT : TempRead false c.sp) : ∃ col, IsColumn c col :=
  ⟨_, fun r => compute_spectra_eq hc false hT _ (by simp)⟩

/-- The weighted sum of some particles over the summed weights of all, 0 if nothing has weight. -/
noncomputable def share (own all : List (ℝ × ℝ)) : ℝ :=
  if (all.map Prod.fst).sum = 0 then 0 else (own.map (fun wx => wx.1 * wx.2)).sum / (all.map Prod.fst).sum

theorem share_self (l : List (ℝ × ℝ)) : share l l = average l := rfl

theorem sum_zero_of_nonneg {l : List ℝ} (h : ∀ x ∈ l, 0 ≤ x) (hs : l.sum = 0) : ∀ x ∈ l, x = 0 := by
  induction l with
  | nil => simp
  | cons a l ih =>
    have h1 := h a (by simp)
    have h2 := List.sum_nonneg (fun x hx => h x (by simp [hx]) : ∀ x ∈ l, 0 ≤ x)
    rw [List.sum_cons] at hs
    intro x hx
    rw [List.mem_cons] at hx
    rcases hx with rfl | hx
    · linarith
    · exact ih (fun x hx => h x (by simp [hx])) (by linarith) x hx

/-- What every rank reports for any quantity: its own part of the weighted sum over the weights of all ranks. -/
theorem quotient_eq {c : Config} (hc : GoodConfig c) (hT : TempRead false c.sp) (hpc : PhysicalConfig c) {phys : ℝ}
    (hphys : 0 < phys) {col : Raw → List ℝ} (hcol : IsColumn c col) (W : Raw → ℝ) {own all : List Raw} (hsub : ∀ r ∈ own, r ∈ all)
    (hphy : ∀ r ∈ all, Physical c r) {m : ℕ} (hm : m < c.lines.length * c.nbins) :
    (own.map (fun r => contrib c false r m * W r / phys)).sum /
        (if (all.map (fun r => contrib c false r m)).sum / phys = 0 then 1 else (all.map (fun r => contrib c false r m)).sum / phys) =
      share (own.map (fun r => ((col r).getD m 0, W r))) (all.map (fun r => ((col r).getD m 0, W r))) := by
  unfold share
  simp only [List.map_map]
  have e1 : all.map (Prod.fst ∘ fun r => ((col r).getD m 0, W r)) = all.map (fun r => contrib c false r m) := by
    apply List.map_congr_left
    intro r _
    exact column_unique hc hT hcol r hm
  have e2 : own.map ((fun wx : ℝ × ℝ => wx.1 * wx.2) ∘ fun r => ((col r).getD m 0, W r)) =
      own.map (fun r => contrib c false r m * W r) := by
    apply List.map_congr_left
    intro r _
    simp only [Function.comp]
    rw [column_unique hc hT hcol r hm]
  rw [e1, e2]
  have e3 : (own.map (fun r => contrib c false r m * W r / phys)).sum = (own.map (fun r => contrib c false r m * W r)).sum / phys := by
    simp only [div_eq_mul_inv]
    rw [List.sum_map_mul_right]
  rw [e3]
  by_cases hz : (all.map (fun r => contrib c false r m)).sum = 0
  · rw [if_pos hz, if_pos (by rw [hz, zero_div])]
    have hall : ∀ x ∈ all.map (fun r => contrib c false r m), x = 0 := sum_zero_of_nonneg (by
      intro x hx
      obtain ⟨r, hr, rfl⟩ := List.mem_map.1 hx
      exact contrib_nonneg hpc (hphy r hr) m) hz
    have : (own.map (fun r => contrib c false r m * W r)).sum = 0 := by
      apply List.sum_eq_zero
      intro x hx
      obtain ⟨r, hr, rfl⟩ := List.mem_map.1 hx
      rw [hall _ (List.mem_map.2 ⟨r, hsub r hr, rfl⟩)]
      simp
    rw [this]
    simp
  · rw [if_neg hz, if_neg (by
      rw [div_eq_zero_iff]
      push Not
      exact ⟨hz, hphys.ne'⟩)]
    field_simp

theorem mass_weight_eq {c : Config} (hc : GoodConfig c) (hT : TempRead false c.sp) (hpc : PhysicalConfig c) {phys : ℝ}
    (hphys : 0 < phys) {col : Raw → List ℝ} (hcol : IsColumn c col) {W : Raw → ℝ} {func : List Raw → Outcome (List ℝ)}
    {own : List (List Raw)} (hne : own ≠ []) {ranks : List (List (List Raw))} (hown : own ∈ ranks) (hranks : ∀ r ∈ ranks, r ≠ [])
    (hphy : ∀ r ∈ ranks.flatten.flatten, Physical c r)
    (hf : ∀ seg ∈ own, func seg = .value (arrAdd (zeros c) (fun m => (seg.map (fun r => contrib c false r m * W r / phys)).sum))) :
    ∃ T, mass_weight .hdf5 c phys func own ranks = .value T ∧ T.length = c.lines.length * c.nbins ∧
      ∀ m < c.lines.length * c.nbins, T[m]? = some (share (own.flatten.map (fun r => ((col r).getD m 0, W r)))
        (ranks.flatten.flatten.map (fun r => ((col r).getD m 0, W r)))) := by
  refine ⟨_, ?_, divide_length c (fun m => (own.flatten.map (fun r => contrib c false r m * W r / phys)).sum)
    (fun m => (ranks.flatten.flatten.map (fun r => contrib c false r m)).sum) phys, ?_⟩
  · unfold mass_weight countSegments
    dsimp only
    rw [sumFiles_eq own hne hf, compute_spectra_mpi_eq hc false hT ranks hranks]
  · intro m hm
    rw [divide_get c _ _ phys hm]
    congr 1
    refine quotient_eq hc hT hpc hphys hcol W (fun r hr => ?_) hphy hm
    rw [List.mem_flatten] at hr ⊢
    obtain ⟨seg, h1, h2⟩ := hr
    exact ⟨seg, List.mem_flatten.2 ⟨own, hown, h1⟩, h2⟩

/-- C51, temperature. On one process the temperature in a pixel is the average of the particle temperatures (those not positive
count as 1 K), weighted with the column density each particle puts into the pixel, and 0 where there is no gas. -/
theorem temp_is_average_partial {c : Config} (hc : GoodConfig c) (hT : TempRead false c.sp) (hpc : PhysicalConfig c) {phys : ℝ}
    (hphys : 0 < phys) {col : Raw → List ℝ} (hcol : IsColumn c col) {segs : List (List Raw)} (hne : segs ≠ [])
    (hphy : ∀ r ∈ segs.flatten, Physical c r) :
    ∃ T, get_temp .hdf5 c phys segs [segs] = .value T ∧ T.length = c.lines.length * c.nbins ∧
      ∀ m < c.lines.length * c.nbins, T[m]? = some (average (segs.flatten.map (fun r =>
        ((col r).getD m 0, if r.temp ≤ 0 then 1 else r.temp)))) := by
  obtain ⟨T, h1, h2, h3⟩ := mass_weight_eq hc hT hpc hphys hcol (W := fun r => fixTemp r.temp)
    (func := weighted_single_file c phys (fun p => p.temp)) hne (ranks := [segs]) (by simp) (by simpa using hne)
    (by simpa using hphy) (fun seg _ => weighted_single_file_eq hc hT phys seg (by
      intro r _ p hp
      rcases prep_both hT r with ⟨h, _⟩ | ⟨p', q, h, _, _, _, _, _, _, h8, _⟩
      · rw [h] at hp
        cases hp
      · rw [h] at hp
        cases hp
        exact h8))
  refine ⟨T, h1, h2, ?_⟩
  intro m hm
  rw [h3 m hm]
  simp [share_self, fixTemp]

/-- C51. It lies between the lowest and the highest particle temperature wherever there is gas. -/
theorem temp_between {c : Config} (hc : GoodConfig c) (hT : TempRead false c.sp) (hpc : PhysicalConfig c) {phys : ℝ}
    (hphys : 0 < phys) {col : Raw → List ℝ} (hcol : IsColumn c col) {segs : List (List Raw)} (hne : segs ≠ [])
    (hphy : ∀ r ∈ segs.flatten, Physical c r) {lo hi : ℝ} (hlo : ∀ r ∈ segs.flatten, lo ≤ (if r.temp ≤ 0 then 1 else r.temp) ∧ (if r.temp ≤ 0 then 1 else r.temp) ≤ hi)
    {m : ℕ} (hm : m < c.lines.length * c.nbins) (hgas : (segs.flatten.map (fun r => (col r).getD m 0)).sum ≠ 0) :
    ∃ T t, get_temp .hdf5 c phys segs [segs] = .value T ∧ T[m]? = some t ∧ lo ≤ t ∧ t ≤ hi := by
  obtain ⟨T, h1, _, h3⟩ := temp_is_average_partial hc hT hpc hphys hcol hne hphy
  have hb := average_between (l := segs.flatten.map (fun r => ((col r).getD m 0, fixTemp r.temp))) (lo := lo) (hi := hi) (by
      intro wx hwx
      obtain ⟨r, hr, rfl⟩ := List.mem_map.1 hwx
      dsimp only
      rw [column_unique hc hT hcol r hm]
      exact contrib_nonneg hpc (hphy r hr) m) (by
      rw [List.map_map]
      exact hgas) (by
      intro wx hwx
      obtain ⟨r, hr, rfl⟩ := List.mem_map.1 hwx
      exact hlo r hr)
  exact ⟨T, _, h1, h3 m hm, hb.1, hb.2⟩

/-- C51 is false with several processes: each reports only its own part of the sum, divided by the gas of all. -/
theorem temp_ranks {c : Config} (hc : GoodConfig c) (hT : TempRead false c.sp) (hpc : PhysicalConfig c) {phys : ℝ}
    (hphys : 0 < phys) {col : Raw → List ℝ} (hcol : IsColumn c col) {ranks : List (List (List Raw))} (hranks : ∀ r ∈ ranks, r ≠ [])
    (hphy : ∀ r ∈ ranks.flatten.flatten, Physical c r) {own : List (List Raw)} (hown : own ∈ ranks) :
    ∃ T, get_temp .hdf5 c phys own ranks = .value T ∧ T.length = c.lines.length * c.nbins ∧
      ∀ m < c.lines.length * c.nbins, T[m]? = some (share
        (own.flatten.map (fun r => ((col r).getD m 0, if r.temp ≤ 0 then 1 else r.temp)))
        (ranks.flatten.flatten.map (fun r => ((col r).getD m 0, if r.temp ≤ 0 then 1 else r.temp)))) :=
  mass_weight_eq hc hT hpc hphys hcol (W := fun r => fixTemp r.temp)
    (func := weighted_single_file c phys (fun p => p.temp)) (hranks own hown) (ranks := ranks) hown hranks
    hphy (fun seg _ => weighted_single_file_eq hc hT phys seg (by
      intro r _ p hp
      rcases prep_both hT r with ⟨h, _⟩ | ⟨p', q, h, _, _, _, _, _, _, h8, _⟩
      · rw [h] at hp
        cases hp
      · rw [h] at hp
        cases hp
        exact h8))

/-- Two processes reading the same amount of the same gas: each reports half the temperature. -/
theorem temp_two_ranks {c : Config} (hc : GoodConfig c) (hT : TempRead false c.sp) (hpc : PhysicalConfig c) {phys : ℝ}
    (hphys : 0 < phys) {segs : List (List Raw)} (hne : segs ≠ []) (hphy : ∀ r ∈ segs.flatten, Physical c r) :
    ∃ T T2, get_temp .hdf5 c phys segs [segs] = .value T ∧ get_temp .hdf5 c phys segs [segs, segs] = .value T2 ∧
      T2 = T.map (fun t => t / 2) := by
  obtain ⟨col, hcol⟩ := column_exists hc hT
  obtain ⟨T, a1, a2, a3⟩ := temp_is_average_partial hc hT hpc hphys hcol hne hphy
  obtain ⟨T2, b1, b2, b3⟩ := temp_ranks hc hT hpc hphys hcol (ranks := [segs, segs]) (by simpa using hne) (by
    simp only [List.flatten_cons, List.flatten_nil, List.append_nil, List.flatten_append, List.mem_append]
    rintro r (h | h) <;> exact hphy r h) (own := segs) (by simp)
  refine ⟨T, T2, a1, b1, ?_⟩
  apply List.ext_getElem?
  intro m
  by_cases hm : m < c.lines.length * c.nbins
  · rw [List.getElem?_map, a3 m hm, b3 m hm]
    simp only [List.flatten_cons, List.flatten_nil, List.append_nil, List.flatten_append, List.map_append, Option.map_some]
    congr 1
    unfold share average
    rw [List.map_append, List.sum_append]
    set s := ((segs.flatten.map (fun r => ((col r).getD m 0, if r.temp ≤ 0 then 1 else r.temp))).map Prod.fst).sum
    by_cases hs : s = 0
    · rw [if_pos (by rw [hs, add_zero]), if_pos hs, zero_div]
    · rw [if_neg (by intro h; apply hs; linarith), if_neg hs]
      have : s + s ≠ 0 := by intro h; apply hs; linarith
      field_simp
      ring
  · rw [List.getElem?_eq_none (by omega), List.getElem?_eq_none (by simp; omega)]

/-- C51 is false of snapshots in the BigFile format: no such quantity can be computed. -/
theorem bigfile_fails (c : Config) (phys : ℝ) (func : List Raw → Outcome (List ℝ)) (own : List (List Raw))
    (ranks : List (List (List Raw))) : mass_weight .bigfile c phys func own ranks = .raised .typeError := rfl

/-! ### Velocity -/

theorem average_scale (k : ℝ) {α : Type} (l : List α) (w x : α → ℝ) :
    average (l.map (fun a => (w a, k * x a))) = k * average (l.map (fun a => (w a, x a))) := by
  unfold average
  simp only [List.map_map]
  have e1 : l.map (Prod.fst ∘ fun a => (w a, k * x a)) = l.map (Prod.fst ∘ fun a => (w a, x a)) := rfl
  rw [e1]
  split
  · simp
  · have e2 : (l.map ((fun wx : ℝ × ℝ => wx.1 * wx.2) ∘ fun a => (w a, k * x a))).sum =
        k * (l.map ((fun wx : ℝ × ℝ => wx.1 * wx.2) ∘ fun a => (w a, x a))).sum := by
      rw [← List.sum_map_mul_left]
      congr 1
      apply List.map_congr_left
      intro a _
      simp only [Function.comp]
      ring
    rw [e2, mul_div_assoc]

theorem velocity_sum_eq {c : Config} (hc : GoodConfig c) (hT : TempRead false c.sp) (phys atime : ℝ) (ax : Fin 3)
    {own : List (List Raw)} (hne : own ≠ []) :
    velocity_sum .hdf5 c phys atime ax own = .value (arrAdd (zeros c) (fun m =>
      (own.flatten.map (fun r => contrib c false r m * (r.vel ax * Real.sqrt atime) / phys)).sum)) := by
  unfold velocity_sum countSegments
  dsimp only
  refine sumFiles_eq own hne (fun seg _ => weighted_single_file_eq hc hT phys (W := fun r => r.vel ax * Real.sqrt atime) seg ?_)
  intro r _ p hp
  rcases prep_both hT r with ⟨h, _⟩ | ⟨p', q, h, _, _, _, _, _, _, _, h9⟩
  · rw [h] at hp
    cases hp
  · rw [h] at hp
    cases hp
    rw [h9]

theorem velocity_get {c : Config} (hc : GoodConfig c) (hT : TempRead false c.sp) (phys atime : ℝ) {own : List (List Raw)}
    (hne : own ≠ []) {ranks : List (List (List Raw))} (hranks : ∀ r ∈ ranks, r ≠ []) :
    ∃ v, get_velocity .hdf5 c phys atime own ranks = .value v ∧ ∀ i < c.lines.length, ∀ j < c.nbins, ∀ ax : Fin 3,
      velocityDen c.lines.length c.nbins i j ax < c.lines.length * c.nbins →
      v i j ax = some ((own.flatten.map (fun r => contrib c false r (i * c.nbins + j) * (r.vel ax * Real.sqrt atime) / phys)).sum /
        (if (ranks.flatten.flatten.map (fun r => contrib c false r (velocityDen c.lines.length c.nbins i j ax))).sum / phys = 0 then 1
          else (ranks.flatten.flatten.map (fun r => contrib c false r (velocityDen c.lines.length c.nbins i j ax))).sum / phys)) := by
  unfold get_velocity
  rw [velocity_sum_eq hc hT phys atime 0 hne, velocity_sum_eq hc hT phys atime 1 hne, velocity_sum_eq hc hT phys atime 2 hne,
    compute_spectra_mpi_eq hc false hT ranks hranks]
  refine ⟨_, rfl, ?_⟩
  intro i hi j hj ax hd
  have hm : i * c.nbins + j < c.lines.length * c.nbins := by
    have := slice_le (nbins := c.nbins) hi
    omega
  have hz : ∀ m < c.lines.length * c.nbins, (zeros c)[m]? = some 0 := by
    intro m hm
    unfold zeros
    rw [List.getElem?_replicate, if_pos hm]
  have hr : (![arrAdd (zeros c) (fun m => (own.flatten.map (fun r => contrib c false r m * (r.vel 0 * Real.sqrt atime) / phys)).sum),
      arrAdd (zeros c) (fun m => (own.flatten.map (fun r => contrib c false r m * (r.vel 1 * Real.sqrt atime) / phys)).sum),
      arrAdd (zeros c) (fun m => (own.flatten.map (fun r => contrib c false r m * (r.vel 2 * Real.sqrt atime) / phys)).sum)] ax)[i * c.nbins + j]? =
      some ((own.flatten.map (fun r => contrib c false r (i * c.nbins + j) * (r.vel ax * Real.sqrt atime) / phys)).sum) := by
    fin_cases ax <;> simp [arrAdd_getElem?, hz _ hm]
  rw [hr]
  rw [List.getElem?_map, arrAdd_getElem?, hz _ hd]
  simp

/-- Velocities are divided pixel by pixel unless the arrays happen to have three pixels and one or three sightlines. -/
theorem velocityDen_ok {numLos nbins : ℕ} (h : ¬ (nbins = 3 ∧ (numLos = 1 ∨ numLos = 3))) {i j : ℕ} (hi : i < numLos) (hj : j < nbins)
    (ax : ℕ) : velocityDen numLos nbins i j ax = i * nbins + j := by
  unfold velocityDen
  split
  · rename_i hb
    unfold broadcasts at hb
    simp only [Bool.and_eq_true, Bool.or_eq_true, beq_iff_eq] at hb
    obtain ⟨h1 | h1, h2⟩ := hb
    · have h3 : numLos = 1 := by omega
      subst h1 h3
      simp
      omega
    · exfalso
      apply h
      refine ⟨h1, ?_⟩
      omega
  · rfl

/-- C51, velocity. On one process, with a shape other than three pixels and one or three sightlines, the velocity in a pixel is
`sqrt(atime)` times the average of the peculiar velocities of the particles. -/
theorem velocity_is_average_partial {c : Config} (hc : GoodConfig c) (hT : TempRead false c.sp) (hpc : PhysicalConfig c)
    {phys : ℝ} (hphys : 0 < phys) (atime : ℝ) (hshape : ¬ (c.nbins = 3 ∧ (c.lines.length = 1 ∨ c.lines.length = 3)))
    {col : Raw → List ℝ} (hcol : IsColumn c col) {segs : List (List Raw)} (hne : segs ≠ []) (hphy : ∀ r ∈ segs.flatten, Physical c r) :
    ∃ v, get_velocity .hdf5 c phys atime segs [segs] = .value v ∧ ∀ i < c.lines.length, ∀ j < c.nbins, ∀ ax : Fin 3,
      v i j ax = some (Real.sqrt atime * average (segs.flatten.map (fun r => ((col r).getD (i * c.nbins + j) 0, r.vel ax)))) := by
  obtain ⟨v, h1, h2⟩ := velocity_get hc hT phys atime hne (ranks := [segs]) (by simpa using hne)
  refine ⟨v, h1, ?_⟩
  intro i hi j hj ax
  have hd := velocityDen_ok hshape hi hj ax
  have hm : i * c.nbins + j < c.lines.length * c.nbins := by
    have := slice_le (nbins := c.nbins) hi
    omega
  have := h2 i hi j hj ax (by rw [hd]; exact hm)
  rw [this, hd]
  congr 1
  have e : ([segs] : List (List (List Raw))).flatten.flatten = segs.flatten := by simp
  rw [e, quotient_eq hc hT hpc hphys hcol (fun r => r.vel ax * Real.sqrt atime) (fun r hr => hr) hphy hm, share_self, ← average_scale]
  congr 1
  apply List.map_congr_left
  intro r _
  rw [mul_comm (r.vel ax)]

/-- C51 is false of the velocity: gas which all moves with the same peculiar velocity is reported at `sqrt(atime)` of it. The
factor has already been applied by the snapshot reader. -/
theorem velocity_wrong {c : Config} (hc : GoodConfig c) (hT : TempRead false c.sp) (hpc : PhysicalConfig c)
    {phys : ℝ} (hphys : 0 < phys) {atime : ℝ} (ha0 : 0 < atime) (ha : atime < 1)
    (hshape : ¬ (c.nbins = 3 ∧ (c.lines.length = 1 ∨ c.lines.length = 3))) {col : Raw → List ℝ} (hcol : IsColumn c col)
    {segs : List (List Raw)} (hne : segs ≠ []) (hphy : ∀ r ∈ segs.flatten, Physical c r) {ax : Fin 3} {v0 : ℝ} (hv0 : v0 ≠ 0)
    (hsame : ∀ r ∈ segs.flatten, r.vel ax = v0) {i j : ℕ} (hi : i < c.lines.length) (hj : j < c.nbins)
    (hgas : (segs.flatten.map (fun r => (col r).getD (i * c.nbins + j) 0)).sum ≠ 0) :
    ∃ v, get_velocity .hdf5 c phys atime segs [segs] = .value v ∧ v i j ax = some (Real.sqrt atime * v0) ∧
      v i j ax ≠ some v0 := by
  obtain ⟨v, h1, h2⟩ := velocity_is_average_partial hc hT hpc hphys atime hshape hcol hne hphy
  have hav : average (segs.flatten.map (fun r => ((col r).getD (i * c.nbins + j) 0, r.vel ax))) = v0 := by
    have hm : i * c.nbins + j < c.lines.length * c.nbins := by
      have := slice_le (nbins := c.nbins) hi
      omega
    have := average_between (l := segs.flatten.map (fun r => ((col r).getD (i * c.nbins + j) 0, r.vel ax))) (lo := v0) (hi := v0) (by
      intro wx hwx
      obtain ⟨r, hr, rfl⟩ := List.mem_map.1 hwx
      dsimp only
      rw [column_unique hc hT hcol r hm]
      exact contrib_nonneg hpc (hphy r hr) _) (by
      rw [List.map_map]
      exact hgas) (by
      intro wx hwx
      obtain ⟨r, hr, rfl⟩ := List.mem_map.1 hwx
      exact ⟨(hsame r hr).ge, (hsame r hr).le⟩)
    exact le_antisymm this.2 this.1
  refine ⟨v, h1, by rw [h2 i hi j hj ax, hav], ?_⟩
  rw [h2 i hi j hj ax, hav]
  intro h
  injection h with h
  have hs : Real.sqrt atime < 1 := by
    rw [Real.sqrt_lt' (by norm_num)]
    linarith
  have : (Real.sqrt atime - 1) * v0 = 0 := by linarith
  rcases mul_eq_zero.1 this with h3 | h3
  · linarith
  · exact hv0 h3

/-- C51 is false for three pixels and one sightline: component `ax` of the velocity in any pixel is divided by the gas in pixel
`ax`. -/
theorem velocity_three_pixels {c : Config} (hc : GoodConfig c) (hT : TempRead false c.sp) {phys : ℝ} (atime : ℝ)
    (hn : c.nbins = 3) (hl : c.lines.length = 1) {col : Raw → List ℝ} (hcol : IsColumn c col) {segs : List (List Raw)}
    (hne : segs ≠ []) {j : ℕ} (hj : j < 3) (ax : Fin 3) :
    ∃ v, get_velocity .hdf5 c phys atime segs [segs] = .value v ∧
      v 0 j ax = some ((segs.flatten.map (fun r => (col r).getD j 0 * (r.vel ax * Real.sqrt atime) / phys)).sum /
        (if (segs.flatten.map (fun r => (col r).getD ax 0)).sum / phys = 0 then 1
          else (segs.flatten.map (fun r => (col r).getD ax 0)).sum / phys)) := by
  obtain ⟨v, h1, h2⟩ := velocity_get hc hT phys atime hne (ranks := [segs]) (by simpa using hne)
  have hd : velocityDen c.lines.length c.nbins 0 j ax = ax := by
    rw [hn, hl]
    simp [velocityDen, broadcasts]
  have hax : (ax : ℕ) < c.lines.length * c.nbins := by
    rw [hn, hl]
    exact ax.isLt
  refine ⟨v, h1, ?_⟩
  rw [h2 0 (by omega) j (by omega) ax (by rw [hd]; exact hax), hd]
  have e : ([segs] : List (List (List Raw))).flatten.flatten = segs.flatten := by simp
  rw [e, zero_mul, zero_add]
  have hcm : ∀ m < c.lines.length * c.nbins, ∀ r, contrib c false r m = (col r).getD m 0 :=
    fun m hm r => (column_unique hc hT hcol r hm).symm
  simp only [hcm j (by rw [hn, hl]; omega), hcm ax hax]

/-! ### Density weighted density -/

/-- C51, density. For neutral hydrogen, or all ions of an element, the density-weighted density is the average over the gas of
the number density of the element. -/
theorem density_is_average_partial {c : Config} (hc : GoodConfig c) (hsp : c.sp = .HI ∨ c.sp = .all) (hpc : PhysicalConfig c)
    {phys : ℝ} (hphys : 0 < phys) {col : Raw → List ℝ} (hcol : IsColumn c col) {segs : List (List Raw)} (hne : segs ≠ [])
    (hphy : ∀ r ∈ segs.flatten, Physical c r) :
    ∃ T, get_dens_weighted_density .hdf5 c phys segs [segs] = .value T ∧ T.length = c.lines.length * c.nbins ∧
      ∀ m < c.lines.length * c.nbins, T[m]? = some (average (segs.flatten.map (fun r =>
        ((col r).getD m 0, r.den * c.rscale * r.massFrac / c.amumass / c.rscale)))) := by
  classical
  have hT : TempRead false c.sp := by rcases hsp with h | h <;> rw [h] <;> trivial
  have hT1 : TempRead true c.sp := by rcases hsp with h | h <;> rw [h] <;> trivial
  have hfile : ∀ seg : List Raw, densweight_single_file c phys seg = .value (arrAdd (zeros c) (fun m =>
      (seg.map (fun r => contrib c false r m * (r.den * c.rscale * r.massFrac / c.amumass / c.rscale) / phys)).sum)) := by
    intro seg
    set sel := seg.filter (fun r => decide (Near c r)) with hsel
    obtain ⟨g, hg, hgd⟩ : ∃ g : Raw → Part, (∀ r, prep c true r = some (g r)) ∧ ∀ r, (g r).pos = r.pos ∧ (g r).h = r.h := by
      rcases hsp with h | h
      · refine ⟨fun r => toPart c r (elemDen c r * r.nHI) (fixTemp r.temp), fun r => ?_, fun r => ⟨rfl, rfl⟩⟩
        simp [prep, h]
      · refine ⟨fun r => toPart c r (elemDen c r) (fixTemp r.temp), fun r => ?_, fun r => ⟨rfl, rfl⟩⟩
        simp [prep, h]
    have hga : ∀ r, prep { c with sp := .all } true r = some (toPart c r (elemDen c r) (fixTemp r.temp)) := by
      intro r
      simp [prep, toPart, elemDen]
    have hfm : ∀ (f : Raw → Option Part) (k : Raw → Part) (l : List Raw), (∀ r, f r = some (k r)) → l.filterMap f = l.map k := by
      intro f k l hk
      induction l with
      | nil => rfl
      | cons a l ih => rw [List.filterMap_cons, hk a, ih]; rfl
    obtain ⟨o, ho, h⟩ := read_particle_data_eq hc.axes true hT1 seg
    obtain ⟨o2, ho2, h2⟩ := read_particle_data_eq (c := { c with sp := .all }) hc.axes true trivial seg
    have hnear : ∀ r, Near { c with sp := .all } r ↔ Near c r := fun r => Iff.rfl
    have hselA : seg.filter (fun r => decide (Near { c with sp := .all } r)) = sel := rfl
    rw [hselA] at h2
    rw [← hsel] at h
    rw [hfm _ _ sel hg] at h
    rw [hfm _ _ sel hga] at h2
    have hzero : sel = [] → (fun m => (seg.map (fun r =>
        contrib c false r m * (r.den * c.rscale * r.massFrac / c.amumass / c.rscale) / phys)).sum) = fun _ => 0 := by
      intro hs
      funext m
      apply List.sum_eq_zero
      intro x hx
      obtain ⟨r, hr, rfl⟩ := List.mem_map.1 hx
      have hnot : ¬ Near c r := by
        intro hn
        have : r ∈ sel := by rw [hsel, List.mem_filter]; exact ⟨hr, by simpa using hn⟩
        rw [hs] at this
        cases this
      rw [contrib_of_far hnot]
      simp
    unfold densweight_single_file
    rw [ho]
    rcases h with ⟨rfl, h⟩ | ⟨rfl, hne'⟩
    · dsimp only
      rw [hzero (by simpa using h), arrAdd_zero]
    · dsimp only
      rw [ho2]
      rcases h2 with ⟨rfl, h2⟩ | ⟨rfl, -⟩
      · exfalso
        apply hne'
        simpa using h2
      · dsimp only
        rw [if_pos (by simp), interpolate_eq hc]
        dsimp only
        congr 2
        funext m
        rw [List.zipWith_map, List.zipWith_self, List.map_map]
        rw [← sum_filter_zero seg (Near c) (fun r => contrib c false r m *
          (r.den * c.rscale * r.massFrac / c.amumass / c.rscale) / phys) (fun r _ hr => by rw [contrib_of_far hr m]; simp)]
        congr 1
        apply List.map_congr_left
        intro r _
        simp only [Function.comp, Bool.false_eq_true, if_false]
        have hw := weighted_contrib (c := c) hT phys (w := fun _ => r.den * c.rscale * r.massFrac / c.amumass / c.rscale)
          (W := fun r => r.den * c.rscale * r.massFrac / c.amumass / c.rscale) (r := r) (fun p _ => rfl) m
        rw [← hw, hg r]
        simp only [Option.elim_some]
        congr 2
        simp only [toPart, elemDen]
        ring
  obtain ⟨T, h1, h2, h3⟩ := mass_weight_eq hc hT hpc hphys hcol
    (W := fun r => r.den * c.rscale * r.massFrac / c.amumass / c.rscale) (func := densweight_single_file c phys) hne
    (ranks := [segs]) (by simp) (by simpa using hne) (by simpa using hphy) (fun seg _ => hfile seg)
  refine ⟨T, h1, h2, ?_⟩
  intro m hm
  rw [h3 m hm]
  simp [share_self]

/-! ### Concrete cases -/

theorem exPhysical (sp : Species) (z : ℝ) : Physical (exConfig sp) (exRaw z) :=
  ⟨by norm_num [exRaw], by norm_num [exRaw], by norm_num [exRaw], by norm_num [exRaw]⟩

theorem exPhysicalConfig : PhysicalConfig (exConfig .HI) :=
  ⟨by norm_num [exConfig], by norm_num [exConfig], by simp [exConfig]⟩

/-- The hypotheses hold for two particles on a sightline. -/
example : ∃ T, get_temp .hdf5 (exConfig .HI) 2 [[exRaw 2, exRaw 9]] [[[exRaw 2, exRaw 9]]] = .value T ∧ T.length = 4 := by
  obtain ⟨col, hcol⟩ := column_exists (exConfig_good .HI) (by trivial)
  obtain ⟨T, h1, h2, _⟩ := temp_is_average_partial (exConfig_good .HI) (by trivial) exPhysicalConfig (phys := 2) (by norm_num) hcol
    (segs := [[exRaw 2, exRaw 9]]) (by simp) (by
      intro r hr
      simp at hr
      rcases hr with rfl | rfl <;> exact exPhysical _ _)
  exact ⟨T, h1, by simpa [exConfig] using h2⟩

/-- C51 is false of the density of an ion if some gas near the sightlines does not contain the element: the query fails. -/
theorem density_fails (table : ℝ → ℝ → ℝ) (phys : ℝ) (ranks : List (List (List Raw))) :
    get_dens_weighted_density .hdf5 (exConfig (.ion table)) phys [[exRaw 2, exRaw 5, { exRaw 9 with massFrac := 0 }]] ranks =
      .raised .valueError := by
  classical
  have h2 := exNear (.ion table) (z := 2) (by norm_num) (by norm_num)
  have h5 := exNear (.ion table) (z := 5) (by norm_num) (by norm_num)
  have h9 : Near (exConfig (.ion table)) { exRaw 9 with massFrac := 0 } := exNear (.ion table) (z := 9) (by norm_num) (by norm_num)
  have hT1 : TempRead true (exConfig (.ion table)).sp := trivial
  obtain ⟨o, ho, h⟩ := read_particle_data_eq (exConfig_good (.ion table)).axes true hT1
    [exRaw 2, exRaw 5, { exRaw 9 with massFrac := 0 }]
  obtain ⟨o2, ho2, h'⟩ := read_particle_data_eq (c := { exConfig (.ion table) with sp := .all }) (exConfig_good (.ion table)).axes true
    trivial [exRaw 2, exRaw 5, { exRaw 9 with massFrac := 0 }]
  have hnear : ∀ r, Near { exConfig (.ion table) with sp := .all } r ↔ Near (exConfig (.ion table)) r := fun r => Iff.rfl
  have hsel : ([exRaw 2, exRaw 5, { exRaw 9 with massFrac := 0 }] : List Raw).filter (fun r => decide (Near (exConfig (.ion table)) r)) =
      [exRaw 2, exRaw 5, { exRaw 9 with massFrac := 0 }] := by
    simp only [List.filter_cons, h2, h5, h9, decide_true, if_true, List.filter_nil]
  have hp : ∀ z, ∃ p, prep (exConfig (.ion table)) true (exRaw z) = some p := by
    intro z
    have : 0 < elemDen (exConfig (.ion table)) (exRaw z) := by norm_num [elemDen, exRaw, exConfig]
    exact ⟨_, if_pos this⟩
  have hp0 : prep (exConfig (.ion table)) true { exRaw 9 with massFrac := 0 } = none := by
    have : ¬ 0 < elemDen (exConfig (.ion table)) { exRaw 9 with massFrac := 0 } := by norm_num [elemDen, exRaw, exConfig]
    exact if_neg this
  have hpa : ∀ r, ∃ p, prep { exConfig (.ion table) with sp := .all } true r = some p := fun r => ⟨_, rfl⟩
  obtain ⟨p2, e2⟩ := hp 2
  obtain ⟨p5, e5⟩ := hp 5
  obtain ⟨q2, f2⟩ := hpa (exRaw 2)
  obtain ⟨q5, f5⟩ := hpa (exRaw 5)
  obtain ⟨q9, f9⟩ := hpa { exRaw 9 with massFrac := 0 }
  have l1 : ([exRaw 2, exRaw 5, { exRaw 9 with massFrac := 0 }] : List Raw).filterMap (prep (exConfig (.ion table)) true) = [p2, p5] := by
    simp [List.filterMap_cons, e2, e5, hp0]
  have l2 : ([exRaw 2, exRaw 5, { exRaw 9 with massFrac := 0 }] : List Raw).filterMap
      (prep { exConfig (.ion table) with sp := .all } true) = [q2, q5, q9] := by
    simp [List.filterMap_cons, f2, f5, f9]
  have hsel' : ([exRaw 2, exRaw 5, { exRaw 9 with massFrac := 0 }] : List Raw).filter
      (fun r => decide (Near { exConfig (.ion table) with sp := .all } r)) = [exRaw 2, exRaw 5, { exRaw 9 with massFrac := 0 }] := hsel
  rw [hsel, l1] at h
  rw [hsel', l2] at h'
  have h : o = some [p2, p5] := by simpa using h
  have h' : o2 = some [q2, q5, q9] := by simpa using h'
  unfold get_dens_weighted_density mass_weight countSegments
  dsimp only
  have hs : sumFiles (densweight_single_file (exConfig (.ion table)) phys)
      [[exRaw 2, exRaw 5, { exRaw 9 with massFrac := 0 }]] = .raised .valueError := by
    rw [sumFiles, densweight_single_file, ho, h]
    dsimp only
    rw [ho2, h']
    rfl
  rw [hs]

/-! The theorems at work on the two particles. -/

theorem exTwo : ∀ r ∈ [[exRaw 2, exRaw 9]].flatten, Physical (exConfig .HI) r := by
  intro r hr
  simp at hr
  rcases hr with rfl | rfl <;> exact exPhysical _ _

example := average_between (l := [(1, 5), (2, 7)]) (by simp) (by norm_num) (lo := 5) (hi := 7) (by simp; norm_num)

example (col : Raw → List ℝ) (hcol : IsColumn (exConfig .HI) col) := temp_ranks (exConfig_good .HI) (by trivial) exPhysicalConfig (phys := 2) (by norm_num)
  hcol (ranks := [[[exRaw 2, exRaw 9]], [[exRaw 2, exRaw 9]]]) (by simp) (by
    intro r hr
    simp at hr
    rcases hr with rfl | rfl | rfl | rfl <;> exact exPhysical _ _) (own := [[exRaw 2, exRaw 9]]) (by simp)

example := temp_two_ranks (exConfig_good .HI) (by trivial) exPhysicalConfig (phys := 2) (by norm_num) (segs := [[exRaw 2, exRaw 9]]) (by simp) exTwo

example (col : Raw → List ℝ) (hcol : IsColumn (exConfig .HI) col) := velocity_is_average_partial (exConfig_good .HI) (by trivial) exPhysicalConfig (phys := 2)
  (by norm_num) 0.25 (by simp [exConfig]) hcol (segs := [[exRaw 2, exRaw 9]]) (by simp) exTwo

example (col : Raw → List ℝ) (hcol : IsColumn (exConfig .HI) col) := density_is_average_partial (exConfig_good .HI) (Or.inl rfl) exPhysicalConfig (phys := 2)
  (by norm_num) hcol (segs := [[exRaw 2, exRaw 9]]) (by simp) exTwo

end Verif.Props.WeightMean
