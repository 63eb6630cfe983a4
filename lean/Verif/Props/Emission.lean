import Verif.Model.Emission

/-!
C16: repeated emission queries. C69: magnitudes and cosmological distances. C70: the stellar flux of a sightline.
-/

namespace Verif.Props.Emission
open Verif Verif.Emission

/-! ### The queries -/

/-- A history of queries by any objects: the answers, and the dictionary of the class in the end. -/
noncomputable def history (q : Obj → String → ℝ → Stellar → Py (List ℝ) × Stellar) :
    List (Obj × String × ℝ) → Stellar → List (Py (List ℝ)) × Stellar
  | [], d => ([], d)
  | (o, b, p) :: rest, d =>
    let (r, d') := q o b p d
    let (rs, d'') := history q rest d'
    (r :: rs, d'')

/-- C16 is false of the code in the strongest way: whatever the objects, their snapshots and the order of calls, no query
ever returns a flux. -/
theorem emflux_never_returns (calls : List (Obj × String × ℝ)) :
    history get_emflux calls [] = (calls.map (fun _ => .error .typeError), []) := by
  induction calls with
  | nil => rfl
  | cons c rest ih =>
    obtain ⟨o, b, p⟩ := c
    have h : get_emflux o b p [] = (.error .typeError, []) := by
      simp [get_emflux, get_emflux_with, reallyLoad, look]
    simp only [history, h, ih, List.map_cons]

theorem look_put (d : Stellar) (k : String × ℝ) (v : List ℝ) : look (put d k v) k = some v := by
  simp [look, put]

/-- The dictionary key of a query and the factor by which the answer is scaled. -/
noncomputable def keyOf (o : Obj) (band : String) (pixelsz : ℝ) : String × ℝ :=
  (band, distance pixelsz (1 / o.atime - 1) o.hubble o.omegaM)

/-- The factor `get_emflux` multiplies by. -/
noncomputable def dimming (o : Obj) : ℝ := apparentflux (calculator (o.hubble * 100) o.omegaM (1 / o.atime - 1)).2.2

/-- With an array in the dictionary of the class (put there by a user, or by any object if the loop over the segments
worked), `n` queries return that array times the `n`-th power of the dimming factor: no two answers agree unless the factor
is 1 or the flux is 0. The answer does not depend on the stars of the object. -/
theorem emflux_drifts (segs : Py (List ℕ)) (o : Obj) (band : String) (pixelsz : ℝ) (a : List ℝ) (ha : 1 < a.length) (n : ℕ)
    (d : Stellar) (hd : look d (keyOf o band pixelsz) = some a) :
    ∃ rs d', history (get_emflux_with segs) (List.replicate (n + 1) (o, band, pixelsz)) d = (rs, d') ∧ rs.length = n + 1 ∧
      (∀ i, i ≤ n → rs[i]? = some (.ok (a.map (fun x => x * dimming o ^ (i + 1))))) := by
  have hstep : ∀ (d : Stellar) (a : List ℝ), 1 < a.length → look d (keyOf o band pixelsz) = some a →
      get_emflux_with segs o band pixelsz d = (.ok (a.map (fun x => x * dimming o)),
        put d (keyOf o band pixelsz) (a.map (fun x => x * dimming o))) := by
    intro d a ha hd
    have hl : reallyLoad o (keyOf o band pixelsz) d = (.ok (), d) := by
      unfold reallyLoad
      rw [hd]
      dsimp only
      rw [if_pos ha]
    unfold get_emflux_with
    dsimp only
    have hk : (band, distance pixelsz (1 / o.atime - 1) o.hubble o.omegaM) = keyOf o band pixelsz := rfl
    rw [hk, hl]
    dsimp only
    rw [hd]
    rfl
  induction n generalizing d a with
  | zero =>
    refine ⟨[.ok (a.map (fun x => x * dimming o))],
      put d (keyOf o band pixelsz) (a.map (fun x => x * dimming o)), ?_, rfl, ?_⟩
    · simp only [Nat.zero_add, List.replicate_one, history, hstep d a ha hd]
    · intro i hi
      have : i = 0 := by omega
      subst this
      simp
  | succ n ih =>
    obtain ⟨rs, d', h1, h2, h3⟩ := ih (a.map (fun x => x * dimming o)) (by simpa using ha)
      (put d (keyOf o band pixelsz) (a.map (fun x => x * dimming o))) (look_put _ _ _)
    refine ⟨.ok (a.map (fun x => x * dimming o)) :: rs, d', ?_, by simp [h2], ?_⟩
    · rw [List.replicate_succ]
      simp only [history, hstep d a ha hd, h1]
    · intro i hi
      cases i with
      | zero => simp
      | succ i =>
        rw [List.getElem?_cons_succ, h3 i (by omega), List.map_map]
        congr 2
        apply List.map_congr_left
        intro x _
        simp only [Function.comp]
        ring

/-- The hypotheses hold after one query, if the loop over the segments worked: two sightlines with one star each. -/
example : ∃ (o : Obj) (a : List ℝ), 1 < a.length ∧
    look (get_emflux_with (.ok [0]) o "B" 1 []).2 (keyOf o "B" 1) = some a := by
  refine ⟨⟨2, 1 / 4, 7 / 10, 3 / 10, fun _ _ _ => .ok [1, 2], fun _ => .error .ioError⟩, _, ?_,
    by simp [get_emflux_with, reallyLoad, look, addSegments, pure, Except.pure, bind, Except.bind, put, keyOf]; rfl⟩
  simp

/-- Another object with the same cosmology and the same pixel is given the stars of the first. -/
theorem emflux_shared (segs : Py (List ℕ)) (o o' : Obj) (band : String) (pixelsz : ℝ) (h1 : o'.atime = o.atime)
    (h2 : o'.hubble = o.hubble) (h3 : o'.omegaM = o.omegaM) (a : List ℝ) (ha : 1 < a.length) (d : Stellar)
    (hd : look d (keyOf o band pixelsz) = some a) :
    (get_emflux_with segs o' band pixelsz d).1 = (get_emflux_with segs o band pixelsz d).1 ∧
      (get_emflux_with segs o' band pixelsz d).1 = .ok (a.map (fun x => x * dimming o)) := by
  have key : ∀ q : Obj, q.atime = o.atime → q.hubble = o.hubble → q.omegaM = o.omegaM →
      (get_emflux_with segs q band pixelsz d).1 = .ok (a.map (fun x => x * dimming o)) := by
    intro q e1 e2 e3
    have hk : keyOf q band pixelsz = keyOf o band pixelsz := by unfold keyOf; rw [e1, e2, e3]
    have hdim : dimming q = dimming o := by unfold dimming; rw [e1, e2, e3]
    obtain ⟨rs, d', g1, g2, g3⟩ := emflux_drifts segs q band pixelsz a ha 0 d (by rw [hk]; exact hd)
    have := g3 0 (le_refl _)
    simp only [Nat.zero_add, List.replicate_one, history] at g1
    have hrs : rs = [(get_emflux_with segs q band pixelsz d).1] := by
      have := congrArg Prod.fst g1
      exact this.symm
    rw [hrs] at this
    simp only [List.getElem?_cons_zero, Option.some.injEq] at this
    rw [this, hdim]
    simp
  exact ⟨by rw [key o' h1 h2 h3, key o rfl rfl rfl], key o' h1 h2 h3⟩

/-! ### The flux of one segment -/

/-- The flux in Jansky of a magnitude, for a known band. -/
theorem maginJy_ok {band : String} {f : ℝ} (h : bandflux band = .ok f) (m : ℝ) :
    maginJy m band = .ok ((10 : ℝ) ^ (m / (-2.5)) * f) := by
  simp [maginJy, h, bind, Except.bind, pure, Except.pure]

/-- C69. The eight known bands and their positive zero points; any other band is an error. -/
theorem maginJy_bands (band : String) :
    (∃ f ∈ [("U", 1810), ("B", 4260), ("V", 3640), ("K", 670), ("g", 3730), ("r", 4490), ("i", 4760), ("z", (4810 : ℝ))],
      f.1 = band ∧ 0 < f.2 ∧ maginJy 0 band = .ok f.2) ∨
    (band ∉ ["U", "B", "V", "K", "g", "r", "i", "z"] ∧ ∀ m, maginJy m band = .error .keyError) := by
  by_cases h : band ∈ ["U", "B", "V", "K", "g", "r", "i", "z"]
  · left
    simp only [List.mem_cons, List.not_mem_nil, or_false] at h
    rcases h with rfl | rfl | rfl | rfl | rfl | rfl | rfl | rfl <;>
      simp [maginJy, bandflux, bind, Except.bind, pure, Except.pure]
  · right
    refine ⟨h, fun m => ?_⟩
    have : bandflux band = .error .keyError := by
      unfold bandflux
      split <;> first | rfl | (exfalso; exact h (by simp))
    simp [maginJy, this, bind, Except.bind]

/-- C70. Sightline by sightline, the flux is the sum over all stars near that sightline, although stars are selected twice;
the segment is passed over only if no star is near any sightline. -/
theorem readStellar_spec {X L : Type} (near : ℝ → X → L → Bool) (lines : List L) (stars : List (X × ℝ)) (band : String)
    (hh : ℝ) (f : ℝ) (hb : bandflux band = .ok f) :
    ((∃ st ∈ stars, ∃ l ∈ lines, near hh st.1 l = true) →
      readStellar near lines stars band hh = .ok (lines.map (fun l =>
        ((stars.filter (fun st => near hh st.1 l)).map (fun st => (10 : ℝ) ^ (st.2 / (-2.5)) * f)).sum))) ∧
    ((¬ ∃ st ∈ stars, ∃ l ∈ lines, near hh st.1 l = true) → readStellar near lines stars band hh = .error .valueError) := by
  constructor
  · rintro ⟨st, h1, l, h2, h3⟩
    have hne : ¬ (stars.filter (fun st => lines.any (fun l => near hh st.1 l))).length = 0 := by
      have : st ∈ stars.filter (fun st => lines.any (fun l => near hh st.1 l)) := by
        rw [List.mem_filter]
        exact ⟨h1, List.any_eq_true.mpr ⟨l, h2, h3⟩⟩
      exact (List.length_pos_of_mem this).ne'
    have hm : ∀ xs : List (X × ℝ), xs.mapM (fun st => (do
        let g ← maginJy st.2 band
        pure (st.1, g) : Py (X × ℝ))) = .ok (xs.map (fun st => (st.1, (10 : ℝ) ^ (st.2 / (-2.5)) * f))) := by
      intro xs
      induction xs with
      | nil => rfl
      | cons x xs ih =>
        rw [List.mapM_cons, ih, maginJy_ok hb]
        rfl
    unfold readStellar
    simp only [hb, bind, Except.bind]
    rw [if_neg hne]
    have hm' := hm (stars.filter (fun st => lines.any (fun l => near hh st.1 l)))
    simp only [bind, Except.bind] at hm'
    rw [hm']
    simp only [pure, Except.pure]
    congr 1
    apply List.map_congr_left
    intro l hl
    rw [List.filter_map, List.map_map, List.filter_filter]
    congr 2
    apply List.filter_congr
    intro x _
    simp only [Function.comp]
    cases hx : near hh x.1 l with
    | false => rfl
    | true =>
      rw [Bool.true_and]
      exact List.any_eq_true.mpr ⟨l, hl, hx⟩
  · intro h
    have he : (stars.filter (fun st => lines.any (fun l => near hh st.1 l))) = [] := by
      rw [List.filter_eq_nil_iff]
      intro x hx hc
      obtain ⟨l, hl, hn⟩ := List.any_eq_true.mp hc
      exact h ⟨x, hx, l, hl, hn⟩
    unfold readStellar
    simp only [hb, bind, Except.bind]
    rw [he]
    rfl

/-- A case with a star near a sightline and one near none. -/
example : ∃ (near : ℝ → ℝ → ℝ → Bool) (stars : List (ℝ × ℝ)) (f : ℝ), bandflux "V" = .ok f ∧
    (∃ st ∈ stars, ∃ l ∈ [(1 : ℝ)], near 2 st.1 l = true) ∧ (∃ st ∈ stars, near 2 st.1 1 = false) :=
  ⟨fun r x l => decide (|x - l| ≤ r), [(0, 20), (9, 21)], 3640, rfl, ⟨(0, 20), by simp, 1, by simp, by norm_num⟩,
    ⟨(9, 21), by simp, by simp; norm_num⟩⟩

/-! ### Magnitudes and distances -/

/-- C69. Five magnitudes are a factor 100, and a larger magnitude is a smaller flux. -/
theorem maginJy_spec {band : String} {f : ℝ} (h : bandflux band = .ok f) (m : ℝ) :
    ∃ x y, maginJy m band = .ok x ∧ maginJy (m + 5) band = .ok y ∧ x = 100 * y ∧ maginJy 0 band = .ok f ∧
      ∀ m' z, m < m' → maginJy m' band = .ok z → 0 < f → z < x := by
  refine ⟨_, _, maginJy_ok h m, maginJy_ok h (m + 5), ?_, ?_, ?_⟩
  · have : (m + 5) / (-2.5 : ℝ) = m / (-2.5) - 2 := by ring_nf
    rw [this, Real.rpow_sub (by norm_num)]
    norm_num
    ring
  · rw [maginJy_ok h]; norm_num
  · intro m' z hm hz hf
    rw [maginJy_ok h] at hz
    cases hz
    apply mul_lt_mul_of_pos_right _ hf
    apply Real.rpow_lt_rpow_of_exponent_lt (by norm_num)
    rw [div_lt_div_right_of_neg (by norm_num)]
    exact hm

/-- C69. The inverse square law, with no change at ten parsec. -/
theorem apparentflux_spec (DL k : ℝ) : apparentflux (k * DL) = apparentflux DL / k ^ 2 ∧ apparentflux 1e-5 = 1 := by
  unfold apparentflux
  constructor
  · rw [div_pow, div_pow, mul_pow, mul_pow, mul_pow, div_div]
    ring_nf
  · norm_num

theorem logspace_get (az : ℝ) (haz : 0 < az) (n i : ℕ) (hi : i < n) :
    (logspace az n)[i]? = some (az ^ (1 - (i : ℝ) / (n - 1))) := by
  unfold logspace
  rw [List.getElem?_map, List.getElem?_range hi]
  simp only [Option.map_some]
  have h10 : (10 : ℝ) ^ Real.logb 10 az = az := Real.rpow_logb (by norm_num) (by norm_num) haz
  congr 1
  conv_rhs => rw [← h10, ← Real.rpow_mul (by norm_num)]
  congr 1
  ring

theorem trapz_bounds (lo hi : ℝ) (f : ℝ → ℝ) : ∀ (xs : List ℝ) (x : ℝ), (x :: xs).IsChain (· ≤ ·) →
    (∀ y ∈ x :: xs, lo ≤ f y ∧ f y ≤ hi) →
    lo * ((x :: xs).getLast (by simp) - x) ≤ Absorbers.trapz ((x :: xs).map f) (x :: xs) ∧
    Absorbers.trapz ((x :: xs).map f) (x :: xs) ≤ hi * ((x :: xs).getLast (by simp) - x) := by
  intro xs
  induction xs with
  | nil => intro x _ _; simp [Absorbers.trapz]
  | cons y ys ih =>
    intro x hc hb
    have hxy : x ≤ y := by
      rw [List.isChain_cons_cons] at hc
      exact hc.1
    have hc' : (y :: ys).IsChain (· ≤ ·) := by
      rw [List.isChain_cons_cons] at hc
      exact hc.2
    obtain ⟨h1, h2⟩ := ih y hc' (fun z hz => hb z (by simp at hz ⊢; tauto))
    obtain ⟨b1, b2⟩ := hb x (by simp)
    obtain ⟨b3, b4⟩ := hb y (by simp)
    have hlast : (x :: y :: ys).getLast (by simp) = (y :: ys).getLast (by simp) := by simp
    have htr : Absorbers.trapz ((x :: y :: ys).map f) (x :: y :: ys) =
        (y - x) * (f x + f y) / 2 + Absorbers.trapz ((y :: ys).map f) (y :: ys) := rfl
    rw [htr, hlast]
    constructor
    · have : lo * (y - x) ≤ (y - x) * (f x + f y) / 2 := by nlinarith
      nlinarith
    · have : (y - x) * (f x + f y) / 2 ≤ hi * (y - x) := by nlinarith
      nlinarith

/-- The comoving distance in units of the Hubble distance. -/
noncomputable def dcmr (H0 omegaM z : ℝ) : ℝ := (calculator H0 omegaM z).1 * H0 / 299792.458

/-- C69. The three distances of one redshift: the angular diameter distance is the comoving one divided by `1+z`, the
luminosity distance is the comoving one times `1+z`. -/
theorem distances_related (H0 omegaM z : ℝ) (hz : -1 < z) :
    (calculator H0 omegaM z).2.1 = (calculator H0 omegaM z).1 / (1 + z) ∧
    (calculator H0 omegaM z).2.2 = (calculator H0 omegaM z).1 * (1 + z) := by
  have h : (1 + z) ≠ 0 := by linarith
  unfold calculator
  dsimp only
  constructor <;> field_simp

/-- A universe with matter, radiation and a cosmological constant. -/
structure Universe (H0 omegaM : ℝ) : Prop where
  expands : 0 < H0
  matter : 0 ≤ omegaM
  lambda : 0 ≤ 1 - omegaM - 4.165e-5 / ((H0 / 100) * (H0 / 100))

/-- C69. Hubble's law with its curvature: the comoving distance is between `z/(1+z)` and `z(1+z)` Hubble distances; it is
positive beyond redshift 0. -/
theorem hubble_law {H0 omegaM : ℝ} (hu : Universe H0 omegaM) {z : ℝ} (hz : 0 ≤ z) :
    z / (1 + z) ≤ dcmr H0 omegaM z ∧ dcmr H0 omegaM z ≤ z * (1 + z) := by
  obtain ⟨hH, hM, hL⟩ := hu
  set WR := 4.165e-5 / ((H0 / 100) * (H0 / 100)) with hWR
  have hWR0 : 0 ≤ WR := by positivity
  set az := 1 / (1 + z) with haz
  have haz0 : 0 < az := by positivity
  have haz1 : az ≤ 1 := by rw [haz, div_le_one (by linarith)]; linarith
  set g := fun x => 1 / a2H omegaM WR (1 - omegaM - WR) x with hg
  have hbound : ∀ x, az ≤ x → x ≤ 1 → 1 ≤ g x ∧ g x ≤ (1 + z) ^ 2 := by
    intro x h1 h2
    have hx0 : 0 < x := lt_of_lt_of_le haz0 h1
    have hE : a2H omegaM WR (1 - omegaM - WR) x = Real.sqrt (omegaM * x + WR + (1 - omegaM - WR) * x ^ 4) := by
      unfold a2H
      have : omegaM * x + WR + (1 - omegaM - WR) * x ^ 4 =
          (x * x) ^ 2 * (omegaM / x ^ 3 + WR / x ^ 4 + (1 - omegaM - WR)) := by
        field_simp
      rw [this, Real.sqrt_mul (by positivity), Real.sqrt_sq (by positivity)]
    have hx4 : x ^ 4 ≤ 1 := pow_le_one₀ hx0.le h2
    have hx4x : x ^ 4 ≤ x := by
      calc x ^ 4 = x * x ^ 3 := by ring
        _ ≤ x * 1 := by
          apply mul_le_mul_of_nonneg_left (pow_le_one₀ hx0.le h2) hx0.le
        _ = x := mul_one x
    have hup : omegaM * x + WR + (1 - omegaM - WR) * x ^ 4 ≤ 1 := by nlinarith
    have hlo : x ^ 4 ≤ omegaM * x + WR + (1 - omegaM - WR) * x ^ 4 := by nlinarith
    have hs1 : Real.sqrt (omegaM * x + WR + (1 - omegaM - WR) * x ^ 4) ≤ 1 := by
      rw [Real.sqrt_le_left (by norm_num)]
      simpa using hup
    have hs2 : x ^ 2 ≤ Real.sqrt (omegaM * x + WR + (1 - omegaM - WR) * x ^ 4) := by
      apply Real.le_sqrt_of_sq_le
      calc (x ^ 2) ^ 2 = x ^ 4 := by ring
        _ ≤ _ := hlo
    have hs0 : 0 < Real.sqrt (omegaM * x + WR + (1 - omegaM - WR) * x ^ 4) := lt_of_lt_of_le (by positivity) hs2
    simp only [hg, hE]
    constructor
    · rw [le_div_iff₀ hs0]; linarith
    · rw [div_le_iff₀ hs0]
      have h3 : 1 ≤ (1 + z) ^ 2 * x ^ 2 := by
        have : 1 ≤ (1 + z) * x := by
          have : 1 / (1 + z) ≤ x := h1
          rw [div_le_iff₀ (by linarith)] at this
          linarith
        nlinarith
      have h4 : (1 + z) ^ 2 * x ^ 2 ≤ (1 + z) ^ 2 * Real.sqrt (omegaM * x + WR + (1 - omegaM - WR) * x ^ 4) := by
        apply mul_le_mul_of_nonneg_left hs2 (by positivity)
      linarith
  have hlen : (logspace az 1000).length = 1000 := by simp [logspace]
  have hget : ∀ (i : ℕ) (hi : i < 1000), (logspace az 1000)[i]'(by rw [hlen]; exact hi) = az ^ (1 - (i : ℝ) / (1000 - 1)) := by
    intro i hi
    have := logspace_get az haz0 1000 i hi
    rw [List.getElem?_eq_getElem (by rw [hlen]; exact hi)] at this
    simpa using this
  have hmem : ∀ x ∈ logspace az 1000, az ≤ x ∧ x ≤ 1 := by
    intro x hx
    obtain ⟨i, hi, rfl⟩ := List.mem_iff_getElem.mp hx
    rw [hlen] at hi
    rw [hget i hi]
    have hi' : (i : ℝ) ≤ 999 := by exact_mod_cast (by omega : i ≤ 999)
    have e0 : (0 : ℝ) ≤ 1 - (i : ℝ) / (1000 - 1) := by
      have : (i : ℝ) / (1000 - 1) ≤ 1 := by rw [div_le_one (by norm_num)]; linarith
      linarith
    have e1 : 1 - (i : ℝ) / (1000 - 1) ≤ 1 := by
      have : (0 : ℝ) ≤ (i : ℝ) / (1000 - 1) := div_nonneg (Nat.cast_nonneg i) (by norm_num)
      linarith
    constructor
    · calc az = az ^ (1 : ℝ) := (Real.rpow_one az).symm
        _ ≤ _ := Real.rpow_le_rpow_of_exponent_ge haz0 haz1 e1
    · exact Real.rpow_le_one haz0.le haz1 e0
  have hchain : (logspace az 1000).IsChain (· ≤ ·) := by
    rw [List.isChain_iff_getElem]
    intro i hi
    rw [hlen] at hi
    rw [hget i (by omega), hget (i + 1) hi]
    apply Real.rpow_le_rpow_of_exponent_ge haz0 haz1
    push_cast
    have : (i : ℝ) / (1000 - 1) ≤ (i + 1) / (1000 - 1) := by gcongr; linarith
    linarith
  obtain ⟨x, xs, hxs⟩ : ∃ x xs, logspace az 1000 = x :: xs := by
    cases h : logspace az 1000 with
    | nil => rw [h] at hlen; simp at hlen
    | cons x xs => exact ⟨x, xs, rfl⟩
  have hx : x = az := by
    have := hget 0 (by norm_num)
    simp only [hxs] at this
    simpa using this
  have hlast : (x :: xs).getLast (by simp) = 1 := by
    rw [List.getLast_eq_getElem]
    have hl : (x :: xs).length - 1 = 999 := by rw [← hxs, hlen]
    have := hget 999 (by norm_num)
    simp only [hxs] at this
    simp only [hl]
    rw [this]
    norm_num
  have hb := trapz_bounds 1 ((1 + z) ^ 2) g xs x (by rw [← hxs]; exact hchain)
    (fun y hy => by
      have := hmem y (by rw [hxs]; exact hy)
      exact hbound y this.1 this.2)
  rw [hlast, hx] at hb
  have hdc : dcmr H0 omegaM z = Absorbers.trapz ((logspace az 1000).map g) (logspace az 1000) := by
    unfold dcmr calculator
    dsimp only
    rw [← hWR, ← haz]
    field_simp
    rfl
  rw [hdc, hxs, hx]
  have h1z : (1 - az) = z / (1 + z) := by rw [haz]; field_simp; ring
  constructor
  · calc z / (1 + z) = 1 * (1 - az) := by rw [h1z]; ring
      _ ≤ _ := hb.1
  · calc _ ≤ (1 + z) ^ 2 * (1 - az) := hb.2
      _ = z * (1 + z) := by rw [h1z]; field_simp

/-- A universe like ours. -/
example : Universe 70 0.3 := ⟨by norm_num, by norm_num, by norm_num⟩

/-- C69. The size in comoving kpc/h of an angle is the angle in radians times the comoving distance in Mpc times 1000 times
`h`; it is proportional to the angle. -/
theorem distance_spec (arcsec z h omegaM : ℝ) (hz : -1 < z) (hh : 0 < h) :
    distance arcsec z h omegaM = arcsec * (Real.pi / 648000) * ((calculator (h * 100) omegaM z).1 * 1000 * h) ∧
    ∀ k, distance (k * arcsec) z h omegaM = k * distance arcsec z h omegaM := by
  have h1 : (1 + z) ≠ 0 := by linarith
  have key : ∀ t, distance t z h omegaM = t * (Real.pi / 648000) * ((calculator (h * 100) omegaM z).1 * 1000 * h) := by
    intro t
    unfold distance
    dsimp only
    rw [(distances_related (h * 100) omegaM z hz).1]
    field_simp
    ring
  refine ⟨key arcsec, fun k => ?_⟩
  rw [key, key]
  ring

/-! Witnesses for the other theorems. -/

example := emflux_shared (.ok [0]) ⟨2, 1 / 4, 7 / 10, 3 / 10, fun _ _ _ => .ok [1, 2], fun _ => .error .ioError⟩
  ⟨5, 1 / 4, 7 / 10, 3 / 10, fun _ _ _ => .ok [7, 7], fun _ => .error .ioError⟩ "B" 1 rfl rfl rfl [3, 4] (by simp)
  [(keyOf ⟨2, 1 / 4, 7 / 10, 3 / 10, fun _ _ _ => .ok [1, 2], fun _ => .error .ioError⟩ "B" 1, [3, 4])] (by simp [look])

example := maginJy_spec (band := "V") rfl 20

example := distances_related 70 0.3 3 (by norm_num)

example := distance_spec 2 3 0.7 0.3 (by norm_num) (by norm_num)

end Verif.Props.Emission
