import Verif.Model.MachineInts
import Verif.Props.EndToEnd

/-!
C119: the integer types of the interpolator. Up to `2 ^ 32` pixels in all the result is that of unbounded integers; with more of them the rows of the
later sightlines are added to those of the first ones.
-/

namespace Verif.Props.MachineInts
open Verif Verif.Spec Verif.Props Verif.PartInt Verif.IndexTable Verif.Absorption Verif.MachineInts

/-! ### Specification -/

/-- The result with unbounded integers. -/
noncomputable def exact (get_tau : Bool) (L : LineAbsorption) (nbins : ℕ) (box : ℝ) (lines : List Line) (parts : List Part) : CRes (List ℝ) :=
  if get_tau then compute_tau L nbins box lines parts (List.replicate (lines.length * nbins) 0)
  else compute_colden L nbins box lines parts (List.replicate (lines.length * nbins) 0)

/-- Sightlines and particles in the box, of which there are less than a third of the range of an `int`. Pixel numbers are integers as well: of the
particles, which move along the sightline by their velocity, none may get too many boxes away. -/
structure Fits (get_tau : Bool) (L : LineAbsorption) (nbins : ℕ) (box : ℝ) (lines : List Line) (parts : List Part) : Prop where
  kernel : L.kernel ≠ VORONOI_MESH
  pos_box : 0 < box
  velfac : 0 < L.velfac
  vbox : L.vbox = box * L.velfac
  good_lines : ∀ l ∈ lines, GoodLine box l
  good_parts : ∀ p ∈ parts, GoodPart box (p.pos, p.h)
  pos_nbins : 0 < nbins
  pixels : (2 : ℝ) * nbins ≤ 2 ^ 31 - 3
  shifted : get_tau = true → ∀ p ∈ parts, ∀ k, (|p.vel k| / L.vbox + 2) * nbins ≤ 2 ^ 31 - 3
  numLos : 3 * lines.length ≤ 2 ^ 31
  npart : 3 * parts.length < 2 ^ 31

/-- Element `m` of `out` is the sum of the pixels of all the sightlines whose row, if its start is counted modulo `2 ^ 32`, has `m` in it. `right`
has every row in its place. -/
def Wrapped (n nbins : ℕ) (right out : List ℝ) : Prop :=
  out.length = n * nbins ∧ ∀ m < n * nbins, out.getD m 0 = ((List.range n).map (fun (i : ℕ) =>
    if i * nbins % 2 ^ 32 ≤ m ∧ m < i * nbins % 2 ^ 32 + nbins then right.getD (i * nbins + (m - i * nbins % 2 ^ 32)) 0 else 0)).sum

/-! ### Integers -/

theorem int_ok {z : ℤ} (h : -2 ^ 31 ≤ z) (h' : z < 2 ^ 31) : MachineInts.int z = .ok z := by
  unfold MachineInts.int
  rw [if_pos ⟨h, h'⟩]

theorem narrow_small {z : ℤ} (h : -2 ^ 31 ≤ z) (h' : z < 2 ^ 31) : narrow z = z := by
  unfold narrow
  omega

theorem narrow_range (z : ℤ) : -2 ^ 31 ≤ narrow z ∧ narrow z < 2 ^ 31 := by
  unfold narrow
  omega

theorem unsigned_eq (i nbins : ℕ) : unsigned ((i : ℤ) * nbins) = i * nbins % 2 ^ 32 := by
  unfold unsigned
  have : ((i : ℤ) * nbins) % 2 ^ 32 = ((i * nbins % 2 ^ 32 : ℕ) : ℤ) := by push_cast; rfl
  rw [this, Int.toNat_natCast]

theorem ok_bindM {α β : Type} (x : α) (f : α → MRes β) : ((Except.ok x : MRes α) >>= f) = f x := rfl

theorem fromC_ok_bind {α β : Type} (x : α) (f : α → MRes β) : (fromC (Except.ok x) >>= f) = f x := rfl

theorem fromC_bind {α β : Type} (x : CRes α) (f : α → CRes β) : fromC (x >>= f) = (fromC x >>= fun a => fromC (f a)) := by
  cases x <;> rfl

theorem fromC_foldlM {α β : Type} (g : α → β → MRes α) (f : α → β → CRes α) (l : List β) (h : ∀ x ∈ l, ∀ a, g a x = fromC (f a x)) (a : α) :
    l.foldlM g a = fromC (l.foldlM f a) := by
  induction l generalizing a with
  | nil => rfl
  | cons x l ih =>
    rw [List.foldlM_cons, List.foldlM_cons, fromC_bind, h x (by simp)]
    congr 1
    funext b
    exact ih (fun y hy => h y (by simp [hy])) b

/-! ### Particles -/

/-- The column density of a particle in the box needs no larger integers. -/
theorem add_colden_exact {L : LineAbsorption} (hk : L.kernel ≠ VORONOI_MESH) {box : ℝ} (hb : 0 < box) (hv : 0 < L.velfac) (hvb : L.vbox = box * L.velfac)
    {nbins : ℕ} (hn : 0 < nbins) (hp : (2 : ℝ) * nbins ≤ 2 ^ 31 - 3) {pos h d : ℝ} (h0 : 0 ≤ pos) (h1 : pos ≤ box) (hh : 0 < h) (hh2 : 2 * h < box)
    (hd : 0 ≤ d) (a : List ℝ) (off : ℕ) (dens : ℝ) :
    add_colden L a off nbins d dens pos h = fromC (add_colden_particle L a off nbins d dens pos h) := by
  unfold add_colden add_colden_particle
  simp only [hk, false_and, if_false, ne_eq, not_false_eq_true, true_and]
  by_cases hz : h * h - d ≤ 0
  · rw [if_pos hz, if_pos hz]
    rfl
  rw [if_neg hz, if_neg hz]
  have hn' : (0 : ℝ) < nbins := by exact_mod_cast hn
  have hr : √(h * h - d) ≤ h := by
    rw [Real.sqrt_le_left hh.le]
    nlinarith
  have hr0 := Real.sqrt_nonneg (h * h - d)
  have e : L.vbox / nbins / L.velfac = box / nbins := by
    rw [hvb]
    field_simp
  rw [e]
  have hq : ∀ x, x / (box / (nbins : ℝ)) = x / box * nbins := fun x => by field_simp
  rw [hq, hq]
  have hlo : -(1 / 2) * (nbins : ℝ) ≤ (pos - √(h * h - d)) / box * nbins := by
    apply mul_le_mul_of_nonneg_right _ hn'.le
    rw [le_div_iff₀ hb]
    linarith
  have hhi : (pos + √(h * h - d)) / box * nbins ≤ (3 / 2) * (nbins : ℝ) := by
    apply mul_le_mul_of_nonneg_right _ hn'.le
    rw [div_le_iff₀ hb]
    linarith
  have hle : (pos - √(h * h - d)) / box * nbins ≤ (pos + √(h * h - d)) / box * nbins := by
    apply mul_le_mul_of_nonneg_right _ hn'.le
    apply div_le_div_of_nonneg_right _ hb.le
    linarith
  have a1 : (-2 ^ 31 : ℤ) ≤ ⌊(pos - √(h * h - d)) / box * nbins⌋ := by
    rw [Int.le_floor]
    push_cast
    linarith
  have a2 : ⌈(pos + √(h * h - d)) / box * nbins⌉ ≤ (2 ^ 31 - 2 : ℤ) := by
    rw [Int.ceil_le]
    push_cast
    linarith
  have a3 : ⌊(pos - √(h * h - d)) / box * nbins⌋ ≤ ⌈(pos + √(h * h - d)) / box * nbins⌉ :=
    (Int.floor_mono hle).trans (Int.floor_le_ceil _)
  rw [int_ok a1 (by omega), ok_bindM, int_ok (by omega) (by omega), ok_bindM, if_pos a3, int_ok (by omega) (by omega), ok_bindM]

/-- Nor does the optical depth, unless the velocity takes the particle far away. -/
theorem add_tau_exact {L : LineAbsorption} (hk : L.kernel ≠ VORONOI_MESH) {box : ℝ} (hb : 0 < box) (hv : 0 < L.velfac) (hvb : L.vbox = box * L.velfac)
    {nbins : ℕ} (hn : 0 < nbins) {pos vel : ℝ} (hp : (|vel| / L.vbox + 2) * nbins ≤ 2 ^ 31 - 3) (h0 : 0 ≤ pos) (h1 : pos ≤ box)
    (a : List ℝ) (off : ℕ) (d dens temp h : ℝ) :
    add_tau L a off nbins d dens pos vel temp h = fromC (add_tau_particle L a off nbins d dens pos vel temp h) := by
  unfold add_tau add_tau_particle
  simp only [hk, false_and, if_false, ne_eq, not_false_eq_true, true_and]
  by_cases hz : h * h - d ≤ 0
  · rw [if_pos hz, if_pos hz]
    rfl
  rw [if_neg hz, if_neg hz]
  have hn' : (0 : ℝ) < nbins := by exact_mod_cast hn
  have hV : 0 < L.vbox := by rw [hvb]; positivity
  have hq : (L.velfac * pos + vel) / (L.vbox / (nbins : ℝ)) = (L.velfac * pos / L.vbox + vel / L.vbox) * nbins := by field_simp
  have b0 : 0 ≤ L.velfac * pos / L.vbox := by positivity
  have b1 : L.velfac * pos / L.vbox ≤ 1 := by
    rw [div_le_one hV, hvb]
    nlinarith
  have b2 : vel / L.vbox ≤ |vel| / L.vbox := div_le_div_of_nonneg_right (le_abs_self _) hV.le
  have b3 : -(|vel| / L.vbox) ≤ vel / L.vbox := by
    rw [← neg_div]
    exact div_le_div_of_nonneg_right (neg_abs_le _) hV.le
  rw [hq]
  generalize (L.velfac * pos / L.vbox) = s at *
  generalize vel / L.vbox = w at *
  generalize |vel| / L.vbox = v at *
  have hlo : -v * (nbins : ℝ) ≤ (s + w) * nbins := mul_le_mul_of_nonneg_right (by linarith) hn'.le
  have hhi : (s + w) * nbins ≤ (1 + v) * (nbins : ℝ) := mul_le_mul_of_nonneg_right (by linarith) hn'.le
  have a1 : ((-2 ^ 31 + 2 * nbins + 3 : ℤ)) ≤ ⌊(s + w) * nbins⌋ := by
    rw [Int.le_floor]
    push_cast
    linarith
  have a2 : ⌊(s + w) * nbins⌋ ≤ (2 ^ 31 - 3 - nbins : ℤ) := by
    have : ((⌊(s + w) * nbins⌋ : ℤ) : ℝ) ≤ ((2 ^ 31 - 3 - nbins : ℤ) : ℝ) := by
      push_cast
      linarith [Int.floor_le ((s + w) * (nbins : ℝ))]
    exact_mod_cast this
  rw [int_ok (by omega) (by omega), ok_bindM, int_ok (by omega) (by omega), ok_bindM, fromC_bind]
  congr 1
  funext b
  rw [int_ok (by omega) (by omega), ok_bindM, int_ok (by omega) (by omega), ok_bindM]

/-! ### The particles near a line -/

theorem insertInt_last (m : List (ℤ × ℝ)) (k : ℤ) (d : ℝ) (h : ∀ e ∈ m, e.1 < k) : insertInt m k d = m ++ [(k, d)] := by
  induction m with
  | nil => rfl
  | cons e m ih =>
    have := h e (by simp)
    rw [insertInt, if_neg (by omega), if_neg (by omega), ih (fun e he => h e (by simp [he]))]
    rfl

theorem foldl_insertInt (m : StdMap ℝ) (hm : m.Sorted) (hs : ∀ e ∈ m, e.1 < 2 ^ 31) (acc : List (ℤ × ℝ)) (ha : ∀ x ∈ acc, ∀ e ∈ m, x.1 < (e.1 : ℤ)) :
    m.foldl (fun acc e => insertInt acc (narrow (e.1 : ℤ)) e.2) acc = acc ++ m.map (fun e => ((e.1 : ℤ), e.2)) := by
  induction m generalizing acc with
  | nil => simp
  | cons e m ih =>
    have hlt := hs e (by simp)
    unfold StdMap.Sorted at hm
    rw [List.pairwise_cons] at hm
    rw [List.foldl_cons, narrow_small (by omega) (by omega), insertInt_last _ _ _ (fun x hx => ha x hx e (by simp)), ih hm.2 (fun x hx => hs x (by simp [hx]))]
    · simp
    · intro x hx y hy
      rw [List.mem_append, List.mem_singleton] at hx
      rcases hx with hx | rfl
      · exact ha x hx y (by simp [hy])
      · have := hm.1 y hy
        dsimp only
        omega

theorem nearList_key {t : Table} {ps : List (Vec3 × ℝ)} {k : ℕ} {e : ℕ × ℝ} (he : e ∈ nearList t ps k) :
    ∃ p, ps[e.1]? = some p ∧ StdMap.find? (get_near_lines t p.1 p.2) k = some e.2 := by
  unfold nearList at he
  obtain ⟨j, hj, he⟩ := List.mem_filterMap.1 he
  simp only [Option.bind_eq_some_iff, Option.map_eq_some_iff] at he
  obtain ⟨q, hq, d, hd, rfl⟩ := he
  exact ⟨q, hq, hd⟩

theorem nearList_lt {t : Table} {ps : List (Vec3 × ℝ)} {k : ℕ} {e : ℕ × ℝ} (he : e ∈ nearList t ps k) : e.1 < ps.length := by
  obtain ⟨p, hp, -⟩ := nearList_key he
  by_contra hc
  rw [List.getElem?_eq_none (by omega)] at hp
  cases hp

theorem near_eq (lines : List Line) (box : ℝ) (ps : List (Vec3 × ℝ)) :
    get_near_particles (build lines box) ps = (List.range lines.length).map (nearList (build lines box) ps) := by
  unfold get_near_particles
  rw [get_near_particles_sched_eq _ _ _ (List.Perm.refl _), build_lines]

theorem nearInts_eq (lines : List Line) (box : ℝ) (ps : List (Vec3 × ℝ)) (h : ps.length ≤ 2 ^ 31) :
    nearInts (build lines box) ps =
      (List.range lines.length).map (fun k => (nearList (build lines box) ps k).map (fun e => ((e.1 : ℤ), e.2))) := by
  unfold nearInts
  rw [near_eq, List.map_map]
  apply List.map_congr_left
  intro k _
  rw [Function.comp_apply, foldl_insertInt _ (nearList_sorted _ _ _) (fun e he => lt_of_lt_of_le (nearList_lt he) h) [] (by simp)]
  rfl

theorem readable_eq {kernel axis : ℤ} (hk : kernel ≠ VORONOI_MESH) (hax : axis = 1 ∨ axis = 2 ∨ axis = 3) (m : StdMap ℝ)
    (h : ∀ e ∈ m, 3 * e.1 + 3 < 2 ^ 31) : readable kernel axis (m.map (fun e => ((e.1 : ℤ), e.2))) = .ok m := by
  unfold readable
  induction m with
  | nil => rfl
  | cons e m ih =>
    have := h e (by simp)
    rw [List.map_cons, List.mapM_cons, ih (fun x hx => h x (by simp [hx]))]
    dsimp only
    rw [int_ok (by omega) (by omega), ok_bindM, int_ok (by omega) (by omega), ok_bindM, if_neg hk, ok_bindM, if_neg (by omega)]
    rfl

theorem cellInts_no {kernel : ℤ} (hk : kernel ≠ VORONOI_MESH) (box : ℝ) (near : StdMap ℝ) : cellInts kernel box near = .ok () := by
  unfold cellInts
  rw [if_neg hk]

/-- The loop over the sightlines, if every sightline is right. -/
theorem rows_eq {kernel : ℤ} (hk : kernel ≠ VORONOI_MESH) (box : ℝ) (lines : List Line) (hax : ∀ l ∈ lines, l.axis = 1 ∨ l.axis = 2 ∨ l.axis = 3)
    (parts : List Part) (hp : 3 * parts.length < 2 ^ 31) (body : ℕ → Line → List ((ℕ × ℝ) × (ℝ × ℝ)) → List ℝ → MRes (List ℝ))
    (body' : ℕ → Line → List ((ℕ × ℝ) × (ℝ × ℝ)) → List ℝ → CRes (List ℝ))
    (hb : ∀ i l, lines[i]? = some l → ∀ a, body i l ((nearList (build lines box) (posH parts) i).map (fun e => (e, ((0 : ℝ), (0 : ℝ))))) a =
      fromC (body' i l ((nearList (build lines box) (posH parts) i).map (fun e => (e, ((0 : ℝ), (0 : ℝ))))) a)) (out : List ℝ) :
    rows body kernel box lines parts out = fromC (overLines body' kernel box lines parts out) := by
  have hlen : (posH parts).length = parts.length := by simp [posH]
  unfold rows overLines
  simp only
  rw [nearInts_eq _ _ _ (by rw [hlen]; omega), near_eq, List.length_map, List.length_map, List.length_range]
  apply fromC_foldlM
  intro i hi a
  rw [List.mem_range] at hi
  have hl : lines[i]? = some lines[i] := List.getElem?_eq_getElem hi
  rw [readAt_eq (x := (nearList (build lines box) (posH parts) i).map (fun e => ((e.1 : ℤ), e.2))) (by
      rw [List.getElem?_map, List.getElem?_range hi]; rfl),
    readAt_eq (x := nearList (build lines box) (posH parts) i) (by rw [List.getElem?_map, List.getElem?_range hi]; rfl), readAt_eq hl]
  change (readable kernel lines[i].axis _ >>= _) = _
  rw [readable_eq hk (hax _ (List.getElem_mem hi))]
  · have e : lineEntries kernel box lines[i] parts (nearList (build lines box) (posH parts) i) =
        .ok ((nearList (build lines box) (posH parts) i).map (fun e => (e, ((0 : ℝ), (0 : ℝ))))) := by
      unfold lineEntries
      rw [if_neg hk]
    rw [ok_bindM, ok_bind, ok_bind, e]
    change (cellInts kernel box _ >>= _) = _
    rw [cellInts_no hk]
    exact hb i _ hl a
  · intro e he
    have := nearList_lt he
    rw [hlen] at this
    omega

/-! ### Rows -/

/-- A row of `n` pixels put at `off`. -/
noncomputable def place (off n : ℕ) (g : ℕ → ℝ) (m : ℕ) : ℝ := if off ≤ m ∧ m < off + n then g (m - off) else 0

theorem coldenF_place (L : LineAbsorption) {off nbins : ℕ} (hn : 0 < nbins) (d dens pos h : ℝ) (m : ℕ) :
    coldenF L off nbins d dens pos h m = place off nbins (coldenF L 0 nbins d dens pos h) m := by
  unfold place
  split
  · rename_i hm
    rw [← coldenF_offset L off]
    congr 1
    omega
  · rename_i hm
    exact coldenF_outside L hn (by omega) ..

theorem tauF_place (L : LineAbsorption) {off nbins : ℕ} (hn : 0 < nbins) (d dens pos vel temp h : ℝ) (m : ℕ) :
    tauF L off nbins d dens pos vel temp h m = place off nbins (tauF L 0 nbins d dens pos vel temp h) m := by
  unfold place
  split
  · rename_i hm
    rw [← tauF_offset L off]
    congr 1
    omega
  · rename_i hm
    exact tauF_outside L hn (by omega) ..

/-- What a particle gives to pixel `j` of the sightline it is near. -/
noncomputable def pixelOf (get_tau : Bool) (L : LineAbsorption) (nbins : ℕ) (l : Line) (p : Part) (d : ℝ) (j : ℕ) : ℝ :=
  if get_tau then tauF L 0 nbins d p.dens (along p.pos l.axis) (along p.vel l.axis) p.temp p.h j
  else coldenF L 0 nbins d p.dens (along p.pos l.axis) p.h j

/-- Pixel `j` of sightline `i`. -/
noncomputable def pixel (get_tau : Bool) (L : LineAbsorption) (nbins : ℕ) (box : ℝ) (lines : List Line) (parts : List Part) (i j : ℕ) : ℝ :=
  (parts.map (fun p => (lines[i]?).elim 0 (fun l =>
    (StdMap.find? (get_near_lines (build lines box) p.pos p.h) i).elim 0 (fun d => pixelOf get_tau L nbins l p d j)))).sum

theorem single_rows (get_tau : Bool) (L : LineAbsorption) (nbins : ℕ) (box : ℝ) (lines : List Line) (parts : List Part) (off : ℕ → ℕ) (m : ℕ) :
    (parts.map (fun p => single (build lines box) lines (fun i l p d m => place (off i) nbins (pixelOf get_tau L nbins l p d) m) p m)).sum =
      ((List.range lines.length).map (fun i => place (off i) nbins (pixel get_tau L nbins box lines parts i) m)).sum := by
  unfold single
  rw [list_sum_comm]
  congr 1
  apply List.map_congr_left
  intro i _
  unfold place pixel
  split
  · rename_i h
    simp only [if_pos h]
  · rename_i h
    apply List.sum_eq_zero
    intro x hx
    obtain ⟨p, -, rfl⟩ := List.mem_map.1 hx
    simp only [if_neg h]
    cases lines[i]? with
    | none => rfl
    | some l =>
      cases StdMap.find? (get_near_lines (build lines box) p.pos p.h) i <;> rfl

/-- The interpolator with rows that start anywhere. -/
noncomputable def bodyAt (get_tau : Bool) (L : LineAbsorption) (nbins : ℕ) (parts : List Part) (off : ℕ → ℕ) (i : ℕ) (line : Line)
    (entries : List ((ℕ × ℝ) × (ℝ × ℝ))) (out : List ℝ) : CRes (List ℝ) :=
  entries.foldlM (fun out e => do
    let p ← readAt parts e.1.1
    let ppos ← coord p.pos line.axis
    let pvel ← coord p.vel line.axis
    if get_tau then add_tau_particle L out (off i) nbins e.1.2 p.dens ppos pvel p.temp p.h
    else add_colden_particle L out (off i) nbins e.1.2 p.dens ppos p.h) out

theorem rows_at (get_tau : Bool) {L : LineAbsorption} (hk : L.kernel ≠ VORONOI_MESH) {nbins : ℕ} (hn : 0 < nbins) (box : ℝ) (lines : List Line)
    (hax : ∀ l ∈ lines, l.axis = 1 ∨ l.axis = 2 ∨ l.axis = 3) (parts : List Part) (off : ℕ → ℕ)
    (hoff : ∀ i < lines.length, off i + nbins ≤ lines.length * nbins) :
    overLines (bodyAt get_tau L nbins parts off) L.kernel box lines parts (List.replicate (lines.length * nbins) 0) =
      .ok (arrAdd (List.replicate (lines.length * nbins) 0) (fun m =>
        ((List.range lines.length).map (fun i => place (off i) nbins (pixel get_tau L nbins box lines parts i) m)).sum)) := by
  rw [overLines_eq (fun i l p d m => place (off i) nbins (pixelOf get_tau L nbins l p d) m) _ hk box lines parts _ (lines.length * nbins) ?_ _ (by simp)]
  · congr 2
    funext m
    exact single_rows get_tau L nbins box lines parts off m
  · intro i l hl es hes a ha
    have hi : i < lines.length := by
      by_contra hc
      rw [List.getElem?_eq_none (by omega)] at hl
      cases hl
    unfold bodyAt
    rw [foldlM_arrAdd _ (fun e m => (parts[e.1.1]?).elim 0 (fun p => place (off i) nbins (pixelOf get_tau L nbins l p e.1.2) m)) (lines.length * nbins)]
    · congr 2
      funext m
      rw [List.map_map]
      rfl
    · intro e he b hb
      obtain ⟨e', he', rfl⟩ := List.mem_map.1 he
      obtain ⟨p, hp⟩ := hes e' he'
      have hax' := hax l (List.mem_of_getElem? hl)
      have hle : off i + nbins ≤ b.length := by rw [hb]; exact hoff i hi
      simp only
      rw [readAt_eq hp, ok_bind, coord_eq hax', ok_bind, coord_eq hax', ok_bind, hp]
      cases get_tau with
      | false =>
        rw [if_neg (by simp), add_colden_eq L hn hle]
        congr 2
        funext m
        exact coldenF_place L hn ..
      | true =>
        rw [if_pos rfl, add_tau_eq L hn hle]
        congr 2
        funext m
        exact tauF_place L hn ..
    · exact ha

theorem exact_eq (get_tau : Bool) {L : LineAbsorption} (hk : L.kernel ≠ VORONOI_MESH) {nbins : ℕ} (hn : 0 < nbins) (box : ℝ) (lines : List Line)
    (hax : ∀ l ∈ lines, l.axis = 1 ∨ l.axis = 2 ∨ l.axis = 3) (parts : List Part) :
    exact get_tau L nbins box lines parts = .ok (arrAdd (List.replicate (lines.length * nbins) 0) (fun m =>
      ((List.range lines.length).map (fun i => place (i * nbins) nbins (pixel get_tau L nbins box lines parts i) m)).sum)) := by
  unfold exact
  cases get_tau with
  | false =>
    rw [if_neg (by simp), compute_colden_eq L hk hn box lines hax parts _ (by simp)]
    congr 2
    funext m
    rw [← single_rows]
    congr 1
    apply List.map_congr_left
    intro p _
    congr 1
    funext i l p d m
    exact coldenF_place L hn ..
  | true =>
    rw [if_pos rfl, compute_tau_eq L hk hn box lines hax parts _ (by simp)]
    congr 2
    funext m
    rw [← single_rows]
    congr 1
    apply List.map_congr_left
    intro p _
    congr 1
    funext i l p d m
    exact tauF_place L hn ..

theorem along_mem (v : Vec3) (axis : ℤ) : ∃ k, along v axis = v k := by
  unfold along
  split
  · exact ⟨0, rfl⟩
  · split
    · exact ⟨1, rfl⟩
    · exact ⟨2, rfl⟩

theorem machine_eq {get_tau : Bool} {L : LineAbsorption} {nbins : ℕ} {box : ℝ} {lines : List Line} {parts : List Part}
    (hf : Fits get_tau L nbins box lines parts) :
    MachineInts.interpolate get_tau L nbins box lines parts =
      .ok (arrAdd (List.replicate (lines.length * nbins) 0) (fun m =>
        ((List.range lines.length).map (fun (i : ℕ) => place (i * nbins % 2 ^ 32) nbins (pixel get_tau L nbins box lines parts i) m)).sum)) := by
  have hax : ∀ l ∈ lines, l.axis = 1 ∨ l.axis = 2 ∨ l.axis = 3 := fun l hl => (hf.good_lines l hl).1
  have hN : nbins < 2 ^ 31 := by
    have : (nbins : ℝ) < 2 ^ 31 := by
      have := hf.pixels
      have : (0 : ℝ) ≤ nbins := Nat.cast_nonneg _
      linarith
    exact_mod_cast this
  have hnl := hf.numLos
  unfold MachineInts.interpolate
  rw [if_neg (by omega), if_neg (by rw [narrow_small (by omega) (by omega)]; simp), int_ok (by omega) (by omega), ok_bindM,
    rows_eq hf.kernel box lines hax parts hf.npart _ (bodyAt get_tau L nbins parts (fun i => i * nbins % 2 ^ 32)) ?_,
    rows_at get_tau hf.kernel hf.pos_nbins box lines hax parts]
  · rfl
  · intro i hi
    exact le_trans (Nat.add_le_add_right (Nat.mod_le _ _) _) (slice_le hi)
  · intro i l hl a
    have hlm := List.mem_of_getElem? hl
    have key : ∀ e ∈ nearList (build lines box) (posH parts) i, ∃ p ∈ parts, parts[e.1]? = some p ∧ 0 ≤ e.2 := by
      intro e he
      obtain ⟨q, hq, hd⟩ := nearList_key he
      unfold posH at hq
      rw [List.getElem?_map, Option.map_eq_some_iff] at hq
      obtain ⟨p, hp, rfl⟩ := hq
      refine ⟨p, List.mem_of_getElem? hp, hp, ?_⟩
      obtain ⟨l', -, h2, -⟩ := pair_distance hf.pos_box hf.good_lines (hf.good_parts p (List.mem_of_getElem? hp)).1 p.h i e.2 hd
      rw [h2]
      unfold transDist2
      apply Finset.sum_nonneg
      intro k _
      split
      · exact le_rfl
      · positivity
    cases get_tau with
    | false =>
      rw [if_neg (by simp)]
      unfold coldenRow bodyAt
      apply fromC_foldlM
      intro x hx b
      obtain ⟨e, he, rfl⟩ := List.mem_map.1 hx
      obtain ⟨p, hpm, hp, hd⟩ := key e he
      obtain ⟨k, hk⟩ := along_mem p.pos l.axis
      have hg := hf.good_parts p hpm
      dsimp only
      rw [readAt_eq hp, fromC_ok_bind, ok_bind, coord_eq (hax l hlm), fromC_ok_bind, ok_bind, coord_eq (hax l hlm), ok_bind, if_neg hf.kernel,
        if_neg (by simp), unsigned_eq]
      apply add_colden_exact hf.kernel hf.pos_box hf.velfac hf.vbox hf.pos_nbins hf.pixels
      · rw [hk]; exact (hg.1 k).1
      · rw [hk]; exact (hg.1 k).2
      · exact hg.2.1
      · exact hg.2.2
      · exact hd
    | true =>
      rw [if_pos rfl]
      unfold tauRow bodyAt
      apply fromC_foldlM
      intro x hx b
      obtain ⟨e, he, rfl⟩ := List.mem_map.1 hx
      obtain ⟨p, hpm, hp, hd⟩ := key e he
      obtain ⟨k, hk⟩ := along_mem p.pos l.axis
      obtain ⟨k', hk'⟩ := along_mem p.vel l.axis
      have hg := hf.good_parts p hpm
      dsimp only
      rw [readAt_eq hp, fromC_ok_bind, ok_bind, coord_eq (hax l hlm), fromC_ok_bind, ok_bind, coord_eq (hax l hlm), fromC_ok_bind, ok_bind,
        if_neg hf.kernel, if_pos rfl, unsigned_eq]
      apply add_tau_exact hf.kernel hf.pos_box hf.velfac hf.vbox hf.pos_nbins
      · rw [hk']; exact hf.shifted rfl p hpm k'
      · rw [hk]; exact (hg.1 k).1
      · rw [hk]; exact (hg.1 k).2

theorem getD_arrAdd {n m : ℕ} (hm : m < n) (f : ℕ → ℝ) : (arrAdd (List.replicate n 0) f).getD m 0 = f m := by
  rw [List.getD_eq_getElem?_getD, arrAdd_getElem?, List.getElem?_replicate, if_pos hm]
  simp

/-- C119: whatever the number of sightlines, a row starts where its number times the number of pixels, modulo `2 ^ 32`, says. -/
theorem interpolate_wrapped {get_tau : Bool} {L : LineAbsorption} {nbins : ℕ} {box : ℝ} {lines : List Line} {parts : List Part}
    (hf : Fits get_tau L nbins box lines parts) :
    ∃ right out, exact get_tau L nbins box lines parts = .ok right ∧ MachineInts.interpolate get_tau L nbins box lines parts = .ok out ∧
      Wrapped lines.length nbins right out := by
  refine ⟨_, _, exact_eq get_tau hf.kernel hf.pos_nbins box lines (fun l hl => (hf.good_lines l hl).1) parts, machine_eq hf, by simp, ?_⟩
  intro m hm
  rw [getD_arrAdd hm]
  congr 1
  apply List.map_congr_left
  intro i hi
  rw [List.mem_range] at hi
  unfold place
  split
  · rename_i hmi
    have hs := slice_le (nbins := nbins) hi
    rw [getD_arrAdd (by omega), list_sum_single hi]
    · rw [if_pos (by omega)]
      congr 1
      omega
    · intro k hk hne
      rw [if_neg]
      rintro ⟨h1, h2⟩
      rcases lt_or_gt_of_ne hne with h | h
      · have := slice_le (nbins := nbins) h
        omega
      · have := slice_le (nbins := nbins) h
        omega
  · rfl

/-! ### C119 -/

theorem wrapped_right {n nbins : ℕ} {right out : List ℝ} (h : Wrapped n nbins right out) (hr : right.length = n * nbins) (hs : n * nbins ≤ 2 ^ 32) :
    out = right := by
  apply List.ext_getElem (by rw [h.1, hr])
  intro m hm hm'
  have hmn : m < n * nbins := by rw [← h.1]; exact hm
  have e := h.2 m hmn
  have hnb : 0 < nbins := Nat.pos_of_ne_zero (fun h0 => by subst h0; simp at hmn)
  have hin : m / nbins < n := Nat.div_lt_of_lt_mul (by rw [mul_comm]; exact hmn)
  have hdm := Nat.div_add_mod' m nbins
  have hml := Nat.mod_lt m hnb
  rw [list_sum_single hin] at e
  · have hsl := slice_le (nbins := nbins) hin
    rw [Nat.mod_eq_of_lt (by omega), if_pos (by omega), show m / nbins * nbins + (m - m / nbins * nbins) = m by omega] at e
    rwa [List.getD_eq_getElem?_getD, List.getD_eq_getElem?_getD, List.getElem?_eq_getElem hm, List.getElem?_eq_getElem hm', Option.getD_some,
      Option.getD_some] at e
  · intro k hk hne
    have hsl := slice_le (nbins := nbins) hk
    rw [Nat.mod_eq_of_lt (by omega), if_neg]
    rintro ⟨h1, h2⟩
    rcases lt_or_gt_of_ne hne with h | h
    · have := slice_le (nbins := nbins) h
      omega
    · have := slice_le (nbins := nbins) h
      omega

/-- C119: with no more than `2 ^ 32` pixels in all the result is that of unbounded integers. Missing: more pixels, for which it is wrong
(`late_rows_empty`, `late_rows_wrong`), and more sightlines or particles than a third of the range of an `int`. The Voronoi mesh is in `MeshInts`. -/
theorem sizes_partial {get_tau : Bool} {L : LineAbsorption} {nbins : ℕ} {box : ℝ} {lines : List Line} {parts : List Part}
    (hf : Fits get_tau L nbins box lines parts) (hs : lines.length * nbins ≤ 2 ^ 32) :
    ∃ right, exact get_tau L nbins box lines parts = .ok right ∧ MachineInts.interpolate get_tau L nbins box lines parts = .ok right := by
  obtain ⟨right, out, h1, h2, h3⟩ := interpolate_wrapped hf
  refine ⟨right, h1, ?_⟩
  rw [h2, wrapped_right h3 ?_ hs]
  rw [exact_eq get_tau hf.kernel hf.pos_nbins box lines (fun l hl => (hf.good_lines l hl).1) parts] at h1
  rw [← Except.ok.inj h1]
  simp

/-- C119: beyond the first `2 ^ 32` pixels, and one more row, the spectra are zero whatever the gas. -/
theorem late_rows_empty {get_tau : Bool} {L : LineAbsorption} {nbins : ℕ} {box : ℝ} {lines : List Line} {parts : List Part}
    (hf : Fits get_tau L nbins box lines parts) {m : ℕ} (hm : 2 ^ 32 + nbins ≤ m) (hm' : m < lines.length * nbins) :
    ∃ out, MachineInts.interpolate get_tau L nbins box lines parts = .ok out ∧ out.getD m 0 = 0 := by
  obtain ⟨right, out, -, h2, h3⟩ := interpolate_wrapped hf
  refine ⟨out, h2, ?_⟩
  rw [h3.2 m hm']
  apply List.sum_eq_zero
  intro x hx
  obtain ⟨i, -, rfl⟩ := List.mem_map.1 hx
  rw [if_neg]
  have : i * nbins % 2 ^ 32 < 2 ^ 32 := Nat.mod_lt _ (by norm_num)
  omega

/-- C119: as many sightlines as an `int` cannot count are an exception, and so are as many pixels. -/
theorem too_many_raise (get_tau : Bool) (L : LineAbsorption) (nbins : ℕ) (box : ℝ) (lines : List Line) (parts : List Part) :
    (2 ^ 31 ≤ nbins → MachineInts.interpolate get_tau L nbins box lines parts = .error (.raised .attributeError)) ∧
    (nbins < 2 ^ 31 → 2 ^ 31 ≤ lines.length → MachineInts.interpolate get_tau L nbins box lines parts = .error (.raised .valueError)) ∧
    (2 ^ 31 ≤ lines.length → MachineInts.near_lines box (posH parts) lines = .error (.raised .valueError)) := by
  have hne : 2 ^ 31 ≤ lines.length → narrow lines.length ≠ lines.length := by
    intro h
    have := (narrow_range lines.length).2
    omega
  refine ⟨fun h => ?_, fun h h' => ?_, fun h => ?_⟩
  · unfold MachineInts.interpolate
    rw [if_pos h]
  · unfold MachineInts.interpolate
    rw [if_neg (by omega), if_pos (hne h')]
  · unfold MachineInts.near_lines
    rw [if_pos (hne h)]

theorem foldlM_step {α β : Type} (g : α → β → MRes α) (l : List β) (a out : α) (h : l.foldlM g a = .ok out) {x : β} (hx : x ∈ l) :
    ∃ b c, g b x = .ok c := by
  induction l generalizing a with
  | nil => cases hx
  | cons y l ih =>
    rw [List.foldlM_cons] at h
    cases hy : g a y with
    | error e =>
      rw [hy] at h
      cases h
    | ok c =>
      rw [hy, ok_bindM] at h
      rcases List.mem_cons.1 hx with rfl | hx
      · exact ⟨a, c, hy⟩
      · exact ih c h hx

theorem mapM_step {α β : Type} (g : α → MRes β) (l : List α) (out : List β) (h : l.mapM g = .ok out) {x : α} (hx : x ∈ l) : ∃ c, g x = .ok c := by
  induction l generalizing out with
  | nil => cases hx
  | cons y l ih =>
    rw [List.mapM_cons] at h
    cases hy : g y with
    | error e =>
      rw [hy] at h
      cases h
    | ok c =>
      rcases List.mem_cons.1 hx with rfl | hx
      · exact ⟨c, hy⟩
      · rw [hy, ok_bindM] at h
        cases hl : l.mapM g with
        | error e =>
          rw [hl] at h
          cases h
        | ok cs => exact ih cs hl hx

/-- C119: a particle near a sightline whose number is more than a third of the range of an `int` leaves no result, if there are as many numbers as
particles. -/
theorem late_particles_undefined (get_tau : Bool) (L : LineAbsorption) (nbins : ℕ) {box : ℝ} (hb : 0 < box) {lines : List Line}
    (hl : ∀ l ∈ lines, GoodLine box l) {parts : List Part} (hlen : parts.length ≤ 2 ^ 31) {i j : ℕ} {l : Line} {p : Part}
    (hi : lines[i]? = some l) (hj : parts[j]? = some p) (hp : GoodPart box (p.pos, p.h)) (hd : transDist2 box l.axis p.pos l.cofm < p.h ^ 2)
    (hjl : 2 ^ 31 ≤ 3 * j) (out : List ℝ) : MachineInts.interpolate get_tau L nbins box lines parts ≠ .ok out := by
  intro h
  have hil : i < lines.length := by
    by_contra hc
    rw [List.getElem?_eq_none (by omega)] at hi
    cases hi
  unfold MachineInts.interpolate at h
  split at h
  · cases h
  split at h
  · cases h
  unfold MachineInts.int at h
  split at h
  swap
  · cases h
  rw [ok_bindM] at h
  unfold rows at h
  simp only at h
  rw [nearInts_eq _ _ _ (by simpa [posH] using hlen), List.length_map, List.length_range] at h
  obtain ⟨b, c, hs⟩ := foldlM_step _ _ _ _ h (List.mem_range.2 hil)
  rw [readAt_eq (x := (nearList (build lines box) (posH parts) i).map (fun e => ((e.1 : ℤ), e.2))) (by
      rw [List.getElem?_map, List.getElem?_range hil]; rfl), readAt_eq hi, fromC_ok_bind, fromC_ok_bind] at hs
  cases hr : readable L.kernel l.axis ((nearList (build lines box) (posH parts) i).map (fun e => ((e.1 : ℤ), e.2))) with
  | error e =>
    rw [hr] at hs
    cases hs
  | ok m =>
    unfold readable at hr
    have hm : (j, transDist2 box l.axis p.pos l.cofm) ∈ nearList (build lines box) (posH parts) i := by
      rw [StdMap.mem_iff_find? (nearList_sorted _ _ _), find?_nearList]
      have : (posH parts)[j]? = some (p.pos, p.h) := by
        unfold posH
        rw [List.getElem?_map, hj]
        rfl
      rw [this]
      exact near_line_found hb hl hp hi hd
    obtain ⟨c, hc⟩ := mapM_step _ _ _ hr (List.mem_map_of_mem hm)
    dsimp only at hc
    unfold MachineInts.int at hc
    rw [if_neg (by omega)] at hc
    cases hc

theorem insertSet_last (s : List ℤ) (k : ℤ) (h : ∀ e ∈ s, e < k) : insertSet s k = s ++ [k] := by
  induction s with
  | nil => rfl
  | cons e s ih =>
    have := h e (by simp)
    rw [insertSet, if_neg (by omega), if_neg (by omega), ih (fun e he => h e (by simp [he]))]
    rfl

theorem foldl_insertSet (s : List ℕ) (hs : s.Pairwise (· < ·)) (hb : ∀ e ∈ s, e < 2 ^ 31) (acc : List ℤ) (ha : ∀ x ∈ acc, ∀ e ∈ s, x < (e : ℤ)) :
    s.foldl (fun s (i : ℕ) => insertSet s (narrow (i : ℤ))) acc = acc ++ s.map (fun (n : ℕ) => (n : ℤ)) := by
  induction s generalizing acc with
  | nil => simp
  | cons e s ih =>
    have hlt := hb e (by simp)
    rw [List.pairwise_cons] at hs
    rw [List.foldl_cons, narrow_small (by omega) (by omega), insertSet_last _ _ (fun x hx => ha x hx e (by simp)), ih hs.2 (fun x hx => hb x (by simp [hx]))]
    · simp
    · intro x hx y hy
      rw [List.mem_append, List.mem_singleton] at hx
      rcases hx with hx | rfl
      · exact ha x hx y (by simp [hy])
      · have := hs.1 y hy
        omega

theorem near_lines_lt {box : ℝ} {ps : List (Vec3 × ℝ)} {lines : List Line} {i : ℕ} (h : i ∈ IndexTable.near_lines box ps lines) : i < ps.length := by
  unfold IndexTable.near_lines at h
  rw [mem_near_lines_sched] at h
  exact List.mem_range.1 h.1

/-- C119: the search for near particles with no more particles than an `int` can number. Missing: more of them (`late_particles_lost`). -/
theorem near_sizes_partial {box : ℝ} {ps : List (Vec3 × ℝ)} {lines : List Line} (hl : 3 * lines.length ≤ 2 ^ 31) (hp : ps.length ≤ 2 ^ 31) :
    MachineInts.near_lines box ps lines = .ok ((IndexTable.near_lines box ps lines).map (fun (n : ℕ) => (n : ℤ))) := by
  unfold MachineInts.near_lines
  rw [if_neg (by rw [narrow_small (by omega) (by omega)]; simp), int_ok (by omega) (by omega), ok_bindM,
    foldl_insertSet (IndexTable.near_lines box ps lines) (near_lines_sched_sorted _ _ _ _) (fun e he => lt_of_lt_of_le (near_lines_lt he) hp) [] (by simp)]
  rfl

theorem mem_insertSet {s : List ℤ} {k x : ℤ} (h : x ∈ insertSet s k) : x = k ∨ x ∈ s := by
  induction s with
  | nil =>
    rw [insertSet, List.mem_singleton] at h
    exact Or.inl h
  | cons e s ih =>
    rw [insertSet] at h
    split at h
    · simpa using h
    · split at h
      · exact Or.inr h
      · rcases List.mem_cons.1 h with rfl | h
        · exact Or.inr (by simp)
        · rcases ih h with h | h
          · exact Or.inl h
          · exact Or.inr (by simp [h])

/-- C119: the particles with the numbers from `2 ^ 31` on are never in the result of the search, near as they may be. -/
theorem late_particles_lost {box : ℝ} {ps : List (Vec3 × ℝ)} {lines : List Line} {out : List ℤ} (h : MachineInts.near_lines box ps lines = .ok out)
    {j : ℕ} (hj : 2 ^ 31 ≤ j) : (j : ℤ) ∉ out := by
  unfold MachineInts.near_lines at h
  split at h
  · cases h
  unfold MachineInts.int at h
  split at h
  swap
  · cases h
  rw [ok_bindM] at h
  have h := Except.ok.inj h
  have key : ∀ (b : ℤ), (∀ z, narrow z < b) → ∀ (s : List ℕ) (acc : List ℤ), (∀ x ∈ acc, x < b) →
      ∀ x ∈ s.foldl (fun s (i : ℕ) => insertSet s (narrow (i : ℤ))) acc, x < b := by
    intro b hb s
    induction s with
    | nil => exact fun acc ha => ha
    | cons e s ih =>
      intro acc ha
      rw [List.foldl_cons]
      apply ih
      intro x hx
      rcases mem_insertSet hx with h | hx
      · rw [h]
        exact hb _
      · exact ha x hx
  intro hm
  rw [← h] at hm
  have := key (2 ^ 31) (fun z => (narrow_range z).2) _ [] (fun x hx => absurd hx List.not_mem_nil) _ hm
  omega

theorem narrow_iff (n k : ℤ) : narrow n = k ↔ -2 ^ 31 ≤ k ∧ k < 2 ^ 31 ∧ (2 ^ 32 : ℤ) ∣ n - k := by
  unfold narrow
  omega

theorem insertSet_mem {s : List ℤ} (hs : s.Pairwise (· < ·)) (k : ℤ) :
    (insertSet s k).Pairwise (· < ·) ∧ ∀ x, x ∈ insertSet s k ↔ x = k ∨ x ∈ s := by
  induction s with
  | nil => simp [insertSet]
  | cons e s ih =>
    obtain ⟨h1, h2⟩ := List.pairwise_cons.1 hs
    obtain ⟨g1, g2⟩ := ih h2
    rw [insertSet]
    split
    · rename_i hk
      refine ⟨List.pairwise_cons.2 ⟨?_, hs⟩, fun x => by simp⟩
      intro x hx
      rcases List.mem_cons.1 hx with rfl | hx
      · exact hk
      · exact hk.trans (h1 x hx)
    · split
      · rename_i hk
        refine ⟨hs, fun x => ?_⟩
        rw [hk]
        simp
      · refine ⟨List.pairwise_cons.2 ⟨?_, g1⟩, fun x => ?_⟩
        · intro x hx
          rcases (g2 x).1 hx with rfl | hx
          · omega
          · exact h1 x hx
        · rw [List.mem_cons, g2, List.mem_cons]
          tauto

theorem foldl_set (f : ℕ → ℤ) (s : List ℕ) : ∀ acc : List ℤ, acc.Pairwise (· < ·) →
    (s.foldl (fun s (i : ℕ) => insertSet s (f i)) acc).Pairwise (· < ·) ∧
      ∀ x, x ∈ s.foldl (fun s (i : ℕ) => insertSet s (f i)) acc ↔ x ∈ acc ∨ ∃ j ∈ s, x = f j := by
  induction s with
  | nil => intro acc ha; exact ⟨ha, fun x => by simp⟩
  | cons e s ih =>
    intro acc ha
    obtain ⟨h1, h2⟩ := insertSet_mem ha (f e)
    obtain ⟨g1, g2⟩ := ih _ h1
    refine ⟨g1, fun x => ?_⟩
    rw [List.foldl_cons, g2, h2]
    simp only [List.mem_cons, exists_eq_or_imp]
    tauto

/-- C119: the search for near particles returns, in increasing order and each once, the numbers of the near particles as far as they fit into
32 bits. -/
theorem near_narrowed {box : ℝ} {ps : List (Vec3 × ℝ)} {lines : List Line} (hl : 3 * lines.length ≤ 2 ^ 31) :
    ∃ out, MachineInts.near_lines box ps lines = .ok out ∧ out.Pairwise (· < ·) ∧
      ∀ x, x ∈ out ↔ -2 ^ 31 ≤ x ∧ x < 2 ^ 31 ∧ ∃ j ∈ IndexTable.near_lines box ps lines, (2 ^ 32 : ℤ) ∣ (j : ℤ) - x := by
  unfold MachineInts.near_lines
  rw [if_neg (by rw [narrow_small (by omega) (by omega)]; simp), int_ok (by omega) (by omega), ok_bindM]
  refine ⟨_, rfl, ?_⟩
  obtain ⟨h1, h2⟩ := foldl_set (fun (i : ℕ) => narrow (i : ℤ)) (IndexTable.near_lines box ps lines) [] List.Pairwise.nil
  refine ⟨h1, fun x => (h2 x).trans ?_⟩
  constructor
  · rintro (h | ⟨j, hj, hx⟩)
    · exact absurd h List.not_mem_nil
    · obtain ⟨g1, g2, g3⟩ := (narrow_iff _ _).1 hx.symm
      exact ⟨g1, g2, j, hj, g3⟩
  · rintro ⟨g1, g2, j, hj, g3⟩
    exact .inr ⟨j, hj, ((narrow_iff _ _).2 ⟨g1, g2, g3⟩).symm⟩

theorem insertInt_mem {m : List (ℤ × ℝ)} (hs : m.Pairwise (·.1 < ·.1)) (k : ℤ) (d : ℝ) :
    (insertInt m k d).Pairwise (·.1 < ·.1) ∧ ∀ e, e ∈ insertInt m k d ↔ e ∈ m ∨ (e = (k, d) ∧ ∀ x ∈ m, x.1 ≠ k) := by
  induction m with
  | nil => simp [insertInt]
  | cons a m ih =>
    obtain ⟨h1, h2⟩ := List.pairwise_cons.1 hs
    obtain ⟨g1, g2⟩ := ih h2
    rw [insertInt]
    split
    · rename_i hk
      have hlt : ∀ x ∈ a :: m, k < x.1 := by
        intro x hx
        rcases List.mem_cons.1 hx with rfl | hx
        · exact hk
        · exact hk.trans (h1 x hx)
      refine ⟨List.pairwise_cons.2 ⟨hlt, hs⟩, fun e => ?_⟩
      rw [List.mem_cons]
      constructor
      · rintro (h | h)
        · exact .inr ⟨h, fun x hx => (hlt x hx).ne'⟩
        · exact .inl h
      · rintro (h | h)
        · exact .inr h
        · exact .inl h.1
    · split
      · rename_i hk
        refine ⟨hs, fun e => ⟨.inl, ?_⟩⟩
        rintro (h | h)
        · exact h
        · exact absurd hk.symm (h.2 a (by simp))
      · rename_i hk hk2
        refine ⟨List.pairwise_cons.2 ⟨?_, g1⟩, fun e => ?_⟩
        · intro x hx
          rcases (g2 x).1 hx with hx | ⟨rfl, -⟩
          · exact h1 x hx
          · change a.1 < k
            omega
        · rw [List.mem_cons, g2, List.mem_cons]
          constructor
          · rintro (h | h | ⟨h, h'⟩)
            · exact .inl (.inl h)
            · exact .inl (.inr h)
            · refine .inr ⟨h, fun x hx => ?_⟩
              rcases List.mem_cons.1 hx with rfl | hx
              · exact fun h => hk2 h.symm
              · exact h' x hx
          · rintro ((h | h) | ⟨h, h'⟩)
            · exact .inl h
            · exact .inr (.inl h)
            · exact .inr (.inr ⟨h, fun x hx => h' x (by simp [hx])⟩)

/-- Among the entries with the same image there is one with the least number. -/
theorem least_of (l : List (ℕ × ℝ)) (f : ℕ × ℝ → ℤ) (y : ℕ × ℝ) (hy : y ∈ l) :
    ∃ x ∈ l, f x = f y ∧ ∀ z ∈ l, z.1 < x.1 → f z ≠ f x := by
  obtain ⟨n, hn⟩ : ∃ n, n = y.1 := ⟨_, rfl⟩
  induction n using Nat.strong_induction_on generalizing y with
  | _ n ih =>
    by_cases hc : ∀ z ∈ l, z.1 < y.1 → f z ≠ f y
    · exact ⟨y, hy, rfl, hc⟩
    · push Not at hc
      obtain ⟨z, hz, hzy, hze⟩ := hc
      obtain ⟨x, h1, h2, h3⟩ := ih z.1 (by omega) z hz rfl
      exact ⟨x, h1, h2.trans hze, h3⟩

/-- C119: of the particles near a sightline whose numbers are the same in 32 bits, only the first is kept, under the number it has in 32 bits. -/
theorem near_first {lines : List Line} {box : ℝ} {ps : List (Vec3 × ℝ)} {i : ℕ} {m : StdMap ℝ} {out : List (ℤ × ℝ)}
    (hm : (get_near_particles (build lines box) ps)[i]? = some m) (ho : (nearInts (build lines box) ps)[i]? = some out) (k : ℤ) (d : ℝ) :
    (k, d) ∈ out ↔ -2 ^ 31 ≤ k ∧ k < 2 ^ 31 ∧ ∃ j, (j, d) ∈ m ∧ (2 ^ 32 : ℤ) ∣ (j : ℤ) - k ∧ ∀ e ∈ m, e.1 < j → ¬ (2 ^ 32 : ℤ) ∣ (e.1 : ℤ) - k := by
  have hsort : m.Sorted := by
    rw [near_eq] at hm
    have hil : i < lines.length := by
      by_contra hc
      rw [List.getElem?_eq_none (by simp; omega)] at hm
      cases hm
    rw [List.getElem?_map, List.getElem?_range hil] at hm
    cases hm
    exact nearList_sorted _ _ _
  unfold nearInts at ho
  rw [List.getElem?_map, hm] at ho
  have ho : m.foldl (fun acc e => insertInt acc (narrow (e.1 : ℤ)) e.2) [] = out := Option.some.inj ho
  have key : ∀ l : List (ℕ × ℝ), l.Pairwise (·.1 < ·.1) →
      (l.foldl (fun acc e => insertInt acc (narrow (e.1 : ℤ)) e.2) []).Pairwise (·.1 < ·.1) ∧
      ∀ e, e ∈ l.foldl (fun acc e => insertInt acc (narrow (e.1 : ℤ)) e.2) [] ↔
        ∃ x ∈ l, e = (narrow (x.1 : ℤ), x.2) ∧ ∀ y ∈ l, y.1 < x.1 → narrow (y.1 : ℤ) ≠ narrow (x.1 : ℤ) := by
    intro l
    induction l using List.reverseRecOn with
    | nil => intro _; simp
    | append_singleton l a ih =>
      intro hl
      obtain ⟨h1, -, h2⟩ := List.pairwise_append.1 hl
      obtain ⟨g1, g2⟩ := ih h1
      obtain ⟨k1, k2⟩ := insertInt_mem g1 (narrow (a.1 : ℤ)) a.2
      rw [List.foldl_append, List.foldl_cons, List.foldl_nil]
      refine ⟨k1, fun e => ?_⟩
      rw [k2]
      have hlt : ∀ x ∈ l, x.1 < a.1 := fun x hx => h2 x hx a (by simp)
      constructor
      · rintro (h | ⟨h, h'⟩)
        · obtain ⟨x, hx, he, hf⟩ := (g2 e).1 h
          refine ⟨x, by simp [hx], he, fun y hy hyx => ?_⟩
          rcases List.mem_append.1 hy with hy | hy
          · exact hf y hy hyx
          · rw [List.mem_singleton] at hy
            subst hy
            exact absurd (hlt x hx) (by omega)
        · refine ⟨a, by simp, h, fun y hy hya => ?_⟩
          rcases List.mem_append.1 hy with hy | hy
          · intro heq
            obtain ⟨x, hx, hxa, hxf⟩ := least_of l (fun z : ℕ × ℝ => narrow (z.1 : ℤ)) y hy
            have hxa := hxa.trans heq
            exact h' (narrow (x.1 : ℤ), x.2) ((g2 _).2 ⟨x, hx, rfl, hxf⟩) hxa
          · rw [List.mem_singleton] at hy
            subst hy
            exact absurd hya (lt_irrefl _)
      · rintro ⟨x, hx, he, hf⟩
        rcases List.mem_append.1 hx with hx | hx
        · exact .inl ((g2 e).2 ⟨x, hx, he, fun y hy => hf y (by simp [hy])⟩)
        · rw [List.mem_singleton] at hx
          subst hx
          refine .inr ⟨he, fun y hy => ?_⟩
          obtain ⟨z, hz, rfl, -⟩ := (g2 y).1 hy
          exact hf z (by simp [hz]) (hlt z hz)
  have hn := fun n => narrow_iff n k
  rw [← ho, (key m hsort).2]
  constructor
  · rintro ⟨x, hx, he, hf⟩
    obtain ⟨h1, h2⟩ := Prod.mk.inj he
    obtain ⟨g1, g2, g3⟩ := (hn _).1 h1.symm
    refine ⟨g1, g2, x.1, by rw [h2]; exact hx, g3, fun e hem hlt hd => hf e hem hlt ?_⟩
    rw [← h1]
    exact (hn _).2 ⟨g1, g2, hd⟩
  · rintro ⟨g1, g2, j, hj, g3, hf⟩
    have hjk := (hn _).2 ⟨g1, g2, g3⟩
    refine ⟨(j, d), hj, by rw [hjk], fun y hy hyj heq => hf y hy hyj ?_⟩
    exact ((hn _).1 (heq.trans hjk)).2.2

theorem bind_error {α β : Type} (e : Halt) (f : α → MRes β) : ((Except.error e : MRes α) >>= f) = .error e := rfl

theorem int_bad {z : ℤ} (h : z < -2 ^ 31 ∨ 2 ^ 31 ≤ z) : MachineInts.int z = .error .undefined := by
  unfold MachineInts.int
  rw [if_neg (by omega)]

theorem int_bind_undefined {β : Type} (z : ℤ) {f : ℤ → MRes β} (h : f z = .error .undefined) : (MachineInts.int z >>= f) = .error .undefined := by
  unfold MachineInts.int
  split
  · exact h
  · rfl

theorem add_colden_far {L : LineAbsorption} (hk : L.kernel ≠ VORONOI_MESH) {nbins : ℕ} {d pos h : ℝ} (hd : d < h ^ 2)
    (hx : 2 ^ 31 - 2 < (pos + √(h * h - d)) / (L.vbox / nbins / L.velfac)) (hv : 0 ≤ L.vbox / nbins / L.velfac) (a : List ℝ) (off : ℕ) (dens : ℝ) :
    add_colden L a off nbins d dens pos h = .error .undefined := by
  unfold add_colden
  simp only [hk, false_and, if_false, ne_eq, not_false_eq_true, true_and]
  rw [if_neg (by nlinarith)]
  apply int_bind_undefined
  apply int_bind_undefined
  have h1 : (2 : ℤ) ^ 31 - 1 ≤ ⌈(pos + √(h * h - d)) / (L.vbox / nbins / L.velfac)⌉ := by
    have : (2 : ℤ) ^ 31 - 2 < ⌈(pos + √(h * h - d)) / (L.vbox / nbins / L.velfac)⌉ := by
      rw [Int.lt_ceil]
      have e : (((2 : ℤ) ^ 31 - 2 : ℤ) : ℝ) = 2 ^ 31 - 2 := by push_cast; norm_num
      rw [e]
      exact hx
    omega
  have h2 : ⌊(pos - √(h * h - d)) / (L.vbox / nbins / L.velfac)⌋ ≤ ⌈(pos + √(h * h - d)) / (L.vbox / nbins / L.velfac)⌉ := by
    have h3 : (pos - √(h * h - d)) / (L.vbox / nbins / L.velfac) ≤ (pos + √(h * h - d)) / (L.vbox / nbins / L.velfac) := by
      apply div_le_div_of_nonneg_right _ hv
      have := Real.sqrt_nonneg (h * h - d)
      linarith
    exact (Int.floor_le_ceil _).trans (Int.ceil_le_ceil h3)
  rw [if_pos h2, int_bad (by omega)]
  rfl

theorem add_tau_far {L : LineAbsorption} (hk : L.kernel ≠ VORONOI_MESH) {nbins : ℕ} {d pos vel h : ℝ} (hd : d < h ^ 2)
    (hx : ⌊(L.velfac * pos + vel) / (L.vbox / nbins)⌋ < -2 ^ 31 ∨ 2 ^ 31 ≤ ⌊(L.velfac * pos + vel) / (L.vbox / nbins)⌋ + (nbins / 2 : ℕ))
    (a : List ℝ) (off : ℕ) (dens temp : ℝ) :
    add_tau L a off nbins d dens pos vel temp h = .error .undefined := by
  unfold add_tau
  simp only [hk, false_and, if_false, ne_eq, not_false_eq_true, true_and]
  rw [if_neg (by nlinarith)]
  rcases hx with hx | hx
  · rw [int_bad (.inl hx)]
    rfl
  · apply int_bind_undefined
    rw [int_bad (by right; push_cast at hx; exact hx)]
    rfl

/-- The contribution of every near particle is computed. -/
theorem row_step {get_tau : Bool} {L : LineAbsorption} (hk : L.kernel ≠ VORONOI_MESH) {nbins : ℕ} {box : ℝ} (hb : 0 < box) {lines : List Line}
    (hl : ∀ l ∈ lines, GoodLine box l) {parts : List Part} (hlen : 3 * parts.length < 2 ^ 31) {i j : ℕ} {l : Line} {p : Part}
    (hi : lines[i]? = some l) (hj : parts[j]? = some p) (hp : GoodPart box (p.pos, p.h)) (hd : transDist2 box l.axis p.pos l.cofm < p.h ^ 2)
    {out : List ℝ} (h : MachineInts.interpolate get_tau L nbins box lines parts = .ok out) :
    ∃ a off c, (if get_tau then
      add_tau L a off nbins (transDist2 box l.axis p.pos l.cofm) p.dens (along p.pos l.axis) (along p.vel l.axis) p.temp p.h
      else add_colden L a off nbins (transDist2 box l.axis p.pos l.cofm) p.dens (along p.pos l.axis) p.h) = .ok c := by
  have hil : i < lines.length := by
    by_contra hc
    rw [List.getElem?_eq_none (by omega)] at hi
    cases hi
  have hax := (hl l (List.mem_of_getElem? hi)).1
  unfold MachineInts.interpolate at h
  split at h
  · cases h
  split at h
  · cases h
  unfold MachineInts.int at h
  split at h
  swap
  · cases h
  rw [ok_bindM] at h
  unfold rows at h
  simp only at h
  rw [nearInts_eq _ _ _ (by simp only [posH, List.length_map]; omega), List.length_map, List.length_range] at h
  obtain ⟨b, c, hs⟩ := foldlM_step _ _ _ _ h (List.mem_range.2 hil)
  rw [readAt_eq (x := (nearList (build lines box) (posH parts) i).map (fun e => ((e.1 : ℤ), e.2))) (by
      rw [List.getElem?_map, List.getElem?_range hil]; rfl), readAt_eq hi, fromC_ok_bind, fromC_ok_bind, readable_eq hk hax _ (by
      intro e he
      have := nearList_lt he
      simp only [posH, List.length_map] at this
      omega), ok_bindM] at hs
  have e : lineEntries L.kernel box l parts (nearList (build lines box) (posH parts) i) =
      .ok ((nearList (build lines box) (posH parts) i).map (fun e => (e, ((0 : ℝ), (0 : ℝ))))) := by
    unfold lineEntries
    rw [if_neg hk]
  rw [cellInts_no hk, ok_bindM, e, fromC_ok_bind] at hs
  have hm : (j, transDist2 box l.axis p.pos l.cofm) ∈ nearList (build lines box) (posH parts) i := by
    rw [StdMap.mem_iff_find? (nearList_sorted _ _ _), find?_nearList]
    have : (posH parts)[j]? = some (p.pos, p.h) := by
      unfold posH
      rw [List.getElem?_map, hj]
      rfl
    rw [this]
    exact near_line_found hb hl hp hi hd
  cases get_tau with
  | false =>
    rw [if_neg (by simp)] at hs
    unfold coldenRow at hs
    obtain ⟨a, c, hc⟩ := foldlM_step _ _ _ _ hs (List.mem_map_of_mem hm)
    dsimp only at hc
    rw [readAt_eq hj, fromC_ok_bind, coord_eq hax, fromC_ok_bind, if_neg hk] at hc
    exact ⟨a, _, c, by rw [if_neg (by simp)]; exact hc⟩
  | true =>
    rw [if_pos rfl] at hs
    unfold tauRow at hs
    obtain ⟨a, c, hc⟩ := foldlM_step _ _ _ _ hs (List.mem_map_of_mem hm)
    dsimp only at hc
    rw [readAt_eq hj, fromC_ok_bind, coord_eq hax, fromC_ok_bind, coord_eq hax, fromC_ok_bind, if_neg hk] at hc
    exact ⟨a, _, c, by rw [if_pos rfl]; exact hc⟩

/-- C119: column densities of a particle which reaches beyond pixel `2 ^ 31 - 2` along a sightline near it are undefined: there is no `int` after the
last pixel at which the loop over them could stop. -/
theorem far_pixels_undefined {L : LineAbsorption} (hk : L.kernel ≠ VORONOI_MESH) {nbins : ℕ} {box : ℝ} (hb : 0 < box) (hv : 0 < L.velfac)
    (hvb : L.vbox = box * L.velfac) {lines : List Line} (hl : ∀ l ∈ lines, GoodLine box l) {parts : List Part} (hlen : 3 * parts.length < 2 ^ 31)
    {i j : ℕ} {l : Line} {p : Part} (hi : lines[i]? = some l) (hj : parts[j]? = some p) (hp : GoodPart box (p.pos, p.h))
    (hd : transDist2 box l.axis p.pos l.cofm < p.h ^ 2)
    (hx : 2 ^ 31 - 2 < (along p.pos l.axis + √(p.h ^ 2 - transDist2 box l.axis p.pos l.cofm)) / (box / nbins)) (out : List ℝ) :
    MachineInts.interpolate false L nbins box lines parts ≠ .ok out := by
  intro h
  obtain ⟨a, off, c, hc⟩ := row_step hk hb hl hlen hi hj hp hd h
  have hbk : L.vbox / nbins / L.velfac = box / nbins := by
    rw [hvb]
    field_simp
  rw [if_neg (by simp), add_colden_far hk hd (by rw [hbk, ← sq]; exact hx) (by rw [hbk]; positivity)] at hc
  cases hc

/-- C119: optical depths are undefined if a particle near a sightline has a velocity that takes its pixel, or the last pixel of the loop that starts
there, out of the range of an `int`. -/
theorem fast_particles_undefined {L : LineAbsorption} (hk : L.kernel ≠ VORONOI_MESH) {nbins : ℕ} {box : ℝ} (hb : 0 < box)
    {lines : List Line} (hl : ∀ l ∈ lines, GoodLine box l) {parts : List Part} (hlen : 3 * parts.length < 2 ^ 31)
    {i j : ℕ} {l : Line} {p : Part} (hi : lines[i]? = some l) (hj : parts[j]? = some p) (hp : GoodPart box (p.pos, p.h))
    (hd : transDist2 box l.axis p.pos l.cofm < p.h ^ 2)
    (hx : ⌊(L.velfac * along p.pos l.axis + along p.vel l.axis) / (L.vbox / nbins)⌋ < -2 ^ 31 ∨
      2 ^ 31 ≤ ⌊(L.velfac * along p.pos l.axis + along p.vel l.axis) / (L.vbox / nbins)⌋ + (nbins / 2 : ℕ)) (out : List ℝ) :
    MachineInts.interpolate true L nbins box lines parts ≠ .ok out := by
  intro h
  obtain ⟨a, off, c, hc⟩ := row_step hk hb hl hlen hi hj hp hd h
  rw [if_pos rfl, add_tau_far hk hd hx] at hc
  cases hc

/-! ### Concrete cases -/

/-- `n` times the same sightline. -/
def exLines (n : ℕ) : List Line := List.replicate n exLine

/-- The particle near it. -/
def exGas : List Part := [⟨exPart.1, ![1, 2, 3], 1, 1e4, exPart.2⟩]

/-- As many sightlines as one likes. -/
theorem exFits (get_tau : Bool) {n : ℕ} (hn : 3 * n ≤ 2 ^ 31) : Fits get_tau (exAbs 0) 65536 10 (exLines n) exGas where
  kernel := by change (0 : ℤ) ≠ 2; decide
  pos_box := by norm_num
  velfac := by norm_num [exAbs]
  vbox := by norm_num [exAbs]
  good_lines := by
    intro l hl
    rw [List.eq_of_mem_replicate hl]
    exact exLine_good
  good_parts := by
    intro p hp
    rw [List.mem_singleton.1 hp]
    exact exPart_good
  pos_nbins := by norm_num
  pixels := by norm_num
  shifted := by
    intro _ p hp k
    rw [List.mem_singleton.1 hp]
    fin_cases k <;> norm_num [exAbs]
  numLos := by simpa [exLines] using hn
  npart := by simp [exGas]

/-- 65536 sightlines of 65536 pixels are right. -/
example := sizes_partial (exFits true (n := 65536) (by norm_num)) (by rw [exLines, List.length_replicate]; norm_num)

/-- Of 65538 sightlines of 65536 pixels the last has no optical depth, whatever the gas. -/
example := late_rows_empty (exFits true (n := 65538) (by norm_num)) (m := 65537 * 65536 + 5) (by norm_num)
  (by rw [exLines, List.length_replicate]; norm_num)

/-- Copies of the particle. Not one of those after the 715827882nd can be dealt with. -/
example (out : List ℝ) : MachineInts.interpolate true (exAbs 0) 65536 10 (exLines 2) (List.replicate 715827884 ⟨exPart.1, ![1, 2, 3], 1, 1e4, exPart.2⟩) ≠
    .ok out := by
  refine late_particles_undefined true (exAbs 0) 65536 (box := 10) (by norm_num) (lines := exLines 2) (exFits true (n := 2) (by norm_num)).good_lines
    (i := 1) (j := 715827883) (l := exLine) (p := ⟨exPart.1, ![1, 2, 3], 1, 1e4, exPart.2⟩) ?_ ?_ ?_ exPart_good ?_ (by norm_num) out
  · rw [List.length_replicate]
    norm_num
  · rw [exLines, List.getElem?_replicate, if_pos (by norm_num)]
  · rw [List.getElem?_replicate, if_pos (by norm_num)]
  · change transDist2 10 exLine.axis exPart.1 exLine.cofm < exPart.2 ^ 2
    rw [exDist]
    norm_num [exPart]

/-- The search with two sightlines and as many particles as there are numbers. -/
example : MachineInts.near_lines 10 (List.replicate (2 ^ 31) exPart) (exLines 2) =
    .ok ((IndexTable.near_lines 10 (List.replicate (2 ^ 31) exPart) (exLines 2)).map (fun (n : ℕ) => (n : ℤ))) :=
  near_sizes_partial (by rw [exLines, List.length_replicate]; norm_num) (by rw [List.length_replicate])

/-- C119: one particle more, which is near a sightline and is not in the result. -/
theorem late_particle_lost : 2 ^ 31 ∈ IndexTable.near_lines 10 (List.replicate (2 ^ 31 + 1) exPart) (exLines 2) ∧
    ∃ out, MachineInts.near_lines 10 (List.replicate (2 ^ 31 + 1) exPart) (exLines 2) = .ok out ∧ ((2 ^ 31 : ℕ) : ℤ) ∉ out := by
  constructor
  · unfold IndexTable.near_lines
    rw [mem_near_lines_sched, List.mem_range, List.length_replicate]
    refine ⟨Nat.lt_succ_self _, exPart, by rw [List.getElem?_replicate, if_pos (Nat.lt_succ_self _)], ?_⟩
    have := near_line_found (box := 10) (by norm_num) (lines := exLines 2) (exFits true (n := 2) (by norm_num)).good_lines exPart_good (k := 0)
      (l := exLine) (by rw [exLines, List.getElem?_replicate, if_pos (by norm_num)]) (by rw [exDist]; norm_num [exPart])
    exact (find?_exists_iff (get_near_lines_sorted _ _ _)).2 ⟨0, _, this⟩
  · have hl : (exLines 2).length = 2 := by rw [exLines, List.length_replicate]
    have e : ∃ out, MachineInts.near_lines 10 (List.replicate (2 ^ 31 + 1) exPart) (exLines 2) = .ok out := by
      unfold MachineInts.near_lines
      rw [hl, if_neg (by rw [narrow_small (by norm_num) (by norm_num)]; simp), int_ok (by norm_num) (by norm_num), ok_bindM]
      exact ⟨_, rfl⟩
    obtain ⟨out, e⟩ := e
    exact ⟨out, e, late_particles_lost e le_rfl⟩

/-- More sightlines than there are numbers. -/
example := (too_many_raise true (exAbs 0) 65536 10 (exLines (2 ^ 31)) exGas).2.1 (by norm_num) (by rw [exLines, List.length_replicate])

/-- C119: the last of 65538 sightlines has a column density, and the result has none. -/
theorem late_rows_wrong : ∃ right out, exact false (exAbs 0) 65536 10 (exLines 65538) exGas = .ok right ∧
    MachineInts.interpolate false (exAbs 0) 65536 10 (exLines 65538) exGas = .ok out ∧
    0 < (lineSpectrum right 65536 65537).sum ∧ ∀ j < 65536, out.getD (65537 * 65536 + j) 0 = 0 := by
  have hf := exFits false (n := 65538) (by norm_num)
  have hlen : (exLines 65538).length = 65538 := by rw [exLines, List.length_replicate]
  obtain ⟨right, h1, h2⟩ := total_column_tophat (exAbs 0) (exAbs_good 0) rfl hf.pos_nbins hf.pos_box hf.good_lines hf.good_parts
  obtain ⟨_, out, -, h3, h4⟩ := interpolate_wrapped hf
  refine ⟨right, out, ?_, h3, ?_, ?_⟩
  · unfold exact
    rw [if_neg (by simp)]
    exact h1
  · rw [h2 65537 exLine (by rw [exLines, List.getElem?_replicate, if_pos (by norm_num)])]
    have hd : transDist2 10 exLine.axis (exPart.1) exLine.cofm < exPart.2 ^ 2 := by
      rw [exDist]
      norm_num [exPart]
    unfold exGas
    rw [List.filter_cons, if_pos (by simpa using hd), List.filter_nil, List.map_singleton, List.sum_singleton, exDist,
      chordLength_eq (by norm_num [exPart])]
    have := Real.pi_pos
    have h3 : (0 : ℝ) < √(exPart.2 ^ 2 - 1) := Real.sqrt_pos.2 (by norm_num [exPart])
    positivity
  · intro j hj
    obtain ⟨out', e1, e2⟩ := late_rows_empty hf (m := 65537 * 65536 + j) (by omega) (by rw [hlen]; omega)
    rw [h3] at e1
    rw [Except.ok.inj e1]
    exact e2

/-- A particle close to the upper end of the sightline. -/
def exTop : Part := ⟨![0.5, 5, 9.5], ![1, 2, 3], 1, 1e4, 2⟩

theorem exTop_good : GoodPart 10 (exTop.pos, exTop.h) := by
  refine ⟨fun i => ?_, by norm_num [exTop], by norm_num [exTop]⟩
  fin_cases i <;> simp [exTop] <;> norm_num

theorem exTop_dist : transDist2 10 exLine.axis exTop.pos exLine.cofm = 1 := by
  rw [← exDist]
  unfold transDist2
  apply Finset.sum_congr rfl
  intro k _
  fin_cases k <;> simp [exTop, exPart, exLine]

/-- It reaches beyond the last pixel if there are as many as possible. -/
example (out : List ℝ) : MachineInts.interpolate false (exAbs 0) 2147483647 10 (exLines 2) [exTop] ≠ .ok out := by
  refine far_pixels_undefined (by change (0 : ℤ) ≠ 2; decide) (box := 10) (by norm_num) (by norm_num [exAbs]) (by norm_num [exAbs])
    (lines := exLines 2) (exFits true (n := 2) (by norm_num)).good_lines (by norm_num) (i := 1) (j := 0) (l := exLine) (p := exTop) ?_ rfl exTop_good ?_ ?_ out
  · rw [exLines, List.getElem?_replicate, if_pos (by norm_num)]
  · rw [exTop_dist]
    norm_num [exTop]
  · rw [exTop_dist]
    have h1 : along exTop.pos exLine.axis = 9.5 := by simp [along, exTop, exLine]
    have h2 : (1 : ℝ) ≤ √(exTop.h ^ 2 - 1) := by
      rw [Real.one_le_sqrt]
      norm_num [exTop]
    rw [h1, lt_div_iff₀ (by norm_num)]
    push_cast
    nlinarith

/-- A particle with a velocity of a thousand million boxes. -/
example (out : List ℝ) : MachineInts.interpolate true (exAbs 0) 65536 10 (exLines 2) [⟨exPart.1, ![1, 2, 1e10], 1, 1e4, exPart.2⟩] ≠ .ok out := by
  refine fast_particles_undefined (by change (0 : ℤ) ≠ 2; decide) (box := 10) (by norm_num)
    (lines := exLines 2) (exFits true (n := 2) (by norm_num)).good_lines (by norm_num) (i := 1) (j := 0) (l := exLine)
    (p := ⟨exPart.1, ![1, 2, 1e10], 1, 1e4, exPart.2⟩) ?_ rfl exPart_good ?_ (.inr ?_) out
  · rw [exLines, List.getElem?_replicate, if_pos (by norm_num)]
  · change transDist2 10 exLine.axis exPart.1 exLine.cofm < exPart.2 ^ 2
    rw [exDist]
    norm_num [exPart]
  · have h1 : along exPart.1 exLine.axis = 3 := by simp [along, exPart, exLine]
    have h2 : along (![1, 2, 1e10] : Vec3) exLine.axis = 1e10 := by simp [along, exLine]
    have h3 : (2 : ℤ) ^ 31 ≤ ⌊((exAbs 0).velfac * along exPart.1 exLine.axis + along (![1, 2, 1e10] : Vec3) exLine.axis) / ((exAbs 0).vbox / (65536 : ℕ))⌋ := by
      rw [h1, h2, Int.le_floor]
      norm_num [exAbs]
    exact h3.trans (by simp)

/-- The particle that is lost has become number `-2 ^ 31`. -/
example : ∃ out, MachineInts.near_lines 10 (List.replicate (2 ^ 31 + 1) exPart) (exLines 2) = .ok out ∧ (-2 ^ 31 : ℤ) ∈ out := by
  obtain ⟨out, h1, -, h2⟩ := near_narrowed (box := 10) (ps := List.replicate (2 ^ 31 + 1) exPart) (lines := exLines 2)
    (by rw [exLines, List.length_replicate]; norm_num)
  exact ⟨out, h1, (h2 _).2 ⟨le_rfl, by norm_num, 2 ^ 31, late_particle_lost.1, by norm_num⟩⟩

/-- Two particles near the first sightline. -/
example (k : ℤ) (d : ℝ) := near_first (lines := exLines 2) (box := 10) (ps := [exPart, exPart]) (i := 0)
  (by rw [near_eq, List.getElem?_map, List.getElem?_range (by rw [exLines, List.length_replicate]; norm_num)]; rfl)
  (by rw [nearInts, near_eq, List.map_map, List.getElem?_map, List.getElem?_range (by rw [exLines, List.length_replicate]; norm_num)]; rfl) k d

end Verif.Props.MachineInts
