import Verif.Model.FluxPower3D
import Verif.Lemmas.Numpy
import Verif.Props.Catalogue

/-!
C79: the three dimensional flux power spectrum.

`Holds box mesh p v`: the mesh handed to nbodykit has the value `v` at the position `p`. `dot` is the scalar product of the line of sight
with a displacement.
-/

namespace Verif.Props.FluxPower3D
open Verif Verif.Np Verif.FluxStats Verif.FluxPower3D Verif.Catalogue

/-- The mesh has the value `v` at `p`: cell `(x, y, z)` of an array of shape `(a, b, c)` lies at `(x/a, y/b, z/c)` of the box. -/
def Holds (box : ℝ) : Mesh → ℝ × ℝ × ℝ → ℝ → Prop
  | .array (a, b, c) values, p, v => ∃ x y z : ℕ, x < a ∧ y < b ∧ z < c ∧
      p = ((x : ℝ) * box / a, (y : ℝ) * box / b, (z : ℝ) * box / c) ∧ values[(x * b + y) * c + z]? = some v
  | .catalog _ position values, p, v => (p, v) ∈ position.zip values

/-- The scalar product of a line of sight and a vector. -/
def dot (los : List ℝ) (d : ℝ × ℝ × ℝ) : ℝ := los.getD 0 0 * d.1 + los.getD 1 0 * d.2.1 + los.getD 2 0 * d.2.2

theorem flatten_get {α : Type} {m : ℕ} (L : List (List α)) (h : ∀ r ∈ L, r.length = m) (i : ℕ) {j : ℕ} (hj : j < m) :
    L.flatten[i * m + j]? = L[i]?.bind (fun r => r[j]?) := by
  induction L generalizing i with
  | nil => simp
  | cons r L ih =>
    have hr := h r (by simp)
    rw [List.flatten_cons]
    cases i with
    | zero => rw [Nat.zero_mul, Nat.zero_add, List.getElem?_append_left (by omega)]; rfl
    | succ i =>
      rw [List.getElem?_append_right (by rw [hr, Nat.succ_mul]; omega), hr]
      have : (i + 1) * m + j - m = i * m + j := by rw [Nat.succ_mul]; omega
      rw [this, ih (fun r hr => h r (by simp [hr]))]
      rfl

theorem flatten_length {α : Type} {m : ℕ} (L : List (List α)) (h : ∀ r ∈ L, r.length = m) : L.flatten.length = L.length * m := by
  induction L with
  | nil => simp
  | cons r L ih =>
    rw [List.flatten_cons, List.length_append, ih (fun r hr => h r (by simp [hr])), h r (by simp), List.length_cons, Nat.succ_mul]
    omega

/-- The coordinates as rows of pixels. -/
theorem coords_eq (nt npix : ℕ) (box : ℝ) : coords nt npix box =
    ((List.range nt).flatMap (fun (x : ℕ) => (List.range nt).map (fun (y : ℕ) => (List.range npix).map (fun (z : ℕ) =>
      ((x : ℝ) * box / nt, (y : ℝ) * box / nt, (z : ℝ) * box / npix))))).flatten := by
  unfold coords
  rw [List.flatMap_def, List.flatMap_def, List.flatten_flatten, List.map_map]
  congr 1

theorem coords_rows_length (nt : ℕ) {β : Type} (f : ℕ → ℕ → β) :
    ((List.range nt).flatMap (fun (x : ℕ) => (List.range nt).map (fun (y : ℕ) => f x y))).length = nt * nt := by simp

theorem coords_length (nt npix : ℕ) (box : ℝ) : (coords nt npix box).length = nt * nt * npix := by
  unfold coords; simp [Nat.mul_assoc]

theorem grid_get {β : Type} (nt : ℕ) (f : ℕ → ℕ → β) {x y : ℕ} (hx : x < nt) (hy : y < nt) :
    ((List.range nt).flatMap (fun (x : ℕ) => (List.range nt).map (fun (y : ℕ) => f x y)))[x * nt + y]? = some (f x y) := by
  rw [List.flatMap_def, flatten_get (m := nt) _ (by intro r hr; obtain ⟨i, -, rfl⟩ := List.mem_map.1 hr; simp) x hy, List.getElem?_map,
    List.getElem?_range hx]
  simp [List.getElem?_range hy]

theorem coords_get {nt npix : ℕ} {box : ℝ} {x y z : ℕ} (hx : x < nt) (hy : y < nt) (hz : z < npix) :
    (coords nt npix box)[(x * nt + y) * npix + z]? = some ((x : ℝ) * box / nt, (y : ℝ) * box / nt, (z : ℝ) * box / npix) := by
  rw [coords_eq, flatten_get (m := npix) _ (by
    intro r hr
    obtain ⟨a, -, ha⟩ := List.mem_flatMap.1 hr
    obtain ⟨b, -, rfl⟩ := List.mem_map.1 ha
    simp) _ hz, grid_get nt (fun x y => (List.range npix).map (fun (z : ℕ) =>
      ((x : ℝ) * box / nt, (y : ℝ) * box / nt, (z : ℝ) * box / npix))) hx hy]
  simp [List.getElem?_range hz]

/-- Every index below `nt * nt * npix` is that of a pixel. -/
theorem index_split {nt npix n : ℕ} (h : n < nt * nt * npix) : ∃ x y z, x < nt ∧ y < nt ∧ z < npix ∧ n = (x * nt + y) * npix + z := by
  have hp : 0 < npix := by
    rcases Nat.eq_zero_or_pos npix with rfl | h'
    · simp at h
    · exact h'
  have hq : n / npix < nt * nt := by rw [Nat.div_lt_iff_lt_mul hp]; exact h
  have hnt : 0 < nt := by
    rcases Nat.eq_zero_or_pos nt with rfl | h'
    · simp at hq
    · exact h'
  refine ⟨n / npix / nt, n / npix % nt, n % npix, ?_, Nat.mod_lt _ hnt, Nat.mod_lt _ hp, ?_⟩
  · rw [Nat.div_lt_iff_lt_mul hnt]; exact hq
  · rw [Nat.div_add_mod' (n / npix) nt, Nat.div_add_mod' n npix]

theorem perSide_square (nt : ℕ) : perSide (3 * (nt * nt)) = nt := by
  unfold perSide
  have : ((3 * (nt * nt) : ℕ) : ℝ) / 3 = (nt : ℝ) ^ 2 := by push_cast; ring
  rw [this, Real.sqrt_sq (by positivity), Nat.floor_natCast]

theorem third_eq {rows : List (List ℝ)} {m : ℕ} (h : rows.length = 3 * m) {i : ℕ} (hi : i < 3) :
    third rows i = slice rows (i * m) (i * m + m) := by
  unfold third
  have h1 : i * rows.length / 3 = i * m := by
    rw [h, Nat.mul_left_comm, Nat.mul_div_cancel_left _ (by norm_num)]
  have h2 : (i + 1) * rows.length / 3 = i * m + m := by
    rw [h, Nat.mul_left_comm, Nat.mul_div_cancel_left _ (by norm_num), Nat.succ_mul]
  rw [h1, h2, min_eq_left]
  rw [h]
  interval_cases i <;> omega

/-- The third of the sightlines: number `n` of it is number `i * m + n` of all. -/
theorem third_get {rows : List (List ℝ)} {m : ℕ} (h : rows.length = 3 * m) {i : ℕ} (hi : i < 3) {n : ℕ} (hn : n < m) :
    (third rows i)[n]? = rows[i * m + n]? := by
  rw [third_eq h hi]
  exact slice_get rows (by rw [h]; interval_cases i <;> omega) (by omega)

theorem third_length {rows : List (List ℝ)} {m : ℕ} (h : rows.length = 3 * m) {i : ℕ} (hi : i < 3) : (third rows i).length = m := by
  rw [third_eq h hi, slice_length rows (by rw [h]; interval_cases i <;> omega)]
  omega

theorem mem_third {rows : List (List ℝ)} {i : ℕ} {r : List ℝ} (h : r ∈ third rows i) : r ∈ rows :=
  List.mem_of_mem_take (List.mem_of_mem_drop h)

theorem contrast_length {rows : List (List ℝ)} {npix : ℕ} (hrow : ∀ r ∈ rows, r.length = npix) (F : ℝ) :
    (contrast F rows).length = rows.length * npix := by
  unfold contrast
  rw [List.length_map, flatten_length rows hrow]

/-- The optical depth of sightline `n` at pixel `z`. -/
def tauAt (rows : List (List ℝ)) (n z : ℕ) : Option ℝ := rows[n]?.bind (fun r => r[z]?)

theorem contrast_get {rows : List (List ℝ)} {npix : ℕ} (hrow : ∀ r ∈ rows, r.length = npix) (F : ℝ) (n : ℕ) {z : ℕ} (hz : z < npix) :
    (contrast F rows)[n * npix + z]? = (tauAt rows n z).map (fun t => Real.exp (-t) / F - 1) := by
  unfold contrast tauAt
  rw [List.getElem?_map, flatten_get rows hrow n hz]

/-- C79, what is put on the mesh: for a grid of `nt` by `nt` sightlines along each of the three axes, the mesh of axis `i` has at
`(x, y, z)/(nt, nt, npix)` of the box the flux contrast of pixel `z` of sightline `x * nt + y` of that axis, and nothing else. -/
theorem mesh_holds {nt npix : ℕ} {rows : List (List ℝ)} (hlen : rows.length = 3 * (nt * nt)) (hrow : ∀ r ∈ rows, r.length = npix)
    {i : ℕ} (hi : i < 3) (box F : ℝ) :
    ∃ mesh, meshOf (perSide rows.length) npix box (contrast F (third rows i)) = .ok mesh ∧
      ∀ p v, Holds box mesh p v ↔ ∃ x y z τ, x < nt ∧ y < nt ∧ z < npix ∧ tauAt rows (i * (nt * nt) + (x * nt + y)) z = some τ ∧
        p = ((x : ℝ) * box / nt, (y : ℝ) * box / nt, (z : ℝ) * box / npix) ∧ v = Real.exp (-τ) / F - 1 := by
  have hrow' : ∀ r ∈ third rows i, r.length = npix := fun r hr => hrow r (mem_third hr)
  have hcl : (contrast F (third rows i)).length = nt * nt * npix := by rw [contrast_length hrow', third_length hlen hi]
  have hval : ∀ x y z, x < nt → y < nt → z < npix → (contrast F (third rows i))[(x * nt + y) * npix + z]? =
      (tauAt rows (i * (nt * nt) + (x * nt + y)) z).map (fun t => Real.exp (-t) / F - 1) := by
    intro x y z hx hy hz
    rw [contrast_get hrow' F _ hz]
    unfold tauAt
    rw [third_get hlen hi]
    calc x * nt + y < x * nt + nt := by omega
      _ = (x + 1) * nt := by ring
      _ ≤ nt * nt := Nat.mul_le_mul_right _ hx
  have hside : perSide rows.length = nt := by rw [hlen, perSide_square]
  rw [hside]
  unfold meshOf
  by_cases hn : npix = nt
  · rw [if_pos hn, if_pos hcl]
    refine ⟨_, rfl, fun p v => ?_⟩
    constructor
    · rintro ⟨x, y, z, hx, hy, hz, hp, hv⟩
      rw [hval x y z hx hy hz] at hv
      obtain ⟨τ, h1, h2⟩ := Option.map_eq_some_iff.1 hv
      exact ⟨x, y, z, τ, hx, hy, hz, h1, hp, h2.symm⟩
    · rintro ⟨x, y, z, τ, hx, hy, hz, h1, hp, rfl⟩
      exact ⟨x, y, z, hx, hy, hz, hp, by rw [hval x y z hx hy hz, h1]; rfl⟩
  · rw [if_neg hn, if_pos (by rw [coords_length, hcl])]
    refine ⟨_, rfl, fun p v => ?_⟩
    change (p, v) ∈ (coords nt npix box).zip (contrast F (third rows i)) ↔ _
    constructor
    · intro h
      obtain ⟨n, hn, he⟩ := List.mem_iff_getElem.1 h
      rw [List.length_zip, coords_length, hcl, min_self] at hn
      obtain ⟨x, y, z, hx, hy, hz, rfl⟩ := index_split hn
      have h2 : ((coords nt npix box).zip (contrast F (third rows i)))[(x * nt + y) * npix + z]? = some (p, v) := by
        rw [List.getElem?_eq_getElem (by rw [List.length_zip, coords_length, hcl, min_self]; exact hn), he]
      rw [List.getElem?_zip_eq_some, coords_get hx hy hz, hval x y z hx hy hz] at h2
      obtain ⟨τ, h3, h4⟩ := Option.map_eq_some_iff.1 h2.2
      exact ⟨x, y, z, τ, hx, hy, hz, h3, (Option.some.inj h2.1).symm, h4.symm⟩
    · rintro ⟨x, y, z, τ, hx, hy, hz, h1, rfl, rfl⟩
      apply List.mem_of_getElem? (i := (x * nt + y) * npix + z)
      rw [List.getElem?_zip_eq_some, coords_get hx hy hz, hval x y z hx hy hz, h1]
      exact ⟨rfl, rfl⟩

/-- C79, the sightlines: of the grid along all axes, sightline `i * nt² + x * nt + y` runs along axis `i + 1`, through the point of the grid
numbered `(x, y)` in the other two coordinates. -/
theorem grid_order {box : ℝ} {nt : ℕ} {i x y : ℕ} (hi : i < 3) (hx : x < nt) (hy : y < nt) :
    ∃ r, get_axes_and_cofm box nt (-1) = .ok r ∧
      r.1[i * (nt * nt) + (x * nt + y)]? = some ((i + 1 : ℕ) : ℝ) ∧
      r.2[i * (nt * nt) + (x * nt + y)]? = some (gridPos (box / nt) (i + 1) x y) := by
  have hlt : x * nt + y < nt * nt :=
    calc x * nt + y < x * nt + nt := by omega
      _ = (x + 1) * nt := by ring
      _ ≤ nt * nt := Nat.mul_le_mul_right _ hx
  unfold get_axes_and_cofm
  dsimp only
  rw [if_neg (by norm_num : ¬((-1 : ℤ) = 1)), if_neg (by norm_num : ¬((-1 : ℤ) = 2)), if_neg (by norm_num : ¬((-1 : ℤ) = 3)),
    if_pos (by norm_num : (-1 : ℤ) < 0), if_pos (by norm_num : (-1 : ℤ) < 0)]
  refine ⟨_, rfl, ?_, ?_⟩
  · interval_cases i
    · rw [Nat.zero_mul, Nat.zero_add, List.append_assoc, List.getElem?_append_left (by simpa using hlt), List.getElem?_replicate,
        if_pos hlt]
      norm_num
    · rw [Nat.one_mul, List.append_assoc, List.getElem?_append_right (by simp), List.length_replicate, Nat.add_sub_cancel_left,
        List.getElem?_append_left (by simpa using hlt), List.getElem?_replicate, if_pos hlt]
      norm_num
    · rw [List.getElem?_append_right (by simp; omega), List.length_append, List.length_replicate, List.length_replicate,
        show 2 * (nt * nt) + (x * nt + y) - (nt * nt + nt * nt) = x * nt + y by omega, List.getElem?_replicate, if_pos hlt]
      norm_num
  · have hg : (gridPairs nt)[x * nt + y]? = some (x, y) := grid_get nt (fun x y => (x, y)) hx hy
    have hl := gridPairs_length nt
    have hone : box / (1 * (nt : ℝ)) = box / nt := by rw [one_mul]
    interval_cases i
    · rw [Nat.zero_mul, Nat.zero_add, List.getElem?_map, List.append_assoc, List.getElem?_append_left (by rw [List.length_map, hl]; exact hlt),
        List.getElem?_map, hg, hone]
      simp [gridPos]
    · rw [Nat.one_mul, List.getElem?_map, List.append_assoc, List.getElem?_append_right (by rw [List.length_map, hl]; omega), List.length_map,
        hl, Nat.add_sub_cancel_left, List.getElem?_append_left (by rw [List.length_map, hl]; exact hlt), List.getElem?_map, hg, hone]
      simp [gridPos]
    · rw [List.getElem?_map, List.getElem?_append_right (by rw [List.length_append, List.length_map, List.length_map, hl]; omega),
        List.length_append, List.length_map, List.length_map, hl,
        show 2 * (nt * nt) + (x * nt + y) - (nt * nt + nt * nt) = x * nt + y by omega, List.getElem?_map, hg, hone]
      simp [gridPos]

/-- C79 (partial: the line of sight is right only for the third axis, `line_of_sight_wrong`). For a grid of sightlines along all axes, the
three dimensional power is the mean over the axes of the powers of their meshes (`mesh_holds`), in each bin. -/
theorem power_3d_partial {fft : FFT} {nt npix : ℕ} {rows : List (List ℝ)} (hlen : rows.length = 3 * (nt * nt))
    (hrow : ∀ r ∈ rows, r.length = npix) (box F : ℝ) (dk : Option ℝ) (Nmu : ℕ)
    (hfft : ∀ mesh los, ∃ p, fft mesh box los dk Nmu = .ok p) :
    ∃ (mesh : ℕ → Mesh) (p : ℕ → Power) (q : Power), (∀ i < 3,
        meshOf (perSide rows.length) npix box (contrast F (third rows i)) = .ok (mesh i) ∧
        fft (mesh i) box (losOf i) dk Nmu = .ok (p i)) ∧
      averaged fft rows npix box F dk Nmu = .ok q ∧ q.k = (p 2).k ∧ q.mu = (p 2).mu ∧
      ∀ (a b : ℕ) (u v w : ℝ), ((p 0).power[a]?.bind (fun (r : List ℝ) => r[b]?)) = some u → ((p 1).power[a]?.bind (fun (r : List ℝ) => r[b]?)) = some v →
        ((p 2).power[a]?.bind (fun (r : List ℝ) => r[b]?)) = some w → (q.power[a]?.bind (fun (r : List ℝ) => r[b]?)) = some ((u + v + w) / 3) := by
  obtain ⟨m0, h0, -⟩ := mesh_holds hlen hrow (i := 0) (by norm_num) box F
  obtain ⟨m1, h1, -⟩ := mesh_holds hlen hrow (i := 1) (by norm_num) box F
  obtain ⟨m2, h2, -⟩ := mesh_holds hlen hrow (i := 2) (by norm_num) box F
  obtain ⟨p0, f0⟩ := hfft m0 (losOf 0)
  obtain ⟨p1, f1⟩ := hfft m1 (losOf 1)
  obtain ⟨p2, f2⟩ := hfft m2 (losOf 2)
  have hax : ∀ i m p, meshOf (perSide rows.length) npix box (contrast F (third rows i)) = .ok m → fft m box (losOf i) dk Nmu = .ok p →
      axisPower fft rows npix box F dk Nmu i = .ok p := by
    intro i m p hm hp
    unfold axisPower
    rw [hm]
    exact hp
  refine ⟨fun i => if i = 0 then m0 else if i = 1 then m1 else m2, fun i => if i = 0 then p0 else if i = 1 then p1 else p2,
    ⟨p2.k, p2.mu, (addRows (addRows p0.power p1.power) p2.power).map (fun r => r.map (· / 3))⟩, ?_, ?_, rfl, rfl, ?_⟩
  · intro i hi
    interval_cases i
    · exact ⟨h0, f0⟩
    · exact ⟨h1, f1⟩
    · exact ⟨h2, f2⟩
  · unfold averaged
    rw [hax 0 m0 p0 h0 f0, hax 1 m1 p1 h1 f1, hax 2 m2 p2 h2 f2]
    rfl
  · intro a b u v w hu hv hw
    simp only [if_true, one_ne_zero, if_false, OfNat.ofNat_ne_zero, OfNat.ofNat_ne_one] at hu hv hw
    obtain ⟨r0, g0, g0'⟩ := Option.bind_eq_some_iff.1 hu
    obtain ⟨r1, g1, g1'⟩ := Option.bind_eq_some_iff.1 hv
    obtain ⟨r2, g2, g2'⟩ := Option.bind_eq_some_iff.1 hw
    unfold addRows
    simp only [List.getElem?_map, List.getElem?_zipWith, g0, g1, g2, Option.map_some, Option.bind_some, g0', g1', g2']

/-- C79, disagreement: within the mesh two pixels of a sightline are displaced along the third coordinate, whatever the axis. The line of
sight passed for the first and second axis is at right angles to that, so that the power is binned by the angle to a direction across the
sightlines; only for the third axis it is along it. -/
theorem line_of_sight_wrong {nt npix : ℕ} {rows : List (List ℝ)} (hlen : rows.length = 3 * (nt * nt)) (hrow : ∀ r ∈ rows, r.length = npix)
    {box : ℝ} (hb : 0 < box) (F : ℝ) {x y z z' : ℕ} (hx : x < nt) (hy : y < nt) (hz : z < npix) (hz' : z' < npix) (hne : z < z') :
    ∀ i < 3, ∃ mesh p p' v v' τ τ', meshOf (perSide rows.length) npix box (contrast F (third rows i)) = .ok mesh ∧
      tauAt rows (i * (nt * nt) + (x * nt + y)) z = some τ ∧ tauAt rows (i * (nt * nt) + (x * nt + y)) z' = some τ' ∧
      v = Real.exp (-τ) / F - 1 ∧ v' = Real.exp (-τ') / F - 1 ∧ Holds box mesh p v ∧ Holds box mesh p' v' ∧
      dot (losOf i) (p' - p) = if i = 2 then ((z' : ℝ) - z) * box / npix else 0 := by
  intro i hi
  obtain ⟨mesh, hm, hh⟩ := mesh_holds hlen hrow hi box F
  have hlt : x * nt + y < nt * nt :=
    calc x * nt + y < x * nt + nt := by omega
      _ = (x + 1) * nt := by ring
      _ ≤ nt * nt := Nat.mul_le_mul_right _ hx
  have hidx : i * (nt * nt) + (x * nt + y) < rows.length := by rw [hlen]; interval_cases i <;> omega
  have hτ : ∀ z < npix, ∃ τ, tauAt rows (i * (nt * nt) + (x * nt + y)) z = some τ := by
    intro z hz
    unfold tauAt
    rw [List.getElem?_eq_getElem hidx]
    have := hrow _ (List.getElem_mem hidx)
    exact ⟨_, List.getElem?_eq_getElem (by omega)⟩
  obtain ⟨τ, h1⟩ := hτ z hz
  obtain ⟨τ', h2⟩ := hτ z' hz'
  refine ⟨mesh, ((x : ℝ) * box / nt, (y : ℝ) * box / nt, (z : ℝ) * box / npix), ((x : ℝ) * box / nt, (y : ℝ) * box / nt, (z' : ℝ) * box / npix),
    _, _, τ, τ', hm, h1, h2, rfl, rfl, (hh _ _).2 ⟨x, y, z, τ, hx, hy, hz, h1, rfl, rfl⟩, (hh _ _).2 ⟨x, y, z', τ', hx, hy, hz', h2, rfl, rfl⟩, ?_⟩
  interval_cases i <;> simp [dot, losOf, sub_mul, sub_div]

/-- C79: any other number of sightlines than three square grids raises `ValueError`. -/
theorem wrong_number {fft : FFT} {npix : ℕ} (hp : 0 < npix) {rows : List (List ℝ)} (hrow : ∀ r ∈ rows, r.length = npix)
    (hlen : ∀ nt, rows.length ≠ 3 * (nt * nt)) (box F : ℝ) (dk : Option ℝ) (Nmu : ℕ)
    (hfft : ∀ mesh los, ∃ p, fft mesh box los dk Nmu = .ok p) : averaged fft rows npix box F dk Nmu = .error .valueError := by
  set nt := perSide rows.length with hnt
  have hax : ∀ i, ((third rows i).length = nt * nt ∧ ∃ p, axisPower fft rows npix box F dk Nmu i = .ok p) ∨
      ((third rows i).length ≠ nt * nt ∧ axisPower fft rows npix box F dk Nmu i = .error .valueError) := by
    intro i
    have hcl : (contrast F (third rows i)).length = (third rows i).length * npix := contrast_length (fun r hr => hrow r (mem_third hr)) F
    by_cases h : (third rows i).length = nt * nt
    · left
      refine ⟨h, ?_⟩
      unfold axisPower meshOf
      rw [← hnt, hcl, h, coords_length, if_pos rfl, if_pos rfl]
      split
      · exact hfft _ _
      · exact hfft _ _
    · right
      refine ⟨h, ?_⟩
      have h' : (third rows i).length * npix ≠ nt * nt * npix := fun he => h (Nat.eq_of_mul_eq_mul_right hp he)
      unfold axisPower meshOf
      rw [← hnt, hcl, coords_length, if_neg h', if_neg h']
      split <;> rfl
  have htot : (third rows 0).length + (third rows 1).length + (third rows 2).length = rows.length := by
    unfold third
    rw [slice_length _ (min_le_right _ _), slice_length _ (min_le_right _ _), slice_length _ (min_le_right _ _)]
    norm_num
    omega
  unfold averaged
  rcases hax 0 with ⟨l0, p0, h0⟩ | ⟨l0, h0⟩
  · rcases hax 1 with ⟨l1, p1, h1⟩ | ⟨l1, h1⟩
    · rcases hax 2 with ⟨l2, p2, h2⟩ | ⟨l2, h2⟩
      · exact absurd (by omega) (hlen nt)
      · rw [h0, h1, h2]; rfl
    · rw [h0, h1]; rfl
  · rw [h0]; rfl

/-- Witness: one sightline of two pixels along each axis. -/
example : ∃ mesh, meshOf (perSide 3) 2 10 (contrast 0.5 (third [[0, 1], [2, 3], [4, 5]] 1)) = .ok mesh ∧
    Holds 10 mesh (0, 0, 5) (Real.exp (-3) / 0.5 - 1) := by
  obtain ⟨mesh, h1, h2⟩ := mesh_holds (nt := 1) (npix := 2) (rows := [[0, 1], [2, 3], [4, 5]]) rfl (by simp) (i := 1) (by norm_num) 10 0.5
  exact ⟨mesh, h1, (h2 _ _).2 ⟨0, 0, 1, 3, by norm_num, by norm_num, by norm_num, rfl, by norm_num, rfl⟩⟩

/-- Witness: four sightlines are not three square grids. -/
example : averaged (fun _ _ _ _ _ => .ok ⟨[], [], []⟩) [[0, 1], [2, 3], [4, 5], [6, 7]] 2 10 0.5 none 10 = .error .valueError :=
  wrong_number (by norm_num) (by simp) (fun nt h => by simp at h; omega) 10 0.5 none 10 (fun _ _ => ⟨_, rfl⟩)

/-! Three sightlines of two pixels, one along each axis. -/

example := grid_order (box := 10) (nt := 4) (i := 1) (x := 2) (y := 3) (by norm_num) (by norm_num) (by norm_num)

example := power_3d_partial (fft := fun _ _ _ _ _ => .ok ⟨[], [], []⟩) (nt := 1) (npix := 2) (rows := [[0, 1], [2, 3], [4, 5]]) rfl (by simp)
  10 0.5 none 10 (fun _ _ => ⟨_, rfl⟩)

example := line_of_sight_wrong (nt := 1) (npix := 2) (rows := [[0, 1], [2, 3], [4, 5]]) rfl (by simp) (box := 10) (by norm_num) 0.5
  (x := 0) (y := 0) (z := 0) (z' := 1) (by norm_num) (by norm_num) (by norm_num) (by norm_num) (by norm_num)

end Verif.Props.FluxPower3D
