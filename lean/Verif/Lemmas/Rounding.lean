import Verif.Model.Rounding
import Verif.Lemmas.Race
import Verif.Lemmas.ComputeSpectra

/-! Rounded sums of non-negative numbers, and the updates of the interpolator one by one. -/

namespace Verif
namespace Rounding

open PartInt IndexTable Absorption ComputeSpectra Race

/-- `x` is `s` after at most `n` roundings in double and `k` in single precision. -/
def Within (n k : ℕ) (x s : ℝ) : Prop :=
  (1 - (2 : ℝ)⁻¹ ^ 53) ^ n * (1 - (2 : ℝ)⁻¹ ^ 24) ^ k * s ≤ x ∧
    x ≤ (1 + (2 : ℝ)⁻¹ ^ 53) ^ n * (1 + (2 : ℝ)⁻¹ ^ 24) ^ k * s

theorem lo_pos (n k : ℕ) : (0 : ℝ) < (1 - (2 : ℝ)⁻¹ ^ 53) ^ n * (1 - (2 : ℝ)⁻¹ ^ 24) ^ k := by
  have h1 : (0 : ℝ) < 1 - (2 : ℝ)⁻¹ ^ 53 := by norm_num
  have h2 : (0 : ℝ) < 1 - (2 : ℝ)⁻¹ ^ 24 := by norm_num
  positivity

theorem lo_anti {n k n' k' : ℕ} (hn : n ≤ n') (hk : k ≤ k') :
    (1 - (2 : ℝ)⁻¹ ^ 53) ^ n' * (1 - (2 : ℝ)⁻¹ ^ 24) ^ k' ≤ (1 - (2 : ℝ)⁻¹ ^ 53) ^ n * (1 - (2 : ℝ)⁻¹ ^ 24) ^ k := by
  have h1 : (0 : ℝ) ≤ 1 - (2 : ℝ)⁻¹ ^ 53 := by norm_num
  have h2 : (0 : ℝ) ≤ 1 - (2 : ℝ)⁻¹ ^ 24 := by norm_num
  exact mul_le_mul (pow_le_pow_of_le_one h1 (by norm_num) hn) (pow_le_pow_of_le_one h2 (by norm_num) hk)
    (pow_nonneg h2 _) (pow_nonneg h1 _)

theorem hi_mono {n k n' k' : ℕ} (hn : n ≤ n') (hk : k ≤ k') :
    (1 + (2 : ℝ)⁻¹ ^ 53) ^ n * (1 + (2 : ℝ)⁻¹ ^ 24) ^ k ≤ (1 + (2 : ℝ)⁻¹ ^ 53) ^ n' * (1 + (2 : ℝ)⁻¹ ^ 24) ^ k' := by
  have h1 : (1 : ℝ) ≤ 1 + (2 : ℝ)⁻¹ ^ 53 := by norm_num
  have h2 : (1 : ℝ) ≤ 1 + (2 : ℝ)⁻¹ ^ 24 := by norm_num
  exact mul_le_mul (pow_le_pow_right₀ h1 hn) (pow_le_pow_right₀ h2 hk) (by positivity) (by positivity)

theorem lo_le_one (n k : ℕ) : (1 - (2 : ℝ)⁻¹ ^ 53) ^ n * (1 - (2 : ℝ)⁻¹ ^ 24) ^ k ≤ 1 := by
  simpa using lo_anti (Nat.zero_le n) (Nat.zero_le k)

theorem one_le_hi (n k : ℕ) : 1 ≤ (1 + (2 : ℝ)⁻¹ ^ 53) ^ n * (1 + (2 : ℝ)⁻¹ ^ 24) ^ k := by
  simpa using hi_mono (Nat.zero_le n) (Nat.zero_le k)

theorem Within.nonneg {n k : ℕ} {x s : ℝ} (h : Within n k x s) (hs : 0 ≤ s) : 0 ≤ x :=
  le_trans (mul_nonneg (lo_pos n k).le hs) h.1

theorem Within.mono {n k n' k' : ℕ} {x s : ℝ} (h : Within n k x s) (hs : 0 ≤ s) (hn : n ≤ n') (hk : k ≤ k') :
    Within n' k' x s :=
  ⟨(mul_le_mul_of_nonneg_right (lo_anti hn hk) hs).trans h.1, h.2.trans (mul_le_mul_of_nonneg_right (hi_mono hn hk) hs)⟩

theorem Within.refl (x : ℝ) : Within 0 0 x x := by constructor <;> simp

theorem Within.add {n k : ℕ} {x y s t : ℝ} (h : Within n k x s) (h' : Within n k y t) :
    Within n k (x + y) (s + t) :=
  ⟨by rw [mul_add]; exact add_le_add h.1 h'.1, by rw [mul_add]; exact add_le_add h.2 h'.2⟩

theorem within_exact (n k : ℕ) {x : ℝ} (hx : 0 ≤ x) : Within n k x x :=
  (Within.refl x).mono hx (Nat.zero_le _) (Nat.zero_le _)

/-- A rounding with relative error at most half a unit in the last place. -/
def Faithful (fl : Width → ℝ → ℝ) : Prop := ∀ (w : Width) (x : ℝ), |fl w x - x| ≤ (2 : ℝ)⁻¹ ^ w.digits * |x|

theorem Within.double {fl : Width → ℝ → ℝ} (hf : Faithful fl) {n k : ℕ} {x s : ℝ} (h : Within n k x s) (hs : 0 ≤ s) :
    Within (n + 1) k (fl .double x) s := by
  have hx := h.nonneg hs
  have h1 := hf .double x
  rw [abs_of_nonneg hx, abs_le, Width.digits] at h1
  have e1 : (0 : ℝ) ≤ 1 - (2 : ℝ)⁻¹ ^ 53 := by norm_num
  have e2 : (0 : ℝ) ≤ 1 + (2 : ℝ)⁻¹ ^ 53 := by norm_num
  have a := mul_le_mul_of_nonneg_left h.1 e1
  have b := mul_le_mul_of_nonneg_left h.2 e2
  rw [Within]
  generalize (2 : ℝ)⁻¹ ^ 53 = u at *
  generalize (2 : ℝ)⁻¹ ^ 24 = v at *
  constructor
  · refine le_trans (le_of_eq ?_) (a.trans (by linarith [h1.1]))
    ring
  · refine le_trans (le_trans (by linarith [h1.2]) b) (le_of_eq ?_)
    ring

theorem Within.single {fl : Width → ℝ → ℝ} (hf : Faithful fl) {n k : ℕ} {x s : ℝ} (h : Within n k x s) (hs : 0 ≤ s) :
    Within n (k + 1) (fl .single x) s := by
  have hx := h.nonneg hs
  have h1 := hf .single x
  rw [abs_of_nonneg hx, abs_le, Width.digits] at h1
  have e1 : (0 : ℝ) ≤ 1 - (2 : ℝ)⁻¹ ^ 24 := by norm_num
  have e2 : (0 : ℝ) ≤ 1 + (2 : ℝ)⁻¹ ^ 24 := by norm_num
  have a := mul_le_mul_of_nonneg_left h.1 e1
  have b := mul_le_mul_of_nonneg_left h.2 e2
  rw [Within]
  generalize (2 : ℝ)⁻¹ ^ 53 = u at *
  generalize (2 : ℝ)⁻¹ ^ 24 = v at *
  constructor
  · refine le_trans (le_of_eq ?_) (a.trans (by linarith [h1.1]))
    ring
  · refine le_trans (le_trans (by linarith [h1.2]) b) (le_of_eq ?_)
    ring

/-! ### Updates -/

/-- The number of updates of element `m`. -/
def hits (ops : List (ℕ × ℝ)) (m : ℕ) : ℕ := ops.countP (fun o => decide (o.1 = m))

theorem hits_append (a b : List (ℕ × ℝ)) (m : ℕ) : hits (a ++ b) m = hits a m + hits b m := by
  simp [hits]

theorem hits_cons (o : ℕ × ℝ) (ops : List (ℕ × ℝ)) (m : ℕ) :
    hits (o :: ops) m = hits ops m + if o.1 = m then 1 else 0 := by
  simp [hits, List.countP_cons]

theorem hits_flatMap_le {α : Type} (xs : List α) (f : α → List (ℕ × ℝ)) (m K : ℕ) (h : ∀ x ∈ xs, hits (f x) m ≤ K) :
    hits (xs.flatMap f) m ≤ K * xs.length := by
  induction xs with
  | nil => simp [hits]
  | cons x xs ih =>
    rw [List.flatMap_cons, hits_append, List.length_cons, mul_add, mul_one, add_comm]
    exact add_le_add (ih (fun y hy => h y (by simp [hy]))) (h x (by simp))

theorem foldl_ops {fl : Width → ℝ → ℝ} (hf : Faithful fl) (ops : List (ℕ × ℝ)) (a : List ℝ)
    (hin : ∀ o ∈ ops, o.1 < a.length) (hpos : ∀ o ∈ ops, 0 ≤ o.2) (n : ℕ → ℕ) (s : ℕ → ℝ) (hs : ∀ m, 0 ≤ s m)
    (ha : ∀ (m : ℕ) (x : ℝ), a[m]? = some x → Within (n m) 0 x (s m)) :
    ∃ out, ops.foldlM (addOp fl) a = .ok out ∧ out.length = a.length ∧
      ∀ (m : ℕ) (x : ℝ), out[m]? = some x → Within (n m + hits ops m) 0 x (s m + opsSum ops m) := by
  induction ops generalizing a n s with
  | nil => exact ⟨a, rfl, rfl, fun m x hx => by simpa [hits] using ha m x hx⟩
  | cons o ops ih =>
    have ho : o.1 < a.length := hin o (by simp)
    have hstep : addOp fl a o = .ok (a.set o.1 (fl .double (a[o.1] + o.2))) := by
      unfold addOp; rw [List.getElem?_eq_getElem ho]
    have hx0 := hpos o (by simp)
    obtain ⟨out, h1, h2, h3⟩ := ih (a.set o.1 (fl .double (a[o.1] + o.2)))
      (by intro p hp; rw [List.length_set]; exact hin p (by simp [hp])) (fun p hp => hpos p (by simp [hp]))
      (fun m => n m + if o.1 = m then 1 else 0) (fun m => s m + if m = o.1 then o.2 else 0)
      (by intro m; have := hs m; split_ifs <;> linarith) (by
        intro m x hx
        rw [List.getElem?_set] at hx
        by_cases hm : o.1 = m
        · subst hm
          simp only [if_true, ho, Option.some.injEq] at hx
          subst hx
          simp only [if_true]
          refine Within.double hf ((ha _ _ (List.getElem?_eq_getElem ho)).add (within_exact _ _ hx0)) ?_
          have := hs o.1; linarith
        · simp only [hm, if_false] at hx
          simp only [hm, if_false, Ne.symm hm, add_zero]
          exact ha m x hx)
    refine ⟨out, ?_, ?_, ?_⟩
    · rw [List.foldlM_cons, hstep]; exact h1
    · rw [h2, List.length_set]
    · intro m x hx
      have := h3 m x hx
      rw [hits_cons, show o = (o.1, o.2) from rfl, opsSum_cons]
      dsimp only
      rw [add_comm (hits ops m), ← add_assoc, ← add_assoc]
      exact this

/-- The updates for one particle on one line. -/
noncomputable def partOps (get_tau : Bool) (L : LineAbsorption) (nbins i : ℕ) (l : Line) (p : Part) (d : ℝ) :
    List (ℕ × ℝ) :=
  if get_tau then tauOps L (i * nbins) nbins d p.dens (along p.pos l.axis) (along p.vel l.axis) p.temp p.h
  else coldenOps L (i * nbins) nbins d p.dens (along p.pos l.axis) p.h

/-- The updates for all the near particles of line `i`. -/
noncomputable def allOps (get_tau : Bool) (L : LineAbsorption) (nbins : ℕ) (lines : List Line) (parts : List Part)
    (near : List (ℕ × ℝ)) (i : ℕ) : List (ℕ × ℝ) :=
  near.flatMap (fun e => (lines[i]?).elim [] (fun l => (parts[e.1]?).elim [] (fun p =>
    partOps get_tau L nbins i l p e.2)))

theorem lineOps_flat (get_tau : Bool) (L : LineAbsorption) {nbins : ℕ}
    (lines : List Line) (hax : ∀ l ∈ lines, l.axis = 1 ∨ l.axis = 2 ∨ l.axis = 3) (parts : List Part)
    (nearby : List (StdMap ℝ)) {i : ℕ} {near : StdMap ℝ} {l : Line} (hi : nearby[i]? = some near)
    (hl : lines[i]? = some l) (hp : ∀ e ∈ near, ∃ p, parts[e.1]? = some p) :
    lineOps get_tau L nbins lines parts nearby i = .ok (allOps get_tau L nbins lines parts near i) := by
  unfold lineOps allOps
  rw [readAt_eq hi, ok_bind, readAt_eq hl, ok_bind]
  have hax' := hax l (List.mem_of_getElem? hl)
  suffices h : ∀ (es : StdMap ℝ) (ops0 : List (ℕ × ℝ)), (∀ e ∈ es, ∃ p, parts[e.1]? = some p) →
      es.foldlM (fun ops e => do
        let p ← readAt parts e.1
        let ppos ← coord p.pos l.axis
        if get_tau then
          let pvel ← coord p.vel l.axis
          .ok (ops ++ tauOps L (i * nbins) nbins e.2 p.dens ppos pvel p.temp p.h)
        else .ok (ops ++ coldenOps L (i * nbins) nbins e.2 p.dens ppos p.h)) ops0 =
          (.ok (ops0 ++ es.flatMap (fun e => (lines[i]?).elim [] (fun l => (parts[e.1]?).elim [] (fun p =>
            partOps get_tau L nbins i l p e.2)))) : CRes (List (ℕ × ℝ))) by
    simpa using h near [] hp
  intro es
  induction es with
  | nil => intro ops0 _; simp; rfl
  | cons e es ih =>
    intro ops0 hes
    obtain ⟨p, hpe⟩ := hes e (by simp)
    have hone : (do
          let p ← readAt parts e.1
          let ppos ← coord p.pos l.axis
          if get_tau then
            let pvel ← coord p.vel l.axis
            .ok (ops0 ++ tauOps L (i * nbins) nbins e.2 p.dens ppos pvel p.temp p.h)
          else .ok (ops0 ++ coldenOps L (i * nbins) nbins e.2 p.dens ppos p.h)) =
            (.ok (ops0 ++ partOps get_tau L nbins i l p e.2) : CRes (List (ℕ × ℝ))) := by
      rw [readAt_eq hpe, ok_bind, coord_eq hax', ok_bind]
      cases get_tau
      · simp [partOps]
      · simp only [if_true, coord_eq hax', partOps]; rfl
    rw [List.foldlM_cons, hone, ok_bind, ih _ (fun e he => hes e (by simp [he])), List.flatMap_cons, hl, hpe]
    simp

theorem threadOps_flat (get_tau : Bool) (L : LineAbsorption) {nbins : ℕ} (box : ℝ)
    (lines : List Line) (hax : ∀ l ∈ lines, l.axis = 1 ∨ l.axis = 2 ∨ l.axis = 3) (parts : List Part)
    (queue : List ℕ) (hq : ∀ i ∈ queue, i < lines.length) :
    threadOps get_tau L nbins lines parts (get_near_particles (build lines box) (posH parts)) queue =
      .ok (queue.flatMap (fun i => allOps get_tau L nbins lines parts (nearList (build lines box) (posH parts) i) i)) := by
  have hnp : get_near_particles (build lines box) (posH parts) =
      (List.range lines.length).map (nearList (build lines box) (posH parts)) := by
    unfold get_near_particles
    rw [get_near_particles_sched_eq _ _ _ (List.Perm.refl _), build_lines]
  have hline : ∀ i, i < lines.length → lineOps get_tau L nbins lines parts
      (get_near_particles (build lines box) (posH parts)) i =
      .ok (allOps get_tau L nbins lines parts (nearList (build lines box) (posH parts) i) i) := by
    intro i hi
    refine lineOps_flat get_tau L lines hax parts _
      (by rw [hnp, List.getElem?_map, List.getElem?_range hi]; rfl) (List.getElem?_eq_getElem hi) ?_
    intro e he
    unfold nearList at he
    obtain ⟨j, hj, he⟩ := List.mem_filterMap.1 he
    simp only [Option.bind_eq_some_iff, Option.map_eq_some_iff] at he
    obtain ⟨q, hq, _, _, rfl⟩ := he
    unfold posH at hq
    rw [List.getElem?_map, Option.map_eq_some_iff] at hq
    obtain ⟨p, hp, -⟩ := hq
    exact ⟨p, hp⟩
  unfold threadOps
  suffices h : ∀ (qs : List ℕ) (ops0 : List (ℕ × ℝ)), (∀ i ∈ qs, i < lines.length) →
      qs.foldlM (fun ops i => do
          let o ← lineOps get_tau L nbins lines parts
            (get_near_particles (build lines box) (posH parts)) i
          .ok (ops ++ o)) ops0 = (.ok (ops0 ++ qs.flatMap (fun i => allOps get_tau L nbins lines parts
            (nearList (build lines box) (posH parts) i) i)) : CRes (List (ℕ × ℝ))) by
    simpa using h queue [] hq
  intro qs
  induction qs with
  | nil => intro ops0 _; simp; rfl
  | cons i qs ih =>
    intro ops0 hqs
    rw [List.foldlM_cons, hline i (hqs i (by simp)), ok_bind, ok_bind, ih _ (fun j hj => hqs j (by simp [hj]))]
    simp

theorem partOps_inSlice (get_tau : Bool) (L : LineAbsorption) {nbins : ℕ} (hn : 0 < nbins) (i : ℕ) (l : Line) (p : Part)
    (d : ℝ) : InSlice nbins i (partOps get_tau L nbins i l p d) := by
  unfold partOps
  split_ifs
  · exact tauOps_inSlice L hn _ _ _ _ _ _
  · exact coldenOps_inSlice L hn _ _ _ _

theorem mem_allOps {get_tau : Bool} {L : LineAbsorption} {nbins : ℕ} {lines : List Line} {parts : List Part}
    {near : List (ℕ × ℝ)} {i : ℕ} {o : ℕ × ℝ} (h : o ∈ allOps get_tau L nbins lines parts near i) :
    ∃ (l : Line) (p : Part) (d : ℝ), l ∈ lines ∧ p ∈ parts ∧ o ∈ partOps get_tau L nbins i l p d := by
  unfold allOps at h
  obtain ⟨e, -, he⟩ := List.mem_flatMap.1 h
  cases hl : lines[i]? with
  | none => rw [hl] at he; simp at he
  | some l =>
    cases hp : parts[e.1]? with
    | none => rw [hl, hp] at he; simp at he
    | some p =>
      rw [hl, hp] at he
      exact ⟨l, p, e.2, List.mem_of_getElem? hl, List.mem_of_getElem? hp, he⟩

theorem hits_zero {ops : List (ℕ × ℝ)} {m : ℕ} (h : ∀ o ∈ ops, o.1 ≠ m) : hits ops m = 0 := by
  unfold hits
  rw [List.countP_eq_zero]
  intro o ho
  simpa using h o ho

theorem calc_dr2_nonneg (box a b : ℝ) : 0 ≤ calc_dr2 box a b := by
  unfold calc_dr2
  dsimp only
  exact add_nonneg (mul_self_nonneg _) (mul_self_nonneg _)

theorem nearList_dist {lines : List Line} {box : ℝ} {parts : List (Vec3 × ℝ)} {i : ℕ} {e : ℕ × ℝ}
    (he : e ∈ nearList (build lines box) parts i) : 0 ≤ e.2 := by
  unfold nearList at he
  obtain ⟨j, -, he⟩ := List.mem_filterMap.1 he
  simp only [Option.bind_eq_some_iff, Option.map_eq_some_iff] at he
  obtain ⟨q, -, d, hd, rfl⟩ := he
  obtain ⟨l, -, -, -, h, -⟩ := (find?_get_near_lines lines box q.1 q.2 i d).1 hd
  rw [h]
  exact calc_dr2_nonneg _ _ _

theorem hits_allOps_le {get_tau : Bool} {L : LineAbsorption} {nbins : ℕ} {lines : List Line} {parts : List Part} {i m K : ℕ}
    (box : ℝ)
    (hK : ∀ (l : Line) (p : Part) (d : ℝ), l ∈ lines → p ∈ parts → 0 ≤ d → hits (partOps get_tau L nbins i l p d) m ≤ K) :
    hits (allOps get_tau L nbins lines parts (nearList (build lines box) (posH parts) i) i) m ≤ K * parts.length := by
  have hlen : (nearList (build lines box) (posH parts) i).length ≤ parts.length := by
    unfold nearList
    refine (List.length_filterMap_le _ _).trans ?_
    simp [posH]
  refine le_trans (hits_flatMap_le _ _ m K ?_) (Nat.mul_le_mul_left K hlen)
  intro e he
  cases hl : lines[i]? with
  | none => simp [hits]
  | some l =>
    cases hp : parts[e.1]? with
    | none => simp [hits]
    | some p => exact hK l p e.2 (List.mem_of_getElem? hl) (List.mem_of_getElem? hp) (nearList_dist he)

theorem hits_thread_le {get_tau : Bool} {L : LineAbsorption} {nbins : ℕ} (hn : 0 < nbins) {lines : List Line}
    {parts : List Part} {K : ℕ} (box : ℝ) (m : ℕ)
    (hK : ∀ (i : ℕ) (l : Line) (p : Part) (d : ℝ), l ∈ lines → p ∈ parts → 0 ≤ d →
      hits (partOps get_tau L nbins i l p d) m ≤ K)
    (queue : List ℕ) (hq : queue.Nodup) :
    hits (queue.flatMap (fun i => allOps get_tau L nbins lines parts (nearList (build lines box) (posH parts) i) i)) m ≤
      K * parts.length := by
  have hout : ∀ i, i ≠ m / nbins →
      hits (allOps get_tau L nbins lines parts (nearList (build lines box) (posH parts) i) i) m = 0 := by
    intro i hi
    refine hits_zero (fun o ho he => hi ?_)
    obtain ⟨l, p, d, -, -, h⟩ := mem_allOps ho
    have := partOps_inSlice get_tau L hn i l p d o h
    rw [he] at this
    symm
    rw [Nat.div_eq_iff (by omega)]
    have e : i * nbins = nbins * i := Nat.mul_comm _ _
    constructor <;> omega
  induction queue with
  | nil => simp [hits]
  | cons i qs ih =>
    rw [List.flatMap_cons, hits_append]
    rw [List.nodup_cons] at hq
    by_cases hi : i = m / nbins
    · have hz : hits (qs.flatMap (fun i => allOps get_tau L nbins lines parts
          (nearList (build lines box) (posH parts) i) i)) m ≤ 0 * qs.length := by
        refine hits_flatMap_le _ _ m 0 ?_
        intro j hj
        rw [hout j (by rintro rfl; exact hq.1 (hi ▸ hj))]
      have := hits_allOps_le (get_tau := get_tau) (L := L) (nbins := nbins) (lines := lines) (parts := parts) (i := i) (m := m)
        (K := K) box (hK i)
      omega
    · rw [hout i hi, zero_add]
      exact ih hq.2

/-! ### How often one particle updates an element -/

theorem hits_pixels {off nbins : ℕ} (hn : 0 < nbins) (val : ℤ → ℝ) (zs : List ℤ) (hz : zs.Nodup) (a : ℤ) (q : ℕ)
    (hr : ∀ z ∈ zs, a ≤ z ∧ z < a + q * nbins) (m : ℕ) :
    hits (zs.map (fun z => (off + (wrapIndex z nbins).toNat, val z))) m ≤ q := by
  unfold hits
  rw [List.countP_map, List.countP_eq_length_filter]
  have hnd : (zs.filter ((fun o : ℕ × ℝ => decide (o.1 = m)) ∘ fun z => (off + (wrapIndex z nbins).toNat, val z))).Nodup :=
    hz.filter _
  rw [← List.toFinset_card_of_nodup hnd]
  have hn' : (0 : ℤ) < nbins := by exact_mod_cast hn
  calc _ ≤ (Finset.range q).card := by
        refine Finset.card_le_card_of_injOn (fun z : ℤ => ((z - a) / nbins).toNat) ?_ ?_
        · intro z hz
          simp only [Finset.mem_coe, List.mem_toFinset, List.mem_filter] at hz
          obtain ⟨h1, h2⟩ := hr z hz.1
          simp only [Finset.coe_range, Set.mem_Iio]
          have h3 : (z - a) / nbins < q := Int.ediv_lt_of_lt_mul hn' (by linarith)
          have h4 : 0 ≤ (z - a) / nbins := Int.ediv_nonneg (by linarith) hn'.le
          omega
        · intro z hz y hy hzy
          simp only [Finset.mem_coe, List.mem_toFinset, List.mem_filter, Function.comp, decide_eq_true_eq] at hz hy
          obtain ⟨h1, -⟩ := hr z hz.1
          obtain ⟨h1', -⟩ := hr y hy.1
          have w1 := wrapIndex_range hn z
          have w2 := wrapIndex_range hn y
          have e : wrapIndex z nbins = wrapIndex y nbins := by omega
          rw [wrapIndex_eq hn, wrapIndex_eq hn] at e
          dsimp only at hzy
          have h4 : 0 ≤ (z - a) / nbins := Int.ediv_nonneg (by linarith) hn'.le
          have h4' : 0 ≤ (y - a) / nbins := Int.ediv_nonneg (by linarith) hn'.le
          have h5 : (z - a) / nbins = (y - a) / nbins := by omega
          have h6 : (z - a) % nbins = (y - a) % nbins := by
            rw [Int.sub_emod z, Int.sub_emod y, e]
          have h7 := Int.mul_ediv_add_emod (z - a) nbins
          have h8 := Int.mul_ediv_add_emod (y - a) nbins
          rw [h5, h6] at h7
          linarith
    _ = q := Finset.card_range q

theorem intRange_nodup (lo hi : ℤ) : (intRange lo hi).Nodup := by
  unfold intRange
  exact List.nodup_range.map (fun a b h => by
    have : (a : ℤ) = b := by linarith
    exact_mod_cast this)

theorem mem_intRange_bounds {lo hi z : ℤ} (h : z ∈ intRange lo hi) : lo ≤ z ∧ z ≤ hi := by
  unfold intRange at h
  obtain ⟨k, hk, rfl⟩ := List.mem_map.1 h
  rw [List.mem_range] at hk
  omega

theorem hits_tauOps_le (L : LineAbsorption) {off nbins : ℕ} (hn : 0 < nbins) (dr2 dens ppos pvel temp smooth : ℝ) (m : ℕ) :
    hits (tauOps L off nbins dr2 dens ppos pvel temp smooth) m ≤ 1 := by
  unfold tauOps
  split_ifs
  · simp [hits]
  · simp [hits]
  all_goals
    simp only [tauLoopOps_eq, ← List.map_append]
    generalize tauPixel L nbins dr2 dens _ pvel temp smooth = τ
    generalize ⌊_ / (L.vbox / nbins)⌋ = c
    refine hits_pixels hn τ _ ?_ (c - (nbins / 2 : ℕ)) 1 ?_ m
    · rw [List.nodup_append]
      refine ⟨visited_nodup (Or.inl rfl) _ _, visited_nodup (Or.inr rfl) _ _, ?_⟩
      intro x hx y hy hxy
      obtain ⟨k, h1, h2, -⟩ := mem_visited.1 hx
      obtain ⟨k', h1', h2', -⟩ := mem_visited.1 hy
      subst hxy
      omega
    · intro z hz
      rcases List.mem_append.1 hz with hz | hz
      · obtain ⟨k, h1, h2, -⟩ := mem_visited.1 hz
        have : nbins / 2 + nbins / 2 ≤ nbins := by omega
        push_cast
        constructor <;> omega
      · obtain ⟨k, h1, h2, -⟩ := mem_visited.1 hz
        push_cast
        constructor <;> omega

theorem hits_coldenOps_le (L : LineAbsorption) (hk : L.kernel ≠ VORONOI_MESH) (hv : 0 < L.vbox) (hf : 0 < L.velfac)
    {off nbins : ℕ} (hn : 0 < nbins)
    {dr2 smooth : ℝ} (hd : 0 ≤ dr2) (hs : 0 ≤ smooth) (hbox : smooth ≤ L.vbox / L.velfac / 2) (dens pos : ℝ) (m : ℕ) :
    hits (coldenOps L off nbins dr2 dens pos smooth) m ≤ 3 := by
  have hnb : (0 : ℝ) < nbins := by exact_mod_cast hn
  unfold coldenOps
  simp only [hk, false_and, if_false, ne_eq, not_false_eq_true, true_and]
  split_ifs with h
  · simp [hits]
  · set zr := √(smooth * smooth - dr2) with hzr
    set b := L.vbox / nbins / L.velfac with hb
    have hbpos : 0 < b := by positivity
    have hzs : zr ≤ smooth := by
      rw [hzr]; exact Real.sqrt_le_iff.2 ⟨hs, by nlinarith⟩
    have hzn : 2 * zr / b ≤ nbins := by
      rw [div_le_iff₀ hbpos, hb]
      have : (nbins : ℝ) * (L.vbox / nbins / L.velfac) = L.vbox / L.velfac := by field_simp
      rw [this]; linarith
    refine hits_pixels hn _ _ (intRange_nodup _ _) ⌊(pos - zr) / b⌋ 3 ?_ m
    intro z hz
    obtain ⟨h1, h2⟩ := mem_intRange_bounds hz
    refine ⟨h1, ?_⟩
    have h3 : (z : ℝ) < (pos + zr) / b + 1 := lt_of_le_of_lt (by exact_mod_cast h2) (Int.ceil_lt_add_one _)
    have h4 := Int.lt_floor_add_one ((pos - zr) / b)
    have h5 : (pos + zr) / b = (pos - zr) / b + 2 * zr / b := by ring
    have h6 : (z : ℝ) < ⌊(pos - zr) / b⌋ + nbins + 2 := by linarith
    have h7 : z < ⌊(pos - zr) / b⌋ + nbins + 2 := by exact_mod_cast h6
    push_cast
    have h8 : (1 : ℤ) ≤ nbins := by exact_mod_cast hn
    linarith

end Rounding
end Verif
