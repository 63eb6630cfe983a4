import Verif.Model.GadgetRead
import Verif.Props.Extract

/-!
C120: the stand-alone extractor on snapshots in Gadget's own format.
-/

namespace Verif.Props.GadgetRead

open Verif Verif.GadgetRead Verif.Extract Verif.CReader Verif.CTools Verif.PartInt Verif.Absorption
open Verif.Props.CReader (Particle nHI temperature expected)
open Verif.Props.Extract (Request Sightlines Writes gasPart lyman)

/-! ### What a snapshot holds -/

/-- The number of electrons for each hydrogen atom is stored; or, in the other format, the numbers of ions, and the gas is neutral:
a hydrogen or helium ion lacks one electron, a fully ionised helium atom two. -/
def HoldsElectrons (split : Bool) (s : GSnap) (ps : List Particle) : Prop :=
  if split then ∃ ions : List (ℝ × ℝ × ℝ), s.NHP = some (ions.map (fun e => e.1)) ∧ s.NHEP = some (ions.map (fun e => e.2.1)) ∧
    s.NHEQ = some (ions.map (fun e => e.2.2)) ∧ ps.map (fun p => p.ne) = ions.map (fun e => e.1 + e.2.1 + 2 * e.2.2)
  else s.NE = some (ps.map (fun p => p.ne))

/-- The blocks of the snapshot hold the gas particles `ps`; the smoothing length in it is twice the length of the kernel. -/
structure HoldsSnap (split : Bool) (s : GSnap) (ps : List Particle) : Prop where
  files : 0 < s.numFiles
  num : s.header.npart = ps.length
  nonempty : ps ≠ []
  cooling : s.flag_cooling ≠ 0
  pos : s.POS = some (ps.map (·.pos))
  vel : s.VEL = some (ps.map (·.vel))
  rho : s.RHO = some (ps.map (·.rho))
  u : s.U = some (ps.map (·.u))
  ne : HoldsElectrons split s ps
  xHI : s.NH = some (ps.map (·.xHI))
  size : s.HSML = some (ps.map (fun p => 2 * p.h))

/-! ### Reading -/

theorem getBlock_whole {α : Type} (xs : List α) (buf : List (Option α)) {n : ℕ} (h : xs.length = n) (hb : buf.length = n) :
    getBlock (some xs) buf n 0 = xs.map some := by
  unfold getBlock
  simp only [List.drop_zero, ← h, List.take_length]
  rw [List.drop_eq_nil_of_le (by omega), List.append_nil]

theorem addTo_whole (w : ℝ) {α : Type} (es : List α) (f g : α → ℝ) :
    addTo w ((es.map f).map some) ((es.map g).map some) = (es.map (fun e => f e + w * g e)).map some := by
  unfold addTo
  induction es with
  | nil => rfl
  | cons e es ih => simpa using ih

theorem forM_ok {f : ℕ → CRes Unit} (l : List ℕ) (h : ∀ i ∈ l, f i = .ok ()) : l.forM f = .ok () := by
  induction l with
  | nil => rfl
  | cons a l ih =>
    change (f a >>= fun _ => l.forM f) = _
    rw [h a (by simp)]
    exact ih (fun i hi => h i (by simp [hi]))

theorem forM_error {f : ℕ → CRes Unit} {e : CErr} (l : List ℕ) (h : ∀ i ∈ l, f i = .ok () ∨ f i = .error e)
    (he : ∃ i ∈ l, f i = .error e) : l.forM f = .error e := by
  induction l with
  | nil => simp at he
  | cons a l ih =>
    change (f a >>= fun _ => l.forM f) = _
    rcases h a (by simp) with ha | ha
    · rw [ha]
      refine ih (fun i hi => h i (by simp [hi])) ?_
      obtain ⟨i, hi, hi2⟩ := he
      rcases List.mem_cons.1 hi with rfl | hi
      · rw [ha] at hi2; cases hi2
      · exact ⟨i, hi, hi2⟩
    · rw [ha]; rfl

theorem readSet_some {α : Type} (xs : List α) {i : ℕ} (h : i < xs.length) : readSet (xs.map some) i = .ok xs[i] := by
  unfold readSet
  simp [h]

theorem massLoop_equal {xs : List ℝ} (h : ∀ x ∈ xs, ∀ y ∈ xs, x = y) : massLoop (xs.map some) xs.length = .ok () := by
  refine forM_ok _ (fun i hi => ?_)
  have hi := List.mem_range.1 hi
  rw [readSet_some xs hi, readSet_some xs (by omega : 0 < xs.length)]
  simp only [bind, Except.bind]
  rw [if_neg (not_not.2 (h _ (List.getElem_mem _) _ (List.getElem_mem _)))]

theorem massLoop_differ {xs : List ℝ} {x y : ℝ} (hx : x ∈ xs) (hy : y ∈ xs) (hxy : x ≠ y) :
    massLoop (xs.map some) xs.length = .error (.exit 0) := by
  have h0 : 0 < xs.length := List.length_pos_of_mem hx
  refine forM_error _ (fun i hi => ?_) ?_
  · have hi := List.mem_range.1 hi
    rw [readSet_some xs hi, readSet_some xs h0]
    simp only [bind, Except.bind]
    by_cases hc : xs[i] ≠ xs[0]
    · rw [if_pos hc]; exact Or.inr rfl
    · rw [if_neg hc]; exact Or.inl rfl
  · have : ∃ z ∈ xs, z ≠ xs[0] := by
      by_cases hc : x = xs[0]
      · exact ⟨y, hy, fun h => hxy (hc.trans h.symm)⟩
      · exact ⟨x, hx, hc⟩
    obtain ⟨z, hz, hz2⟩ := this
    obtain ⟨i, hi, rfl⟩ := List.getElem_of_mem hz
    refine ⟨i, List.mem_range.2 hi, ?_⟩
    rw [readSet_some xs hi, readSet_some xs h0]
    simp only [bind, Except.bind]
    rw [if_pos hz2]

/-- The arrays after reading. -/
def arraysOf (ps : List Particle) : Arrays where
  Pos := ps.map (fun p => some p.pos)
  Vel := ps.map (fun p => some p.vel)
  Mass := ps.map (fun p => some p.rho)
  U := ps.map (fun p => some p.u)
  fraction := ps.map (fun p => some p.xHI)
  temp := List.replicate ps.length none
  Ne := ps.map (fun p => some p.ne)
  h := ps.map (fun p => some p.h)

theorem printFirst_ok {ps : List Particle} (h : ps ≠ []) : printFirst (arraysOf ps) ps.length = .ok () := by
  have h0 : 0 < ps.length := List.length_pos_of_ne_nil h
  have h1 : ps.length - 1 < ps.length := by omega
  unfold printFirst arraysOf
  have key : ∀ {α : Type} (f : Particle → α) {i : ℕ} (hi : i < ps.length), readSet (ps.map (fun p => some (f p))) i = .ok (f ps[i]) := by
    intro α f i hi
    unfold readSet
    simp [hi]
  simp only [key _ h0, key _ h1]
  rfl

theorem load_whole {split : Bool} {s : GSnap} {ps : List Particle} (hs : HoldsSnap split s ps)
    (heq : ∀ p ∈ ps, ∀ q ∈ ps, p.rho = q.rho) (P : Mem) :
    load_snapshot split s 0 P = .ok ((ps.length : ℤ), .live (arraysOf ps)) := by
  have h0 : 0 < ps.length := List.length_pos_of_ne_nil hs.nonempty
  have hm : massLoop ((ps.map (·.rho)).map some) ps.length = .ok () := by
    have := massLoop_equal (xs := ps.map (·.rho)) (by
      intro x hx y hy
      obtain ⟨p, hp, rfl⟩ := List.mem_map.1 hx
      obtain ⟨q, hq, rfl⟩ := List.mem_map.1 hy
      exact heq p hp q hq)
    simpa using this
  have hh : mapFirst (fun x => x / 2) ps.length ((ps.map (fun p => 2 * p.h)).map some) = ps.map (fun p => some p.h) := by
    have := CReader.mapFirst_append (fun x : ℝ => x / 2) (ps.map (fun p => 2 * p.h)) []
    simpa [Function.comp_def] using this
  unfold load_snapshot
  simp only [hs.num, Nat.cast_zero, sub_zero, Int.toNat_natCast]
  rw [if_neg (by omega), if_neg (by omega)]
  unfold readCooling alloc_parts
  rw [if_pos hs.cooling, hs.pos, hs.vel, hs.rho, hs.u, hs.xHI, hs.size]
  simp only
  rw [getBlock_whole (ps.map (·.rho)) _ (by simp) (by simp), hm]
  cases split with
  | false =>
    have hne : s.NE = some (ps.map (fun p => p.ne)) := by simpa [HoldsElectrons] using hs.ne
    rw [hne]
    simp only [Bool.false_eq_true, if_false, if_true, bind, Except.bind]
    rw [getBlock_whole _ _ (by simp) (by simp), getBlock_whole _ _ (by simp) (by simp), getBlock_whole _ _ (by simp) (by simp),
      getBlock_whole _ _ (by simp) (by simp), getBlock_whole _ _ (by simp) (by simp), getBlock_whole _ _ (by simp) (by simp), hh]
    have := printFirst_ok hs.nonempty
    unfold arraysOf at this ⊢
    simp only [List.map_map, Function.comp_def]
    rw [this]
    rfl
  | true =>
    obtain ⟨ions, e1, e2, e3, e4⟩ : ∃ ions : List (ℝ × ℝ × ℝ), s.NHP = some (ions.map (fun e => e.1)) ∧
        s.NHEP = some (ions.map (fun e => e.2.1)) ∧ s.NHEQ = some (ions.map (fun e => e.2.2)) ∧
        ps.map (fun p => p.ne) = ions.map (fun e => e.1 + e.2.1 + 2 * e.2.2) := by simpa [HoldsElectrons] using hs.ne
    have el : ions.length = ps.length := by simpa using (congrArg List.length e4).symm
    rw [e1, e2, e3]
    simp only [if_true, bind, Except.bind]
    rw [getBlock_whole (ions.map (fun e => e.1)) _ (by simpa using el) (by simp),
      getBlock_whole (ions.map (fun e => e.2.1)) _ (by simpa using el) (by simp),
      getBlock_whole (ions.map (fun e => e.2.2)) _ (by simpa using el) (by simpa using el), addTo_whole, addTo_whole,
      getBlock_whole (ps.map (fun p => 2 * p.h)) _ (by simp) (by simpa using el), hh,
      getBlock_whole _ _ (by simp) (by simp), getBlock_whole _ _ (by simp) (by simp),
      getBlock_whole _ _ (by simp) (by simp), getBlock_whole _ _ (by simp) (by simp)]
    have e5 : (ions.map (fun e => e.1 + 1 * e.2.1 + 2 * e.2.2)).map some = ps.map (fun p => some p.ne) := by
      simp only [one_mul]
      rw [← e4, List.map_map]
      rfl
    rw [e5]
    have := printFirst_ok hs.nonempty
    unfold arraysOf at this ⊢
    simp only [List.map_map, Function.comp_def]
    rw [this]
    rfl

/-- C120 (partial: only when all densities are the same, see `densities_differ_stop`). The particles passed to the interpolator are
those of the snapshot, each once, with both ways of storing the electrons. -/
theorem gadget_read_partial {split : Bool} (c : Cosmo) {s : GSnap} {ps : List Particle} (hs : HoldsSnap split s ps)
    (heq : ∀ p ∈ ps, ∀ q ∈ ps, p.rho = q.rho) (P : Mem) : gadgetPass split c s P = .ok (ps.map (expected c), .wild) := by
  have h0 : 0 < ps.length := List.length_pos_of_ne_nil hs.nonempty
  obtain ⟨p0, hp0⟩ := List.exists_mem_of_ne_nil ps hs.nonempty
  have hf : CReader.Filled (arraysOf ps) ps := ⟨List.prefix_rfl, List.prefix_rfl, List.prefix_rfl, List.prefix_rfl,
    List.prefix_rfl, List.prefix_rfl, List.prefix_rfl⟩
  unfold gadgetPass
  rw [load_whole hs heq]
  simp only [bind, Except.bind, Int.toNat_natCast]
  rw [if_neg (by omega)]
  have := CReader.mapM_range (f := fun ii => convert c (arraysOf ps) ii) (g := fun i => expected c (ps.getD i p0)) (n := ps.length)
    (fun i hi => by
      rw [CReader.convert_filled c hf hi]
      simp [List.getD, List.getElem?_eq_getElem hi])
  simp only [this, CReader.map_range_get]
  rfl

/-- C120 is false of every snapshot with two gas particles of different density, whatever else is in it: they are taken for masses
which should all be the same. -/
theorem densities_differ_stop (split : Bool) (c : Cosmo) {s : GSnap} {rhos : List ℝ} (hr : s.RHO = some rhos)
    (hn : s.header.npart = rhos.length) {x y : ℝ} (hx : x ∈ rhos) (hy : y ∈ rhos) (hxy : x ≠ y) (P : Mem) :
    gadgetPass split c s P = .error (.exit 0) := by
  have h0 : 0 < rhos.length := List.length_pos_of_mem hx
  unfold gadgetPass load_snapshot
  simp only [hn, Nat.cast_zero, sub_zero, Int.toNat_natCast]
  rw [if_neg (by omega), if_neg (by omega), hr, getBlock_whole rhos _ rfl (by simp [alloc_parts]), massLoop_differ hx hy hxy]
  rfl

/-! ### What is needed for particles to be read -/

theorem bind_ok {α β : Type} {x : CRes α} {f : α → CRes β} {b : β} (h : (x >>= f) = .ok b) : ∃ a, x = .ok a ∧ f a = .ok b := by
  cases x with
  | error e => cases h
  | ok a => exact ⟨a, rfl, h⟩

theorem readSet_set {α : Type} {l : List (Option α)} {i : ℕ} {x : α} (h : readSet l i = .ok x) : some x ∈ l := by
  unfold readSet at h
  split at h
  · cases h
  · cases h
  · rename_i y hy
    cases h
    exact List.mem_of_getElem? hy

theorem block_needed {α : Type} {b : Option (List α)} {n m start : ℕ} {x : α}
    (h : some x ∈ getBlock b (List.replicate m none) n start) : b.isSome = true := by
  cases b with
  | none =>
    have := List.eq_of_mem_replicate (show some x ∈ List.replicate m none from h)
    cases this
  | some xs => rfl

theorem addTo_needs {w : ℝ} {ne h : List (Option ℝ)} {x : ℝ} (hx : some x ∈ addTo w ne h) : (∃ a, some a ∈ ne) ∧ ∃ b, some b ∈ h := by
  unfold addTo at hx
  rw [List.mem_iff_getElem] at hx
  obtain ⟨i, hi, hx⟩ := hx
  rw [List.length_zipWith] at hi
  rw [List.getElem_zipWith] at hx
  have h1 : i < ne.length := by omega
  have h2 : i < h.length := by omega
  cases e1 : ne[i] with
  | none => rw [e1] at hx; cases hx
  | some a =>
    cases e2 : h[i] with
    | none => rw [e1, e2] at hx; cases hx
    | some b => exact ⟨⟨a, e1 ▸ List.getElem_mem h1⟩, ⟨b, e2 ▸ List.getElem_mem h2⟩⟩

theorem mapFirst_needs {f : ℝ → ℝ} {n : ℕ} {l : List (Option ℝ)} {x : ℝ} (h : some x ∈ mapFirst f n l) : ∃ y, some y ∈ l := by
  unfold mapFirst at h
  rcases List.mem_append.1 h with h | h
  · obtain ⟨y, hy, hy2⟩ := List.mem_map.1 h
    cases y with
    | none => cases hy2
    | some y => exact ⟨y, List.mem_of_mem_take hy⟩
  · exact ⟨x, List.mem_of_mem_drop h⟩

theorem massLoop_same {l : List (Option ℝ)} {n : ℕ} (h : massLoop l n = .ok ()) :
    ∀ i < n, ∃ m, l[i]? = some (some m) ∧ l[0]? = some (some m) := by
  have : ∀ k : List ℕ, k.forM (fun i => do
      let m ← readSet l i
      let m0 ← readSet l 0
      if m ≠ m0 then (.error (.exit 0) : CRes Unit) else .ok ()) = .ok () → ∀ i ∈ k, ∃ m, l[i]? = some (some m) ∧ l[0]? = some (some m) := by
    intro k
    induction k with
    | nil => intro _ i hi; cases hi
    | cons a k ih =>
      intro hk i hi
      obtain ⟨u, h1, h2⟩ := bind_ok hk
      rcases List.mem_cons.1 hi with rfl | hi
      · obtain ⟨m, h3, h4⟩ := bind_ok h1
        obtain ⟨m0, h5, h6⟩ := bind_ok h4
        split at h6
        · cases h6
        · rename_i hm
          have hm := not_not.1 hm
          subst hm
          have hget : ∀ j, readSet l j = .ok m → l[j]? = some (some m) := by
            intro j hj
            unfold readSet at hj
            split at hj
            · cases hj
            · cases hj
            · rename_i y hy; cases hj; exact hy
          exact ⟨m, hget _ h3, hget _ h5⟩
      · exact ih h2 i hi
  exact fun i hi => this _ h i (List.mem_range.2 hi)

/-- C120 (what the program requires). If particles come out of the reader then there is gas, cooling was on, the blocks are there, and
all the densities that were read are the same. -/
theorem read_needs {split : Bool} {c : Cosmo} {s : GSnap} {P : Mem} {r : List Handed × Mem} (h : gadgetPass split c s P = .ok r) :
    0 < s.header.npart ∧ s.flag_cooling ≠ 0 ∧ s.POS.isSome ∧ s.VEL.isSome ∧ s.U.isSome ∧ s.NH.isSome ∧
      (split = false → s.NE.isSome ∧ s.HSML.isSome) ∧ (split = true → s.NHP.isSome ∧ s.NHEP.isSome) ∧
      ∃ rhos, s.RHO = some rhos ∧ s.header.npart ≤ rhos.length ∧
        ∀ i j : ℕ, i < s.header.npart → j < s.header.npart → rhos[i]? = rhos[j]? := by
  unfold gadgetPass at h
  obtain ⟨⟨np, P'⟩, h1, h2⟩ := bind_ok h
  have hnp : np ≠ 0 := by
    intro h0
    subst h0
    obtain ⟨u, h3, -⟩ := bind_ok h2
    cases h3
  unfold load_snapshot at h1
  simp only [Nat.cast_zero, sub_zero] at h1
  split at h1
  · cases h1; exact absurd rfl hnp
  rename_i hn0
  split at h1
  · cases h1
  rename_i hn1
  have hpos : 0 < s.header.npart := by omega
  obtain ⟨u, h3, h4⟩ := bind_ok h1
  simp only [if_true] at h4
  obtain ⟨u', h5, -⟩ := bind_ok h4
  unfold printFirst at h5
  obtain ⟨_, p1, h5⟩ := bind_ok h5
  obtain ⟨_, p2, h5⟩ := bind_ok h5
  obtain ⟨_, p3, h5⟩ := bind_ok h5
  obtain ⟨_, p4, h5⟩ := bind_ok h5
  obtain ⟨_, p5, h5⟩ := bind_ok h5
  obtain ⟨_, p6, h5⟩ := bind_ok h5
  obtain ⟨_, p7, -⟩ := bind_ok h5
  have hc : s.flag_cooling ≠ 0 := by
    intro hc
    unfold readCooling at p5
    rw [if_neg (by simpa using hc)] at p5
    cases List.eq_of_mem_replicate (readSet_set p5)
  unfold readCooling at p1 p2 p4 p5 p6 p7
  simp only [hc, ne_eq, not_false_eq_true, if_true] at p1 p2 p4 p5 p6 p7
  have hrho : s.RHO.isSome := by
    have := massLoop_same h3 0 (by omega)
    obtain ⟨m, -, hm⟩ := this
    exact block_needed (List.mem_of_getElem? hm)
  obtain ⟨rhos, hr⟩ := Option.isSome_iff_exists.1 hrho
  have hsame := massLoop_same h3
  rw [hr] at hsame
  have hlen : s.header.npart.toNat ≤ rhos.length := by
    by_contra hlt
    obtain ⟨m, hm, -⟩ := hsame rhos.length (by omega)
    unfold getBlock alloc_parts at hm
    simp only [List.drop_zero] at hm
    rw [List.take_of_length_le (by omega), List.getElem?_append_right (by simp)] at hm
    simp only [List.length_map, Nat.sub_self, List.drop_replicate] at hm
    cases List.eq_of_mem_replicate (List.mem_of_getElem? hm)
  have hget : ∀ i < s.header.npart.toNat, rhos[i]? = rhos[0]? := by
    intro i hi
    obtain ⟨m, m1, m2⟩ := hsame i hi
    unfold getBlock at m1 m2
    simp only [List.drop_zero] at m1 m2
    rw [List.getElem?_append_left (by simp; omega)] at m1 m2
    rw [List.getElem?_map, List.getElem?_take_of_lt (by omega)] at m1 m2
    have q : ∀ {k : ℕ}, Option.map some rhos[k]? = some (some m) → rhos[k]? = some m := by
      intro k hk
      cases e : rhos[k]? with
      | none => rw [e] at hk; cases hk
      | some z => rw [e] at hk; cases hk; rfl
    rw [q m1, q m2]
  refine ⟨hpos, hc, ?_, ?_, ?_, ?_, ?_, ?_, rhos, hr, by omega, fun i j hi hj => by rw [hget i (by omega), hget j (by omega)]⟩
  · cases split <;> exact block_needed (readSet_set p1)
  · cases split <;> exact block_needed (readSet_set p2)
  · cases split <;> exact block_needed (readSet_set p4)
  · cases split <;> exact block_needed (readSet_set p6)
  · intro e
    subst e
    refine ⟨block_needed (readSet_set p5), ?_⟩
    obtain ⟨y, hy⟩ := mapFirst_needs (readSet_set p7)
    exact block_needed hy
  · intro e
    subst e
    obtain ⟨⟨a, ha⟩, -⟩ := addTo_needs (readSet_set p5)
    obtain ⟨⟨a1, ha1⟩, ⟨b1, hb1⟩⟩ := addTo_needs ha
    exact ⟨block_needed ha1, block_needed hb1⟩

/-! ### Numbers which are not in the snapshot -/

theorem getBlock_twice {α : Type} (b : Option (List α)) (buf : List (Option α)) (n start : ℕ) :
    getBlock b (getBlock b buf n start) n start = getBlock b buf n start := by
  cases b with
  | none => rfl
  | some xs =>
    unfold getBlock
    simp only
    rw [List.drop_left' (by simp)]

theorem size_from_ions (s : GSnap) (hc : s.flag_cooling ≠ 0) (P : Mem) :
    load_snapshot true { s with HSML := none } 0 P = load_snapshot true { s with HSML := s.NHEQ } 0 P := by
  unfold load_snapshot readCooling
  simp only [hc, ne_eq, not_false_eq_true, if_true, getBlock_twice]
  rfl

/-- C120 is false of a snapshot with the numbers of ions and without smoothing lengths: instead of an error, half the number of helium
nuclei without electrons, left in memory, is taken for the length of the kernel. -/
theorem leftover_lengths (c : Cosmo) {s : GSnap} {ps : List Particle} {qs : List ℝ} (hs : HoldsSnap true s ps)
    (hq : s.NHEQ = some qs) (heq : ∀ p ∈ ps, ∀ q ∈ ps, p.rho = q.rho) (P : Mem) :
    gadgetPass true c { s with HSML := none } P =
      .ok ((ps.zip qs).map (fun x => expected c { x.1 with h := x.2 / 2 }), .wild) := by
  obtain ⟨ions, e1, e2, e3, e4⟩ : ∃ ions : List (ℝ × ℝ × ℝ), s.NHP = some (ions.map (fun e => e.1)) ∧
      s.NHEP = some (ions.map (fun e => e.2.1)) ∧ s.NHEQ = some (ions.map (fun e => e.2.2)) ∧
      ps.map (fun p => p.ne) = ions.map (fun e => e.1 + e.2.1 + 2 * e.2.2) := by simpa [HoldsElectrons] using hs.ne
  have hlen : ps.length = qs.length := by
    have h1 := congrArg List.length e4
    rw [hq] at e3
    have h2 := congrArg List.length (Option.some.inj e3)
    simp only [List.length_map] at h1 h2
    omega
  have hfst : ∀ {β : Type} (f : Particle → β), (ps.zip qs).map (fun x => f x.1) = ps.map f := by
    intro β f
    have := congrArg (List.map f) (List.map_fst_zip (l₁ := ps) (l₂ := qs) hlen.le)
    simpa [Function.comp_def] using this
  have hh : HoldsSnap true { s with HSML := s.NHEQ } ((ps.zip qs).map (fun x => { x.1 with h := x.2 / 2 })) := by
    constructor
    case files => exact hs.files
    case num => simpa [hlen] using hs.num
    case nonempty =>
      have := hs.nonempty
      intro h
      rw [List.map_eq_nil_iff, List.zip_eq_nil_iff] at h
      rcases h with h | h
      · exact this h
      · exact this (List.eq_nil_of_length_eq_zero (by rw [hlen, h]; rfl))
    case cooling => exact hs.cooling
    case pos => rw [List.map_map]; exact hs.pos.trans (congrArg some (hfst (·.pos)).symm)
    case vel => rw [List.map_map]; exact hs.vel.trans (congrArg some (hfst (·.vel)).symm)
    case rho => rw [List.map_map]; exact hs.rho.trans (congrArg some (hfst (·.rho)).symm)
    case u => rw [List.map_map]; exact hs.u.trans (congrArg some (hfst (·.u)).symm)
    case ne =>
      unfold HoldsElectrons
      rw [if_pos rfl]
      exact ⟨ions, e1, e2, e3, by rw [List.map_map]; exact (hfst (·.ne)).trans e4⟩
    case xHI => rw [List.map_map]; exact hs.xHI.trans (congrArg some (hfst (·.xHI)).symm)
    case size =>
      have : (ps.zip qs).map (fun x => 2 * (x.2 / 2)) = qs := by
        have h2 := List.map_snd_zip (l₁ := ps) (l₂ := qs) hlen.ge
        conv_rhs => rw [← h2]
        apply List.map_congr_left
        intro x _
        ring
      rw [List.map_map]
      exact hq.trans (congrArg some this.symm)
  have hgo := gadget_read_partial c hh (by
    intro p hp q hq
    obtain ⟨x, hx, rfl⟩ := List.mem_map.1 hp
    obtain ⟨y, hy, rfl⟩ := List.mem_map.1 hq
    exact heq x.1 (List.of_mem_zip hx).1 y.1 (List.of_mem_zip hy).1) P
  unfold gadgetPass at hgo ⊢
  rw [size_from_ions s hs.cooling, hgo, List.map_map]
  rfl

/-- C120 is false of a snapshot without the number of helium nuclei without electrons: instead of an error, it is taken to be the
number of helium ions with one. -/
theorem leftover_ions (c : Cosmo) {s : GSnap} {ps : List Particle} (hs : HoldsSnap true { s with NHEQ := s.NHEP } ps)
    (heq : ∀ p ∈ ps, ∀ q ∈ ps, p.rho = q.rho) (P : Mem) :
    gadgetPass true c { s with NHEQ := none } P = .ok (ps.map (expected c), .wild) := by
  have e : load_snapshot true { s with NHEQ := none } 0 P = load_snapshot true { s with NHEQ := s.NHEP } 0 P := by
    have hc : s.flag_cooling ≠ 0 := hs.cooling
    unfold load_snapshot readCooling
    simp only [hc, ne_eq, not_false_eq_true, if_true, getBlock_twice]
    rfl
  have := gadget_read_partial c hs heq P
  unfold gadgetPass at this ⊢
  rw [e, this]

/-- C120 is false of a simulation without cooling, with whatever blocks: electrons and neutral fraction are read from memory that was
never written. -/
theorem no_cooling_fails {split : Bool} (c : Cosmo) {s : GSnap} {ps : List Particle} (hs : HoldsSnap split s ps)
    (heq : ∀ p ∈ ps, ∀ q ∈ ps, p.rho = q.rho) (P : Mem) :
    gadgetPass split c { s with flag_cooling := 0 } P = .error .assertFailed := by
  have h0 : 0 < ps.length := List.length_pos_of_ne_nil hs.nonempty
  have hm : massLoop ((ps.map (·.rho)).map some) ps.length = .ok () := by
    have := massLoop_equal (xs := ps.map (·.rho)) (by
      intro x hx y hy
      obtain ⟨p, hp, rfl⟩ := List.mem_map.1 hx
      obtain ⟨q, hq, rfl⟩ := List.mem_map.1 hy
      exact heq p hp q hq)
    simpa using this
  have key : ∀ {α : Type} (f : Particle → α) {i : ℕ} (hi : i < ps.length), readSet ((ps.map f).map some) i = .ok (f ps[i]) := by
    intro α f i hi
    rw [readSet_some _ (by simpa using hi)]
    simp
  have hnone : readSet (List.replicate ps.length (none : Option ℝ)) (ps.length - 1) = .error .assertFailed := by
    unfold readSet
    rw [List.getElem?_replicate, if_pos (by omega)]
  unfold gadgetPass load_snapshot
  simp only [hs.num, Nat.cast_zero, sub_zero, Int.toNat_natCast]
  rw [if_neg (by omega), if_neg (by omega)]
  have hoff : ∀ (n start : ℕ) (a : Arrays), readCooling split { s with flag_cooling := 0 } n start a = a := by
    intro n start a
    unfold readCooling
    rw [if_neg (by simp)]
  simp only [hoff]
  unfold alloc_parts printFirst
  rw [hs.pos, hs.vel, hs.rho, hs.u]
  simp only [if_true]
  rw [getBlock_whole (ps.map (·.rho)) _ (by simp) (by simp), hm, getBlock_whole _ _ (by simp) (by simp),
    getBlock_whole _ _ (by simp) (by simp), getBlock_whole _ _ (by simp) (by simp), key _ h0, key _ h0, key _ h0,
    key _ (by omega : ps.length - 1 < ps.length), hnone]
  rfl

/-! ### The whole program -/

/-- The name is not that of an HDF5 file, nor of the first file of a set of them. -/
def NotHdf (disk : Disk) (indir : List Char) : Prop := disk.isHdf indir = false ∧ disk.isHdf (indir ++ firstSuffix) = false

theorem both_eq {split : Bool} {profile : ℝ → ℝ → ℝ} {bits : ℝ → Bits} {disk : Disk} {snapOf : List Char → GSnap} {drand : List ℝ}
    {fuel : ℕ} {opts : List Opt} {out indir : List Char} {n : ℕ} {table : Option (List Char)} {lines : List Line}
    (hr : Request opts out indir n table) (hn : 0 < n) (hn2 : n * 1024 < 2 ^ 31) (hi : indir ≠ []) (hh : NotHdf disk indir)
    (hf : 0 < (snapOf indir).numFiles) (hbox : 0 < (snapOf indir).header.box100)
    (hl : Sightlines disk drand n (snapOf indir).header.box100 table lines) :
    extractBoth split true profile bits disk snapOf drand fuel opts =
      finishGadget split profile bits disk ⟨out ++ datSuffix, indir, n, table⟩ (snapOf indir) (snapOf indir).header lines := by
  unfold extractBoth
  rw [Extract.options_from opts hr.plain, hr.o, hr.i, hr.n, hr.t]
  simp only [Option.map_some, Option.getD_some, Extract.atoi_dec, Args.init, Option.or_none]
  obtain ⟨⟨los, h1, h2⟩, -, -⟩ := Extract.sightlines_ok hbox hl (a := ⟨out ++ datSuffix, indir, n, table⟩) rfl rfl
  have hfind : find_first_hdf_file disk.isHdf indir = none := by
    unfold find_first_hdf_file
    rw [hh.1, hh.2]
    rfl
  have hload : load_header (snapOf indir) = some (snapOf indir).header := by
    unfold load_header
    rw [if_neg (by omega)]
  rw [if_neg (by omega), if_neg hi, if_neg (by unfold NBINS; push_cast; omega), hfind, hload]
  simp only [Option.bind_none, Option.none_or, h1, h2, Option.isSome_none, Bool.false_eq_true, if_false]

/-- C120 (partial: only when all densities are the same, see `densities_differ_exit`). The program writes the spectra of all the gas in
the snapshot along all the sightlines. -/
theorem gadget_writes_partial {split : Bool} {profile : ℝ → ℝ → ℝ} {bits : ℝ → Bits} {disk : Disk} {snapOf : List Char → GSnap}
    {drand : List ℝ} {fuel : ℕ} {opts : List Opt} {out indir : List Char} {n : ℕ} {table : Option (List Char)} {lines : List Line}
    {ps : List Particle} (hr : Request opts out indir n table) (hn : 0 < n) (hn2 : n * 1024 < 2 ^ 31) (hi : indir ≠ [])
    (hh : NotHdf disk indir) (hs : HoldsSnap split (snapOf indir) ps) (heq : ∀ p ∈ ps, ∀ q ∈ ps, p.rho = q.rho)
    (hbox : 0 < (snapOf indir).header.box100) (hgood : ∀ p ∈ ps, GoodPart (snapOf indir).header.box100 (p.pos, p.h))
    (hl : Sightlines disk drand n (snapOf indir).header.box100 table lines) (hw : disk.canWrite (out ++ datSuffix) = true) :
    Writes (extractBoth split true profile bits disk snapOf drand fuel opts) bits (snapOf indir).header
      (lyman profile (snapOf indir).header) (ps.map (gasPart (snapOf indir).header)) lines out := by
  obtain ⟨-, hlen, hgl⟩ := Extract.sightlines_ok hbox hl (a := ⟨out ++ datSuffix, indir, n, table⟩) rfl rfl
  have hk : (lyman profile (snapOf indir).header).kernel ≠ VORONOI_MESH := by
    change SPH_CUBIC_SPLINE ≠ VORONOI_MESH
    decide
  have hp : ∀ p ∈ ps.map (gasPart (snapOf indir).header), GoodPart (snapOf indir).header.box100 (p.pos, p.h) := by
    intro p hp
    obtain ⟨q, hq, rfl⟩ := List.mem_map.1 hp
    exact hgood q hq
  obtain ⟨tau, t1, t2, t3⟩ := tau_end_to_end (lyman profile (snapOf indir).header) hk (nbins := NBINS) (by decide) hbox hgl hp
  obtain ⟨colden, c1, c2, c3⟩ := colden_end_to_end (lyman profile (snapOf indir).header) hk (nbins := NBINS) (by decide) hbox hgl hp
  refine ⟨tau, colden, ?_, ?_, ?_, fun i l hi => ⟨t3 i l hi, c3 i l hi⟩⟩
  · rw [both_eq hr hn hn2 hi hh hs.files hbox hl]
    unfold finishGadget runGadget
    have e0 : (((n : ℕ) : ℤ) * (NBINS : ℕ)).toNat = lines.length * NBINS := by rw [hlen]; exact_mod_cast Int.toNat_natCast _
    simp only [hw, Bool.true_eq_false, if_false]
    rw [e0, gadget_read_partial _ hs heq, Extract.interpolator_lyman]
    simp only [bind, Except.bind, Extract.mapM_partOf, t1, c1, pure, Except.pure]
    rw [hlen]
  · rw [t2, NBINS, mul_comm]
  · rw [c2, NBINS, mul_comm]

/-- C120 is false of every snapshot with two gas particles of different density: the output file is emptied, nothing is written to it,
and the code of the program is that of success. -/
theorem densities_differ_exit {split : Bool} {profile : ℝ → ℝ → ℝ} {bits : ℝ → Bits} {disk : Disk} {snapOf : List Char → GSnap}
    {drand : List ℝ} {fuel : ℕ} {opts : List Opt} {out indir : List Char} {n : ℕ} {table : Option (List Char)} {lines : List Line}
    {ps : List Particle} (hr : Request opts out indir n table) (hn : 0 < n) (hn2 : n * 1024 < 2 ^ 31) (hi : indir ≠ [])
    (hh : NotHdf disk indir) (hs : HoldsSnap split (snapOf indir) ps) {p q : Particle} (hp : p ∈ ps) (hq : q ∈ ps)
    (hpq : p.rho ≠ q.rho) (hbox : 0 < (snapOf indir).header.box100)
    (hl : Sightlines disk drand n (snapOf indir).header.box100 table lines) (hw : disk.canWrite (out ++ datSuffix) = true) :
    extractBoth split true profile bits disk snapOf drand fuel opts = some (.exit 0 (some (out ++ datSuffix))) := by
  rw [both_eq hr hn hn2 hi hh hs.files hbox hl]
  unfold finishGadget runGadget
  simp only [hw, Bool.true_eq_false, if_false]
  rw [densities_differ_stop split _ hs.rho (by simp [hs.num]) (List.mem_map_of_mem hp) (List.mem_map_of_mem hq) hpq]
  rfl

/-- C120. If the output file cannot be opened the program says so with code 1. -/
theorem gadget_unwritable {split : Bool} {profile : ℝ → ℝ → ℝ} {bits : ℝ → Bits} {disk : Disk} {snapOf : List Char → GSnap}
    {drand : List ℝ} {fuel : ℕ} {opts : List Opt} {out indir : List Char} {n : ℕ} {table : Option (List Char)} {lines : List Line}
    (hr : Request opts out indir n table) (hn : 0 < n) (hn2 : n * 1024 < 2 ^ 31) (hi : indir ≠ [])
    (hh : NotHdf disk indir) (hf : 0 < (snapOf indir).numFiles) (hbox : 0 < (snapOf indir).header.box100)
    (hl : Sightlines disk drand n (snapOf indir).header.box100 table lines) (hw : disk.canWrite (out ++ datSuffix) = false) :
    extractBoth split true profile bits disk snapOf drand fuel opts = some (.exit 1 none) := by
  rw [both_eq hr hn hn2 hi hh hf hbox hl]
  unfold finishGadget
  simp only [hw, if_true]

/-- C120. A snapshot without gas is reported with code 2, after the output file was emptied. -/
theorem gadget_no_gas {split : Bool} {profile : ℝ → ℝ → ℝ} {bits : ℝ → Bits} {disk : Disk} {snapOf : List Char → GSnap}
    {drand : List ℝ} {fuel : ℕ} {opts : List Opt} {out indir : List Char} {n : ℕ} {table : Option (List Char)} {lines : List Line}
    (hr : Request opts out indir n table) (hn : 0 < n) (hn2 : n * 1024 < 2 ^ 31) (hi : indir ≠ [])
    (hh : NotHdf disk indir) (hf : 0 < (snapOf indir).numFiles) (h0 : (snapOf indir).header.npart = 0)
    (hbox : 0 < (snapOf indir).header.box100)
    (hl : Sightlines disk drand n (snapOf indir).header.box100 table lines) (hw : disk.canWrite (out ++ datSuffix) = true) :
    extractBoth split true profile bits disk snapOf drand fuel opts = some (.exit 2 (some (out ++ datSuffix))) := by
  rw [both_eq hr hn hn2 hi hh hf hbox hl]
  unfold finishGadget runGadget gadgetPass load_snapshot
  simp only [hw, Bool.true_eq_false, if_false, h0]
  rfl

/-- C120. Spectra come out only of a snapshot with gas and cooling, with all the blocks, and with the same density everywhere. -/
theorem gadget_wrote_needs {split : Bool} {profile : ℝ → ℝ → ℝ} {bits : ℝ → Bits} {disk : Disk} {snapOf : List Char → GSnap}
    {drand : List ℝ} {fuel : ℕ} {opts : List Opt} {out indir : List Char} {n : ℕ} {table : Option (List Char)} {lines : List Line}
    (hr : Request opts out indir n table) (hn : 0 < n) (hn2 : n * 1024 < 2 ^ 31) (hi : indir ≠ [])
    (hh : NotHdf disk indir) (hf : 0 < (snapOf indir).numFiles) (hbox : 0 < (snapOf indir).header.box100)
    (hl : Sightlines disk drand n (snapOf indir).header.box100 table lines) {name : List Char} {content : List ℕ}
    (he : extractBoth split true profile bits disk snapOf drand fuel opts = some (.wrote name content)) :
    name = out ++ datSuffix ∧ disk.canWrite name = true ∧ 0 < (snapOf indir).header.npart ∧ (snapOf indir).flag_cooling ≠ 0 ∧
      (snapOf indir).POS.isSome ∧ (snapOf indir).VEL.isSome ∧ (snapOf indir).U.isSome ∧ (snapOf indir).NH.isSome ∧
      (split = false → (snapOf indir).NE.isSome ∧ (snapOf indir).HSML.isSome) ∧
      (split = true → (snapOf indir).NHP.isSome ∧ (snapOf indir).NHEP.isSome) ∧
      ∃ rhos, (snapOf indir).RHO = some rhos ∧ (snapOf indir).header.npart ≤ rhos.length ∧
        ∀ i j : ℕ, i < (snapOf indir).header.npart → j < (snapOf indir).header.npart → rhos[i]? = rhos[j]? := by
  rw [both_eq hr hn hn2 hi hh hf hbox hl] at he
  unfold finishGadget at he
  dsimp only at he
  split at he
  · cases he
  rename_i hw
  split at he
  · rename_i e he2
    cases e <;> cases he
  · rename_i tau colden hrun
    cases he
    unfold runGadget at hrun
    obtain ⟨r, hr1, -⟩ := bind_ok hrun
    exact ⟨rfl, by simpa using hw, read_needs hr1⟩

/-- C120. If nothing is found under the name the program stops with an error, and no file is touched. -/
theorem gadget_missing {split : Bool} {profile : ℝ → ℝ → ℝ} {bits : ℝ → Bits} {disk : Disk} {snapOf : List Char → GSnap}
    {drand : List ℝ} {fuel : ℕ} {opts : List Opt} {out indir : List Char} {n : ℕ} {table : Option (List Char)}
    (hr : Request opts out indir n table) (hn : 0 < n) (hn2 : n * 1024 < 2 ^ 31) (hi : indir ≠ [])
    (hh : NotHdf disk indir) (hf : (snapOf indir).numFiles ≤ 0) :
    extractBoth split true profile bits disk snapOf drand fuel opts = some (.exit 2 none) := by
  unfold extractBoth
  rw [Extract.options_from opts hr.plain, hr.o, hr.i, hr.n, hr.t]
  simp only [Option.map_some, Option.getD_some, Extract.atoi_dec, Args.init, Option.or_none]
  have hfind : find_first_hdf_file disk.isHdf indir = none := by
    unfold find_first_hdf_file
    rw [hh.1, hh.2]
    rfl
  have hload : load_header (snapOf indir) = none := by
    unfold load_header
    rw [if_pos hf]
  rw [if_neg (by omega), if_neg hi, if_neg (by unfold NBINS; push_cast; omega), hfind, hload]
  simp

/-- C120. On a snapshot in HDF5 with gas the program does the same as without the other reader. -/
theorem hdf_unchanged {split b : Bool} {profile : ℝ → ℝ → ℝ} {bits : ℝ → Bits} {disk : Disk} {snapOf : List Char → GSnap}
    {drand : List ℝ} {fuel : ℕ} {opts : List Opt} {name : List Char} {hd : SnapHeader}
    (h1 : find_first_hdf_file disk.isHdf ((Extract.lastArg Extract.iArg opts).getD []) = some name)
    (h2 : disk.header name = some hd) (h3 : 0 < hd.npart) :
    extractBoth split b profile bits disk snapOf drand fuel opts = extract b profile bits disk drand fuel opts := by
  unfold extractBoth extract
  cases b with
  | false =>
    have h : ∀ a, options false opts a = .error (.exit 1) := by
      clear h1
      induction opts with
      | nil => intro a; rfl
      | cons x opts ih => intro a; cases x <;> first | exact ih _ | rfl
    rw [h]
  | true =>
    by_cases hp : Extract.Plain opts
    · rw [Extract.options_from opts hp]
      have hload : load_hdf5_header disk name = some (0, hd) := by
        unfold load_hdf5_header
        rw [h2]
        dsimp only
        rw [if_neg (by omega)]
      simp only [Args.init, h1, Option.bind_some, hload, Option.some_or, Option.isSome_some, if_true]
      rfl
    · rw [Extract.options_bad true opts hp]

/-! ### Examples -/

/-- Two gas particles, of the densities given. -/
noncomputable def twoGas (r₁ r₂ : ℝ) : List Particle := [⟨![1, 2, 3], ![10, 20, 30], r₁, 5, 1, 0.1, 2⟩, ⟨![4, 5, 6], ![-10, 0, 7], r₂, 6, 0.5, 0.2, 1⟩]

/-- A snapshot with them, in two files, with electrons and with ions. -/
noncomputable def exSnap (r₁ r₂ : ℝ) : GSnap where
  numFiles := 2
  header := ⟨1 / 4, 3, 20, 0.7, 0.3, 0.7, 2⟩
  flag_cooling := 1
  POS := some [![1, 2, 3], ![4, 5, 6]]
  VEL := some [![10, 20, 30], ![-10, 0, 7]]
  RHO := some [r₁, r₂]
  U := some [5, 6]
  NE := some [1, 0.5]
  NHP := some [0.5, 0.1]
  NHEP := some [0.3, 0.2]
  NHEQ := some [0.1, 0.1]
  NH := some [0.1, 0.2]
  HSML := some [4, 2]

theorem exHolds (split : Bool) (r₁ r₂ : ℝ) : HoldsSnap split (exSnap r₁ r₂) (twoGas r₁ r₂) where
  files := by norm_num [exSnap]
  num := by simp [exSnap, twoGas]
  nonempty := by simp [twoGas]
  cooling := by norm_num [exSnap]
  pos := by simp [exSnap, twoGas]
  vel := by simp [exSnap, twoGas]
  rho := by simp [exSnap, twoGas]
  u := by simp [exSnap, twoGas]
  ne := by
    cases split
    · simp [HoldsElectrons, exSnap, twoGas]
    · refine (if_pos rfl).mpr ⟨[(0.5, 0.3, 0.1), (0.1, 0.2, 0.1)], ?_, ?_, ?_, ?_⟩ <;> norm_num [exSnap, twoGas]
  xHI := by simp [exSnap, twoGas]
  size := by norm_num [exSnap, twoGas]

theorem exEqual : ∀ p ∈ twoGas 3 3, ∀ q ∈ twoGas 3 3, p.rho = q.rho := by simp [twoGas]

/-- A disk without HDF5 files. -/
noncomputable def binDisk : Disk := { Extract.exDisk 1 with isHdf := fun _ => false }

theorem binSightlines (drand : List ℝ) : Sightlines binDisk drand 2 20 (some ['l', 'o', 's'])
    [Extract.rowLine (1, 0, 0.001, 0.001), Extract.rowLine (3, 0.007, 0.006, 0)] :=
  .table ['l', 'o', 's'] [(1, 0, 0.001, 0.001), (3, 0.007, 0.006, 0)] [] rfl rfl (by
    intro r hr
    simp only [List.mem_cons, List.not_mem_nil, or_false] at hr
    rcases hr with rfl | rfl <;> (refine ⟨by norm_num, ⟨by norm_num, by norm_num⟩, ⟨by norm_num, by norm_num⟩, ⟨by norm_num, by norm_num⟩, by norm_num, by norm_num⟩))

example (split : Bool) (c : Cosmo) (P : Mem) : gadgetPass split c (exSnap 3 3) P = .ok ((twoGas 3 3).map (expected c), .wild) :=
  gadget_read_partial c (exHolds split 3 3) exEqual P

example (split : Bool) (c : Cosmo) (P : Mem) : gadgetPass split c (exSnap 3 4) P = .error (.exit 0) :=
  densities_differ_stop split c (exHolds split 3 4).rho (by simp [exSnap, twoGas]) (x := 3) (y := 4) (by simp [twoGas]) (by simp [twoGas]) (by norm_num) P

example (c : Cosmo) (P : Mem) := read_needs (gadget_read_partial c (exHolds false 3 3) exEqual P)

example (c : Cosmo) (P : Mem) := leftover_lengths c (exHolds true 3 3) (qs := [0.1, 0.1]) rfl exEqual P

/-- Without the last block the first particle has 0.5 + 0.3 + 0.6 electrons. -/
example (c : Cosmo) (P : Mem) : gadgetPass true c { exSnap 3 3 with NHEQ := none } P =
    .ok ([(⟨![1, 2, 3], ![10, 20, 30], 3, 5, 1.4, 0.1, 2⟩ : Particle), ⟨![4, 5, 6], ![-10, 0, 7], 3, 6, 0.7, 0.2, 1⟩].map (expected c), .wild) := by
  refine leftover_ions c (s := exSnap 3 3) ⟨by norm_num [exSnap], by simp [exSnap], by simp, by norm_num [exSnap], by simp [exSnap],
    by simp [exSnap], by simp [exSnap], by simp [exSnap], ?_, by simp [exSnap], by norm_num [exSnap]⟩ (by simp) P
  refine (if_pos rfl).mpr ⟨[(0.5, 0.3, 0.3), (0.1, 0.2, 0.2)], ?_, ?_, ?_, ?_⟩ <;> norm_num [exSnap]

example (split : Bool) (profile : ℝ → ℝ → ℝ) (bits : ℝ → Bits) (drand : List ℝ) (fuel : ℕ) :=
  gadget_unwritable (split := split) (profile := profile) (bits := bits) (drand := drand) (fuel := fuel)
    (disk := { binDisk with canWrite := fun _ => false }) (snapOf := fun _ => exSnap 3 3) Extract.exRequest (by norm_num) (by norm_num)
    (by simp) ⟨rfl, rfl⟩ (exHolds split 3 3).files (by norm_num [exSnap])
    (.table ['l', 'o', 's'] [(1, 0, 0.001, 0.001), (3, 0.007, 0.006, 0)] [] rfl rfl (by
      intro r hr
      simp only [List.mem_cons, List.not_mem_nil, or_false] at hr
      rcases hr with rfl | rfl <;> (refine ⟨by norm_num [exSnap], ⟨by norm_num [exSnap], by norm_num [exSnap]⟩, ⟨by norm_num [exSnap], by norm_num [exSnap]⟩, ⟨by norm_num [exSnap], by norm_num [exSnap]⟩, by norm_num [exSnap], by norm_num [exSnap]⟩)))
    rfl

example (split : Bool) (c : Cosmo) (P : Mem) := no_cooling_fails c (exHolds split 3 3) exEqual P

theorem exWrites (split : Bool) (profile : ℝ → ℝ → ℝ) (bits : ℝ → Bits) (drand : List ℝ) (fuel : ℕ) :
    Writes (extractBoth split true profile bits binDisk (fun _ => exSnap 3 3) drand fuel Extract.exOpts) bits (exSnap 3 3).header
      (lyman profile (exSnap 3 3).header) ((twoGas 3 3).map (gasPart (exSnap 3 3).header))
      [Extract.rowLine (1, 0, 0.001, 0.001), Extract.rowLine (3, 0.007, 0.006, 0)] ['s', 'p', 'e', 'c'] :=
  gadget_writes_partial (split := split) (profile := profile) (bits := bits) (drand := drand) (fuel := fuel) (disk := binDisk)
    (snapOf := fun _ => exSnap 3 3) Extract.exRequest (by norm_num) (by norm_num) (by simp) ⟨rfl, rfl⟩ (exHolds split 3 3) exEqual
    (by norm_num [exSnap]) (by
      intro p hp
      simp only [twoGas, List.mem_cons, List.not_mem_nil, or_false] at hp
      rcases hp with rfl | rfl
      all_goals
        refine ⟨fun i => ?_, by norm_num [exSnap], by norm_num [exSnap]⟩
        fin_cases i <;> norm_num [exSnap])
    (binSightlines drand) rfl

example (split : Bool) (profile : ℝ → ℝ → ℝ) (bits : ℝ → Bits) (drand : List ℝ) (fuel : ℕ) :
    extractBoth split true profile bits binDisk (fun _ => exSnap 3 4) drand fuel Extract.exOpts =
      some (.exit 0 (some (['s', 'p', 'e', 'c'] ++ datSuffix))) :=
  densities_differ_exit (disk := binDisk) (snapOf := fun _ => exSnap 3 4) Extract.exRequest (by norm_num) (by norm_num) (by simp) ⟨rfl, rfl⟩
    (exHolds split 3 4) (List.mem_cons_self) (List.mem_cons_of_mem _ List.mem_cons_self) (by norm_num) (by norm_num [exSnap])
    (binSightlines drand) rfl

example (split : Bool) (profile : ℝ → ℝ → ℝ) (bits : ℝ → Bits) (drand : List ℝ) (fuel : ℕ) :=
  gadget_no_gas (split := split) (profile := profile) (bits := bits) (drand := drand) (fuel := fuel) (disk := binDisk)
    (snapOf := fun _ => { exSnap 3 3 with header := ⟨1 / 4, 3, 20, 0.7, 0.3, 0.7, 0⟩ }) Extract.exRequest (by norm_num) (by norm_num)
    (by simp) ⟨rfl, rfl⟩ (by norm_num [exSnap]) rfl (by norm_num) (binSightlines drand) rfl

example (split : Bool) (profile : ℝ → ℝ → ℝ) (bits : ℝ → Bits) (drand : List ℝ) (fuel : ℕ) : (exSnap 3 3).NH.isSome := by
  obtain ⟨tau, colden, h, -⟩ := exWrites split profile bits drand fuel
  exact (gadget_wrote_needs Extract.exRequest (by norm_num) (by norm_num) (by simp) ⟨rfl, rfl⟩ (exHolds split 3 3).files
    (by norm_num [exSnap]) (binSightlines drand) h).2.2.2.2.2.2.2.1

example (split : Bool) (profile : ℝ → ℝ → ℝ) (bits : ℝ → Bits) (drand : List ℝ) (fuel : ℕ) :=
  gadget_missing (split := split) (profile := profile) (bits := bits) (drand := drand) (fuel := fuel) (disk := binDisk)
    (snapOf := fun _ => { exSnap 3 3 with numFiles := 0 }) Extract.exRequest (by norm_num) (by norm_num) (by simp) ⟨rfl, rfl⟩ le_rfl

example (split : Bool) (profile : ℝ → ℝ → ℝ) (bits : ℝ → Bits) (drand : List ℝ) (fuel : ℕ) (snapOf : List Char → GSnap) :
    extractBoth split true profile bits (Extract.exDisk 3) snapOf drand fuel Extract.exOpts =
      extract true profile bits (Extract.exDisk 3) drand fuel Extract.exOpts := by
  have h := Extract.header_found (Extract.exStored (N := 3) (by norm_num)) (Or.inl rfl)
  obtain ⟨name, h1, -⟩ := Option.bind_eq_some_iff.1 h
  exact hdf_unchanged h1 rfl (by norm_num)

end Verif.Props.GadgetRead
