import Verif.Model.PartInt

/-!
The `omp parallel for` loops of `ParticleInterp` (fake_spectra/part_int.cpp:24-49, 57-82) at the level of
memory accesses. Each `array[j] += x` is two steps, a load into a register and a store; the threads
interleave arbitrarily and nothing is atomic. The values added do not depend on the array.
-/

namespace Verif
namespace Race

open PartInt IndexTable Absorption

/-- A thread: the updates `array[j] += x` it still has to make, and the value loaded for the first of
them, if it has been loaded. -/
structure Thread where
  todo : List (ℕ × ℝ)
  reg : Option ℝ

/-- One memory access by thread `k`. -/
inductive Step {n : ℕ} : (List ℝ × (Fin n → Thread)) → (List ℝ × (Fin n → Thread)) → Prop where
  | load (a : List ℝ) (ts : Fin n → Thread) (k : Fin n) (j : ℕ) (x r : ℝ) (rest : List (ℕ × ℝ))
      (hk : ts k = ⟨(j, x) :: rest, none⟩) (hr : a[j]? = some r) :
      Step (a, ts) (a, Function.update ts k ⟨(j, x) :: rest, some r⟩)
  | store (a : List ℝ) (ts : Fin n → Thread) (k : Fin n) (j : ℕ) (x r : ℝ) (rest : List (ℕ × ℝ))
      (hk : ts k = ⟨(j, x) :: rest, some r⟩) (hj : j < a.length) :
      Step (a, ts) (a.set j (r + x), Function.update ts k ⟨rest, none⟩)

/-- Some execution leads from one state to the other. -/
def Exec {n : ℕ} : (List ℝ × (Fin n → Thread)) → (List ℝ × (Fin n → Thread)) → Prop :=
  Relation.ReflTransGen Step

/-- All the threads have finished. -/
def Done {n : ℕ} (ts : Fin n → Thread) : Prop := ∀ k, (ts k).todo = []

/-- The updates made by `add_colden_particle`, in program order
(fake_spectra/absorption.cpp:167-210). -/
noncomputable def coldenOps (L : LineAbsorption) (off nbins : ℕ) (dr2 dens pos smooth : ℝ) :
    List (ℕ × ℝ) :=
  if L.kernel = VORONOI_MESH ∧ (dr2 > 2 * L.vbox / L.velfac ∨ smooth > 2 * L.vbox / L.velfac) then []
  else if L.kernel ≠ VORONOI_MESH ∧ smooth * smooth - dr2 ≤ 0 then []
  else
    let pos1 := if L.kernel = VORONOI_MESH then (dr2 + smooth) / 2 else pos
    let zrange := if L.kernel = VORONOI_MESH then (smooth - dr2) / 2 else √(smooth * smooth - dr2)
    let boxtokpc := L.vbox / nbins / L.velfac
    let zlow := ⌊(pos1 - zrange) / boxtokpc⌋
    let zhigh := ⌈(pos1 + zrange) / boxtokpc⌉
    (intRange zlow zhigh).map (fun (z : ℤ) => (off + (wrapIndex z nbins).toNat,
      dens * get_kern_frac L.kernel (boxtokpc * z - pos1) (boxtokpc * z - pos1 + boxtokpc)
        smooth dr2 zrange))

/-- The updates of one of the two loops of `add_tau_particle`. -/
noncomputable def tauLoopOps (tauAt : ℤ → ℝ) (tautail : ℝ) (off nbins : ℕ) (dir : ℤ) :
    ℕ → ℤ → List (ℕ × ℝ)
  | 0, _ => []
  | n + 1, z => (off + (wrapIndex z nbins).toNat, tauAt z) ::
      if tauAt z < tautail then [] else tauLoopOps tauAt tautail off nbins dir n (z + dir)

/-- The updates made by `add_tau_particle`, in program order
(fake_spectra/absorption.cpp:212-271). -/
noncomputable def tauOps (L : LineAbsorption) (off nbins : ℕ) (dr2 dens ppos pvel temp smooth : ℝ) :
    List (ℕ × ℝ) :=
  if L.kernel = VORONOI_MESH ∧ (dr2 > 2 * L.vbox / L.velfac ∨ smooth > 2 * L.vbox / L.velfac) then []
  else if L.kernel ≠ VORONOI_MESH ∧ smooth * smooth - dr2 ≤ 0 then []
  else
    let pos1 := if L.kernel = VORONOI_MESH then (dr2 + smooth) / 2 else ppos
    let vel := L.velfac * pos1 + pvel
    let bintov := L.vbox / nbins
    let zmax := ⌊vel / bintov⌋
    let tauAt := tauPixel L nbins dr2 dens pos1 pvel temp smooth
    tauLoopOps tauAt L.tautail off nbins 1 (nbins / 2) zmax ++
      tauLoopOps tauAt L.tautail off nbins (-1) (nbins / 2) (zmax - 1)

/-- The updates of iteration `i` of the loop over sightlines, for a smoothing kernel, given the near
particles of each line (fake_spectra/part_int.cpp:26-48, 59-81). -/
noncomputable def lineOps (get_tau : Bool) (L : LineAbsorption) (nbins : ℕ) (lines : List Line)
    (parts : List Part) (nearby : List (StdMap ℝ)) (i : ℕ) : CRes (List (ℕ × ℝ)) := do
  let near ← readAt nearby i
  let line ← readAt lines i
  near.foldlM (fun ops e => do
    let p ← readAt parts e.1
    let ppos ← coord p.pos line.axis
    if get_tau then
      let pvel ← coord p.vel line.axis
      .ok (ops ++ tauOps L (i * nbins) nbins e.2 p.dens ppos pvel p.temp p.h)
    else .ok (ops ++ coldenOps L (i * nbins) nbins e.2 p.dens ppos p.h)) []

/-- The updates of a thread that runs the iterations in `queue`. -/
noncomputable def threadOps (get_tau : Bool) (L : LineAbsorption) (nbins : ℕ) (lines : List Line)
    (parts : List Part) (nearby : List (StdMap ℝ)) (queue : List ℕ) : CRes (List (ℕ × ℝ)) :=
  queue.foldlM (fun ops i => do
    let o ← lineOps get_tau L nbins lines parts nearby i
    .ok (ops ++ o)) []

end Race
end Verif
