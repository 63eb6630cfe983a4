import Verif.Model.Numpy

/-!
Model of `Spectra.replace_not_DLA` and `Spectra.filter_DLA`, `fake_spectra/spectra.py:713-770`, of
`RandSpectra.__init__`, `fake_spectra/randspectra.py:12-37`, and of the cache of particle indices which
`compute_spectra` reads, `fake_spectra/spectra.py:550-563`.

`P` is the type of sightline positions. The snapshot is one segment; `near` and `interp` stand for the
compiled functions (C04, C01); `next` is the sequence of batches `get_cofm` draws.
-/

namespace Verif.ReplaceDLA

/-- What the loop calls. -/
structure World (P : Type) where
  /-- `_near_lines(box, pos, hh, axis, cofm)`: indices of particles near a sightline. -/
  near : List ℤ → List P → List ℕ
  /-- `_Particle_Interpolate` on the particles with these indices: a row of column densities for each
  sightline, for the element and ion. -/
  interp : String → ℤ → List ℕ → List ℤ → List P → List (List ℝ)
  /-- The `k`-th call of `get_cofm`; it raises `NotImplementedError` in the base class, spectra.py:757-759. -/
  next : ℕ → Py (List P)

/-- The attributes of a `Spectra` object which the loop uses, spectra.py:109-124, 171-174, 218. `calls` is the
position in the random sequence. -/
structure St (P : Type) where
  cofm : List P
  axis : List ℤ
  numLos : ℕ
  colden : List ((String × ℤ) × List (List ℝ))
  cofmFinal : Bool
  partInd : Option (List ℕ)
  discarded : ℤ
  calls : ℕ

/-- `compute_spectra(elem, ion, 1215, False)`, spectra.py:801-831, with the index cache of
`_read_particle_data`, spectra.py:556-563. One segment, one process. -/
def compute {P : Type} (w : World P) (elem : String) (ion : ℤ) (s : St P) : List (List ℝ) × St P :=
  if s.cofmFinal then
    match s.partInd with
    | some ind => (w.interp elem ion ind s.axis s.cofm, s)
    | none =>
      let ind := w.near s.axis s.cofm
      (w.interp elem ion ind s.axis s.cofm, { s with partInd := some ind })
  else (w.interp elem ion (w.near s.axis s.cofm) s.axis s.cofm, s)

/-- The `thresh` argument: a number, or a pair when `np.size(thresh) > 1`. -/
inductive Thresh where
  | above (t : ℝ)
  | between (lo hi : ℝ)

/-- The test of `filter_DLA` on the sum of a row, spectra.py:765-769. -/
noncomputable def Thresh.test (t : Thresh) (x : ℝ) : Bool :=
  match t with
  | .above t => decide (x > t)
  | .between lo hi => decide (x > lo) && decide (x < hi)

/-- `filter_DLA(col_den, thresh)`, spectra.py:761-770: the indices `np.where` returns. -/
noncomputable def filter_DLA (rows : List (List ℝ)) (t : Thresh) : List ℕ :=
  (List.range rows.length).filter (fun i => t.test (rows[i]?.getD []).sum)

/-- `a[ind]` for an array of indices. -/
def pick {α : Type} (a : List α) (ind : List ℕ) : Py (List α) := ind.mapM (fun i : ℕ => Np.get a (i : ℤ))

/-- `a[lo:hi] = rows` along the first axis, for bounds that are not negative. The slice is cut at the end of
the array; one row is broadcast to any number of rows, including none; any other difference raises
`ValueError`. -/
def setSlice {α : Type} (a : List α) (lo hi : ℕ) (rows : List α) : Py (List α) :=
  let n := (Np.slice a lo hi).length
  if rows.length = n then .ok (a.take lo ++ rows ++ a.drop (lo + n))
  else match rows with
    | [r] => .ok (a.take lo ++ List.replicate n r ++ a.drop (lo + n))
    | _ => .error .valueError

/-- The local variables of `replace_not_DLA`. -/
structure Loop (P : Type) where
  st : St P
  cofmDLA : List P
  h1DLA : List (List ℝ)
  found : ℕ
  top : ℕ

/-- Lines 737-745 of the loop, spectra.py:735-746. -/
noncomputable def step {P : Type} (w : World P) (elem : String) (ion : ℤ) (t : Thresh) (wanted : ℕ) (l : Loop P) :
    Py (Loop P) := do
  let cofm ← w.next l.st.calls
  let s : St P := { l.st with cofm := cofm, calls := l.st.calls + 1 }
  let (rows, s) := compute w elem ion s
  let ind := filter_DLA rows t
  let top := min wanted (l.found + ind.length)
  let c ← pick s.cofm ind
  let cofmDLA ← setSlice l.cofmDLA l.found top (c.take (top - l.found))
  let r ← pick rows ind
  let h1DLA ← setSlice l.h1DLA l.found top (r.take (top - l.found))
  pure ⟨{ s with discarded := s.discarded + ((s.numLos : ℤ) - ind.length) }, cofmDLA, h1DLA, l.found + ind.length, top⟩

/-- The variables before the loop, spectra.py:720-733. `junkC` and `junkR` are what `np.empty_like` returns. -/
noncomputable def start {P : Type} (w : World P) (elem : String) (ion : ℤ) (t : Thresh) (wanted : ℕ)
    (junkC : List P) (junkR : List (List ℝ)) (s : St P) : Py (Loop P) := do
  let (rows, s) := compute w elem ion s
  let ind := filter_DLA rows t
  let top := min wanted ind.length
  let c ← pick s.cofm ind
  let cofmDLA ← setSlice (junkC.take wanted) 0 top (c.take top)
  let r ← pick rows ind
  let h1DLA ← setSlice junkR 0 top (r.take top)
  pure ⟨{ s with discarded := (s.numLos : ℤ) - ind.length }, cofmDLA, h1DLA, ind.length, top⟩

/-- The lines after the loop, spectra.py:747-755. The quotient is a float in the code; here it is exact. -/
def finish {P : Type} (ndla : ℕ) (l : Loop P) : Py (St P) :=
  if l.found = 0 then .error .zeroDivisionError
  else .ok { l.st with
    discarded := (l.st.discarded * ndla).tdiv l.found
    cofm := l.cofmDLA
    axis := l.st.axis.take ndla
    colden := (("H", 1), l.h1DLA.take l.top) :: l.st.colden.filter (fun p => decide (p.1 ≠ ("H", 1)))
    cofmFinal := true
    numLos := ndla }

/-- `replace_not_DLA(ndla, thresh, elem, ion)`, spectra.py:713-755, for `ndla` not negative, with at most
`fuel` tests of the loop condition. -/
noncomputable def replace_not_DLA {P : Type} (w : World P) (ndla : ℕ) (t : Thresh) (elem : String) (ion : ℤ)
    (junkC : List P) (junkR : List (List ℝ)) (fuel : ℕ) (s : St P) : Np.Run (St P) :=
  Np.Run.andThen (some (start w elem ion t ndla junkC junkR s)) fun l =>
    (Np.whileRun (fun l : Loop P => .ok (decide (l.found < ndla))) (fun l => some (step w elem ion t ndla l)) fuel l).andThen
      fun l => some (finish ndla l)

/-- `np.size(thresh) > 1 or thresh > 0`, randspectra.py:27. -/
noncomputable def Thresh.asked : Thresh → Bool
  | .above x => decide (x > 0)
  | .between _ _ => true

/-- `RandSpectra.__init__`, randspectra.py:12-29: `numlos` sightlines along axis 1, the first batch from
`get_cofm`, and the replacement unless the threshold is a number which is not positive. The attributes set by
`Spectra.__init__` are those of a new object. -/
noncomputable def randSpectra {P : Type} (w : World P) (ndla numlos : ℕ) (t : Thresh) (elem : String) (ion : ℤ)
    (junkC : List P) (junkR : List (List ℝ)) (fuel : ℕ) : Np.Run (St P) :=
  Np.Run.andThen (some (w.next 0)) fun cofm =>
    let s : St P := ⟨cofm, List.replicate numlos 1, numlos, [], false, none, 0, 1⟩
    if t.asked then replace_not_DLA w ndla t elem ion junkC junkR fuel s else some (.ok s)

end Verif.ReplaceDLA
