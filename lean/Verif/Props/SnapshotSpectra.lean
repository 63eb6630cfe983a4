import Verif.Props.Snapshot
import Verif.Props.Additive

/-!
C60: the spectrum does not depend on the number of MPI processes that read the snapshot. Combines the
division of files (C10) or particles (C11) with the additivity of spectra (C06).
-/

namespace Verif.Props
open Verif Verif.Snapshot Verif.ComputeSpectra

theorem flatten_flatMap_perm {F R : Type} (contents : F → List R) {xs ys : List F} (h : xs.Perm ys) :
    (xs.map contents).flatten.Perm (ys.map contents).flatten := by
  rw [← List.flatMap_def, ← List.flatMap_def]
  exact h.flatMap_right contents

/-- C60, HDF5 (partial): the snapshot read by `size` ranks, each opening its own files in the order its
file system gives, yields the spectrum that one process gets from the same files, provided there are at
least as many files as ranks and no `snapdir` directory. What is missing: `fewer_files_than_ranks_fails`,
`mpi_ignores_snapdir`. -/
theorem mpi_spectrum_eq_serial_partial {F : Type} [LinearOrder F] (contents : F → List Raw)
    {c : Config} (hc : GoodConfig c) (get_tau : Bool) (hsp : TempRead get_tau c.sp)
    {d : ℕ → Disk F} {size : ℕ} (hs : 0 < size) {names : List F} (hn : size ≤ names.length)
    {isHdf5 : F → Bool} (h : SeesFiles d size names isHdf5) (hall : ∀ f ∈ names, isHdf5 f = true)
    (hd : (d 0).snapdirExists = false) :
    ∃ (snaps : ℕ → Hdf5 F) (serial : Hdf5 F),
      (∀ r < size, Hdf5.init (d r) (fun _ => true) (some ⟨r, size⟩) = .ok (snaps r)) ∧
      Hdf5.init (d 0) (fun _ => true) none = .ok serial ∧
      compute_spectra_mpi c get_tau ((List.range size).map (fun r => (snaps r).files.map contents)) =
        compute_spectra c get_tau (serial.files.map contents) := by
  have hne : names ≠ [] := by rintro rfl; simp at hn; omega
  obtain ⟨snaps, h1, h2⟩ := every_rank_opens_partial hs hn h hall
  obtain ⟨g1, g2⟩ := h 0 hs
  have hl : names.length ≠ 0 := by simpa using hne
  have hf : get_all_files (d 0) none = .ok (pySort names) := by
    have hff : findFiles (d 0) none = .ok (pySort names) := by
      unfold findFiles
      simp only [Option.isNone_none, Bool.true_and, hd]
      rcases g2 with g | ⟨g0, g⟩
      · have h0 : ¬((d 0).snap false).length = 0 := by rw [g.length_eq]; exact hl
        rw [if_neg h0, if_neg h0, pySort_congr g]
      · rw [g0]
        simp only [List.length_nil, if_true]
        rw [if_neg (by rw [g.length_eq]; exact hl), pySort_congr g]
    unfold get_all_files
    rw [hff]
    change Except.ok ((pySort names).filter (d 0).isHdf5) = _
    congr 1
    rw [List.filter_eq_self, g1]
    intro f hf
    exact hall f ((pySort_perm names).subset hf)
  have hp : (pySort (pySort names)).reverse.Perm names :=
    (List.reverse_perm _).trans ((pySort_perm _).trans (pySort_perm _))
  obtain ⟨f, fs, hfs⟩ := List.exists_cons_of_ne_nil (l := (pySort (pySort names)).reverse) (by
    intro h0; rw [h0] at hp; exact hne hp.nil_eq.symm)
  have hser : Hdf5.init (d 0) (fun _ => true) none = .ok ⟨f :: fs, some f, 0⟩ := by
    unfold Hdf5.init
    rw [hf]
    change (match (pySort (pySort names)).reverse[0]? with
        | none => (Except.error PyErr.indexError : Py (Hdf5 F))
        | some f => if (true = true) then .ok ⟨(pySort (pySort names)).reverse, some f, 0⟩
          else .error .ioError) = _
    rw [hfs]
    rfl
  refine ⟨snaps, _, h1, hser, ?_⟩
  apply ranks_irrelevant hc get_tau hsp
  · simp
  · intro r hr
    obtain ⟨k, hk, rfl⟩ := List.mem_map.1 hr
    obtain ⟨-, -, i3, i4⟩ := init_ok (h1 k (List.mem_range.1 hk))
    intro h0
    rw [List.map_eq_nil_iff] at h0
    rw [h0] at i3
    exact i4 i3
  · rw [← hfs]
    have e : ((List.range size).map (fun r => (snaps r).files.map contents)).flatten =
        ((List.range size).flatMap (fun r => (snaps r).files)).map contents := by
      rw [List.map_flatMap, List.flatMap_def]
    rw [e]
    exact flatten_flatMap_perm contents (h2.trans hp.symm)

/-- C60, BigFile (partial): the same for the particles of a BigFile, provided the number of segments
divides the number of particles on every rank. What is missing: `bigfile_drops_particles`. -/
theorem mpi_bigfile_eq_serial_partial (block : List Raw) {c : Config} (hc : GoodConfig c) (get_tau : Bool)
    (hsp : TempRead get_tau c.sp) (npart : ℕ → ℕ) {size chunk : ℕ} (hs : 0 < size)
    (hb : block.length = npart 0)
    (hdiv : ∀ r < size, ∀ n, big_n_segments npart size r chunk (some 0) = .ok n →
      n ∣ partsOf (npart 0) size r) :
    ∃ (nseg : ℕ → ℕ) (reads : ℕ → ℕ → List Raw),
      (∀ r < size, big_n_segments npart size r chunk (some 0) = .ok (nseg r) ∧
        ∀ k < nseg r, big_get_data block npart size r chunk 0 k = .ok (reads r k)) ∧
      compute_spectra_mpi c get_tau ((List.range size).map (fun r => (List.range (nseg r)).map (reads r))) =
        compute_spectra c get_tau [block] := by
  obtain ⟨nseg, reads, h1, h2⟩ := bigfile_reads_all_partial block npart hs hb hdiv
  refine ⟨nseg, reads, h1, ?_⟩
  apply ranks_irrelevant hc get_tau hsp (by simp)
  · intro r hr
    obtain ⟨k, hk, rfl⟩ := List.mem_map.1 hr
    have : max 1 (partsOf (npart 0) size k / chunk) = nseg k :=
      Except.ok.inj (h1 k (List.mem_range.1 hk)).1
    intro h0
    have := congrArg List.length h0
    simp at this
    omega
  · have e : ((List.range size).map (fun r => (List.range (nseg r)).map (reads r))).flatten.flatten =
        (List.range size).flatMap (fun r => (List.range (nseg r)).flatMap (reads r)) := by
      simp only [List.flatMap_def, List.flatten_flatten, List.map_map]
      rfl
    rw [e, h2]
    simp

/-- Witness: three files over two ranks. -/
example (contents : ℕ → List Raw) :
    ∃ (snaps : ℕ → Hdf5 ℕ) (serial : Hdf5 ℕ),
      (∀ r < 2, Hdf5.init (⟨false, fun _ => [0, 1, 2], fun _ => [], fun _ => true⟩ : Disk ℕ) (fun _ => true)
        (some ⟨r, 2⟩) = .ok (snaps r)) ∧
      Hdf5.init (⟨false, fun _ => [0, 1, 2], fun _ => [], fun _ => true⟩ : Disk ℕ) (fun _ => true) none =
        .ok serial ∧
      compute_spectra_mpi (exConfig .HI) true ((List.range 2).map (fun r => (snaps r).files.map contents)) =
        compute_spectra (exConfig .HI) true (serial.files.map contents) :=
  mpi_spectrum_eq_serial_partial contents (c := exConfig .HI) (exConfig_good _) true trivial (size := 2) (names := [0, 1, 2])
    (d := fun _ => ⟨false, fun _ => [0, 1, 2], fun _ => [], fun _ => true⟩) (isHdf5 := fun _ => true)
    (by norm_num) (by simp) (fun r _ => ⟨rfl, .inl (List.Perm.refl _)⟩) (fun _ _ => rfl) rfl

end Verif.Props
