import Verif.Model.CReader
import Verif.Props.CExtract
import Verif.Props.CPower
import Verif.Props.FluxPdf
import Verif.Props.MeanFlux

/-!
C98: the stand-alone program `statistic`, run on the files of the stand-alone extractor.
-/

namespace Verif.Props.CStatistic
open Verif.CReader Verif.Props Verif.Spec

/-! ### Numbers in bytes -/

theorem bytes_length (w n : ℕ) : (bytes w n).length = w := by
  induction w generalizing n with
  | zero => rfl
  | succ w ih => rw [bytes, List.length_cons, ih]

theorem unbytes_bytes (w n : ℕ) : unbytes (bytes w n) = n % 256 ^ w := by
  induction w generalizing n with
  | zero => rw [bytes, unbytes, pow_zero, Nat.mod_one]
  | succ w ih =>
    rw [bytes, unbytes, ih, pow_succ', Nat.mod_mul]

theorem bits_round {n : ℕ} (h : n < 2 ^ 64) : unbytes (bytes 8 n) = n := by
  rw [unbytes_bytes]
  exact Nat.mod_eq_of_lt (by norm_num at h ⊢; exact h)

theorem int_round {z : ℤ} (h0 : -2 ^ 31 ≤ z) (h1 : z < 2 ^ 31) : intOf (intBytes z) = z := by
  unfold intOf intBytes
  rw [unbytes_bytes]
  have : (z % 2 ^ 32).toNat % 256 ^ 4 = (z % 2 ^ 32).toNat := Nat.mod_eq_of_lt (by norm_num; omega)
  rw [this]
  norm_num at h0 h1 ⊢
  split_ifs <;> omega

theorem intBytes_length (z : ℤ) : (intBytes z).length = 4 := bytes_length _ _

/-- The bytes of an array of doubles. -/
def doubles (xs : List Bits) : List ℕ := (xs.map (bytes 8)).flatten

theorem doubles_length (xs : List Bits) : (doubles xs).length = 8 * xs.length := by
  unfold doubles
  induction xs with
  | nil => rfl
  | cons x xs ih =>
    rw [List.map_cons, List.flatten_cons, List.length_append, bytes_length, ih, List.length_cons]
    ring

theorem doubles_append (xs ys : List Bits) : doubles (xs ++ ys) = doubles xs ++ doubles ys := by
  unfold doubles
  rw [List.map_append, List.flatten_append]

theorem fread8_doubles (n : ℕ) (xs : List Bits) (h : ∀ x ∈ xs, x < 2 ^ 64) : fread8 n (doubles xs) = xs.take n := by
  induction n generalizing xs with
  | zero => rw [fread8, List.take_zero]
  | succ n ih =>
    cases xs with
    | nil => rw [fread8, if_pos (by simp [doubles])]; rfl
    | cons x xs =>
      have hd : doubles (x :: xs) = bytes 8 x ++ doubles xs := rfl
      rw [fread8, if_neg (by rw [doubles_length, List.length_cons]; omega), hd, List.take_left' (bytes_length 8 x),
        List.drop_left' (bytes_length 8 x), bits_round (h x (by simp)), ih xs (fun y hy => h y (by simp [hy])), List.take_succ_cons]

theorem fread8_length (n : ℕ) (s : List ℕ) : (fread8 n s).length = min n (s.length / 8) := by
  induction n generalizing s with
  | zero => rw [fread8]; simp
  | succ n ih =>
    rw [fread8]
    split_ifs with h
    · rw [List.length_nil]; omega
    · rw [List.length_cons, ih, List.length_drop]; omega

theorem fread1_rest {α : Type} (w : ℕ) (of junk : List ℕ → α) (old : α) (s : List ℕ) : (fread1 w of junk old s).2 = s.drop w := by
  unfold fread1
  split_ifs with h1 h2
  · rw [h1, List.drop_nil]
  · rw [List.drop_eq_nil_of_le h2.le]
  · rfl

/-- Reading in terms of places in the file. -/
theorem readInput_eq (junk8 : List ℕ → ℕ) (junk4 : List ℕ → ℤ) (u : ℤ) (s : List ℕ) :
    readInput junk8 junk4 u s =
      let z := (fread1 8 (fun b => some (unbytes b)) (fun b => some (junk8 b)) none s).1
      let nbins := (fread1 4 intOf junk4 0 (s.drop 16)).1
      let NumLos := (fread1 4 intOf junk4 0 (s.drop 20)).1
      let UsedLos := if u = 0 then NumLos else u
      if NumLos ≤ 0 then .error (.exit 99)
      else if UsedLos * nbins < 0 then .error (.exit 1)
      else if (nbins + 1).tdiv 2 < 0 then .error (.exit 1)
      else if (fread8 (nbins * UsedLos).toNat (s.drop 128)).length ≠ (nbins * UsedLos).toNat then .error (.exit 2)
      else if nbins * UsedLos = 0 then .error .outOfBounds
      else .ok ⟨z, nbins, UsedLos, fread8 (nbins * UsedLos).toNat (s.drop 128)⟩ := by
  unfold readInput
  rcases h1 : fread1 8 (fun b => some (unbytes b)) (fun b => some (junk8 b)) none s with ⟨z, s1⟩
  have e1 : s1 = s.drop 8 := by rw [← fread1_rest 8 (fun b => some (unbytes b)) (fun b => some (junk8 b)) none s, h1]
  rcases h2 : fread1 8 unbytes junk8 0 s1 with ⟨b, s2⟩
  have e2 : s2 = s.drop 16 := by
    have := fread1_rest 8 unbytes junk8 0 s1
    rw [h2, e1, List.drop_drop] at this
    exact this
  rcases h3 : fread1 4 intOf junk4 0 s2 with ⟨nb, s3⟩
  have e3 : s3 = s.drop 20 := by
    have := fread1_rest 4 intOf junk4 0 s2
    rw [h3, e2, List.drop_drop] at this
    exact this
  rcases h4 : fread1 4 intOf junk4 0 s3 with ⟨nl, s4⟩
  have e4 : s4.drop (4 * (32 - 6)) = s.drop 128 := by
    have := fread1_rest 4 intOf junk4 0 s3
    rw [h4, e3, List.drop_drop] at this
    rw [show s4 = s.drop 24 from this, List.drop_drop]
  rw [e2] at h3
  rw [e3] at h4
  simp only [h2, h3, h4, e4, e2, e3]

/-! ### The file of the extractor -/

/-- What the extractor can write: numbers of 64 bits, at least one sightline, and `NBINS` pixels in each. -/
structure Written (redshift box100 : Bits) (NumLos : ℕ) (tau colden : List Bits) : Prop where
  z : redshift < 2 ^ 64
  box : box100 < 2 ^ 64
  some : 0 < NumLos
  int : NumLos < 2 ^ 31
  tauBits : ∀ x ∈ tau, x < 2 ^ 64
  coldenBits : ∀ x ∈ colden, x < 2 ^ 64
  tauLen : tau.length = 1024 * NumLos
  coldenLen : colden.length = 1024 * NumLos

theorem specFile_eq (redshift box100 : Bits) (NumLos : ℤ) (tau colden : List Bits) :
    ∃ pad, pad.length = 104 ∧ specFile redshift box100 NumLos tau colden =
      bytes 8 redshift ++ (bytes 8 box100 ++ (intBytes 1024 ++ (intBytes NumLos ++ (pad ++ doubles (tau ++ colden))))) := by
  refine ⟨(List.replicate (32 - 6) (intBytes 0)).flatten, by simp [intBytes_length], ?_⟩
  unfold specFile
  rw [doubles_append]
  simp only [List.append_assoc]
  rfl

theorem specFile_length {redshift box100 : Bits} {NumLos : ℤ} {tau colden : List Bits} :
    (specFile redshift box100 NumLos tau colden).length = 128 + 8 * (tau.length + colden.length) := by
  obtain ⟨pad, hp, h⟩ := specFile_eq redshift box100 NumLos tau colden
  rw [h]
  simp only [List.length_append, bytes_length, intBytes_length, hp, doubles_length]
  omega

theorem specFile_drop16 (redshift box100 : Bits) (NumLos : ℤ) (tau colden : List Bits) :
    ∃ rest, (specFile redshift box100 NumLos tau colden).drop 16 = intBytes 1024 ++ rest ∧
      (specFile redshift box100 NumLos tau colden).drop 20 = rest ∧
      (∃ rest', rest = intBytes NumLos ++ rest') ∧
      (specFile redshift box100 NumLos tau colden).drop 128 = doubles (tau ++ colden) ∧
      (specFile redshift box100 NumLos tau colden).take 8 = bytes 8 redshift := by
  obtain ⟨pad, hp, h⟩ := specFile_eq redshift box100 NumLos tau colden
  have a16 : (specFile redshift box100 NumLos tau colden).drop 16 =
      intBytes 1024 ++ (intBytes NumLos ++ (pad ++ doubles (tau ++ colden))) := by
    rw [h, show (16 : ℕ) = 8 + 8 from rfl, ← List.drop_drop, List.drop_left' (bytes_length _ _), List.drop_left' (bytes_length _ _)]
  have a20 : (specFile redshift box100 NumLos tau colden).drop 20 = intBytes NumLos ++ (pad ++ doubles (tau ++ colden)) := by
    rw [show (20 : ℕ) = 16 + 4 from rfl, ← List.drop_drop, a16, List.drop_left' (intBytes_length _)]
  refine ⟨_, a16, a20, ⟨_, rfl⟩, ?_, ?_⟩
  · rw [show (128 : ℕ) = 20 + (4 + 104) from rfl, ← List.drop_drop, a20, ← List.drop_drop, List.drop_left' (intBytes_length _),
      List.drop_left' hp]
  · rw [h, List.take_left' (bytes_length _ _)]

theorem fread1_full {α : Type} {w : ℕ} (hw : 0 < w) (of junk : List ℕ → α) (old : α) {a s : List ℕ} (h : s.take w = a) (ha : a.length = w) :
    (fread1 w of junk old s).1 = of a := by
  have hl : w ≤ s.length := by
    rw [← h, List.length_take] at ha
    omega
  unfold fread1
  rw [if_neg (by intro h0; rw [h0, List.length_nil] at hl; omega), if_neg (by omega), h]

/-- What is read from a file of the extractor. -/
theorem read_file {redshift box100 : Bits} {NumLos : ℕ} {tau colden : List Bits} (hw : Written redshift box100 NumLos tau colden)
    (junk8 : List ℕ → ℕ) (junk4 : List ℕ → ℤ) (u : ℤ) :
    readInput junk8 junk4 u (specFile redshift box100 NumLos tau colden) =
      if u < 0 then .error (.exit 1)
      else if 2 * (NumLos : ℤ) < u then .error (.exit 2)
      else .ok ⟨some redshift, 1024, if u = 0 then NumLos else u,
        (tau ++ colden).take (1024 * (if u = 0 then NumLos else u.toNat))⟩ := by
  obtain ⟨rest, d16, d20, ⟨rest', hr⟩, d128, t8⟩ := specFile_drop16 redshift box100 NumLos tau colden
  rw [readInput_eq]
  have i1024 : intOf (intBytes 1024) = 1024 := int_round (by norm_num) (by norm_num)
  have iN : intOf (intBytes NumLos) = NumLos := int_round (by have := hw.some; omega) (by have := hw.int; exact_mod_cast this)
  have hN := hw.some
  have r1 : (fread1 8 (fun b => some (unbytes b)) (fun b => some (junk8 b)) none (specFile redshift box100 NumLos tau colden)).1 =
      some redshift := by
    rw [fread1_full (by norm_num) _ _ _ t8 (bytes_length _ _), bits_round hw.z]
  have r2 : (fread1 4 intOf junk4 0 ((specFile redshift box100 NumLos tau colden).drop 16)).1 = 1024 := by
    rw [fread1_full (by norm_num) _ _ _ (a := intBytes 1024) (by rw [d16, List.take_left' (intBytes_length _)]) (intBytes_length _), i1024]
  have r3 : (fread1 4 intOf junk4 0 ((specFile redshift box100 NumLos tau colden).drop 20)).1 = NumLos := by
    rw [fread1_full (by norm_num) _ _ _ (a := intBytes NumLos) (by rw [d20, hr, List.take_left' (intBytes_length _)])
      (intBytes_length _), iN]
  dsimp only
  rw [r1, r2, r3, d128]
  have hlen : (tau ++ colden).length = 2048 * NumLos := by rw [List.length_append, hw.tauLen, hw.coldenLen]; ring
  have hbits : ∀ x ∈ tau ++ colden, x < 2 ^ 64 := by
    intro x hx
    rcases List.mem_append.1 hx with h | h
    · exact hw.tauBits x h
    · exact hw.coldenBits x h
  rw [fread8_doubles _ _ hbits, if_neg (by omega)]
  by_cases hu0 : u < 0
  · rw [if_neg (by omega : ¬ u = 0), if_pos hu0, if_pos (by omega)]
  · rw [if_neg hu0]
    have h3 : (if u = 0 then NumLos else u.toNat) = ((if u = 0 then (NumLos : ℤ) else u)).toNat := by
      split_ifs <;> rfl
    rw [h3]
    have hpos : 0 < (if u = 0 then (NumLos : ℤ) else u) := by split_ifs <;> omega
    have hle : (2 * (NumLos : ℤ) < u) ↔ (2 * (NumLos : ℤ) < (if u = 0 then (NumLos : ℤ) else u)) := by
      split_ifs <;> omega
    rw [if_congr hle rfl rfl]
    generalize (if u = 0 then (NumLos : ℤ) else u) = U at hpos hle ⊢
    rw [if_neg (by omega), if_neg (by decide), List.length_take, hlen]
    have hm : (1024 * U).toNat = 1024 * U.toNat := by omega
    rw [hm]
    by_cases hb : 2 * (NumLos : ℤ) < U
    · rw [if_pos hb, if_pos (by omega)]
    · rw [if_neg hb, if_neg (by omega), if_neg (by omega)]

/-- **C98, reading.** From a file of the extractor the program takes the redshift and exactly the optical depths of all sightlines,
pixel by pixel. -/
theorem spectra_read {redshift box100 : Bits} {NumLos : ℕ} {tau colden : List Bits} (hw : Written redshift box100 NumLos tau colden)
    (junk8 : List ℕ → ℕ) (junk4 : List ℕ → ℤ) :
    readInput junk8 junk4 0 (specFile redshift box100 NumLos tau colden) = .ok ⟨some redshift, 1024, NumLos, tau⟩ := by
  rw [read_file hw, if_neg (by norm_num), if_neg (by omega), if_pos rfl, if_pos rfl, ← hw.tauLen, List.take_left]

/-- C98. With `-u` it takes the first sightlines. -/
theorem first_sightlines_partial {redshift box100 : Bits} {NumLos : ℕ} {tau colden : List Bits} (hw : Written redshift box100 NumLos tau colden)
    (junk8 : List ℕ → ℕ) (junk4 : List ℕ → ℤ) {u : ℕ} (h0 : 0 < u) (h1 : u ≤ NumLos) :
    readInput junk8 junk4 u (specFile redshift box100 NumLos tau colden) = .ok ⟨some redshift, 1024, u, tau.take (1024 * u)⟩ := by
  rw [read_file hw, if_neg (by omega), if_neg (by omega), if_neg (by omega), if_neg (by omega), Int.toNat_natCast, List.take_append_of_le_length]
  rw [hw.tauLen]
  omega

/-- C98 does not hold for more sightlines than there are: column densities are taken for optical depths, and nothing is said. -/
theorem column_densities_used {redshift box100 : Bits} {NumLos : ℕ} {tau colden : List Bits} (hw : Written redshift box100 NumLos tau colden)
    (junk8 : List ℕ → ℕ) (junk4 : List ℕ → ℤ) {u : ℕ} (h0 : NumLos < u) (h1 : u ≤ 2 * NumLos) :
    readInput junk8 junk4 u (specFile redshift box100 NumLos tau colden) =
      .ok ⟨some redshift, 1024, u, tau ++ colden.take (1024 * (u - NumLos))⟩ := by
  rw [read_file hw, if_neg (by omega), if_neg (by omega), if_neg (by omega), if_neg (by omega), Int.toNat_natCast, List.take_append,
    List.take_of_length_le (by rw [hw.tauLen]; omega), hw.tauLen, Nat.mul_sub]

/-- C98: a file that ends too early. -/
theorem read_truncated {redshift box100 : Bits} {NumLos : ℕ} {tau colden : List Bits} (hw : Written redshift box100 NumLos tau colden)
    (junk8 : List ℕ → ℕ) (junk4 : List ℕ → ℤ) {k : ℕ} (hk : k < 128 + 8 * (1024 * NumLos)) :
    ∃ c, c ≠ 0 ∧ readInput junk8 junk4 0 ((specFile redshift box100 NumLos tau colden).take k) = .error (.exit c) := by
  obtain ⟨rest, d16, d20, ⟨rest', hr⟩, d128, t8⟩ := specFile_drop16 redshift box100 NumLos tau colden
  have hN := hw.some
  have hlen : ((specFile redshift box100 NumLos tau colden).take k).length = k := by
    rw [List.length_take, specFile_length, hw.tauLen, hw.coldenLen]
    omega
  rw [readInput_eq]
  set s := (specFile redshift box100 NumLos tau colden).take k with hs
  dsimp only
  rw [if_pos rfl]
  by_cases h20 : k ≤ 20
  · have : (fread1 4 intOf junk4 0 (s.drop 20)).1 = 0 := by
      rw [List.drop_eq_nil_of_le (by omega)]
      rfl
    rw [this]
    exact ⟨99, by norm_num, if_pos le_rfl⟩
  · have r2 : (fread1 4 intOf junk4 0 (s.drop 16)).1 = 1024 := by
      rw [fread1_full (by norm_num) _ _ _ (a := intBytes 1024) _ (intBytes_length _)]
      · exact int_round (by norm_num) (by norm_num)
      · rw [hs, List.drop_take, List.take_take, min_eq_left (by omega), d16, List.take_left' (intBytes_length _)]
    rw [r2]
    by_cases h0 : (fread1 4 intOf junk4 0 (s.drop 20)).1 ≤ 0
    · exact ⟨99, by norm_num, if_pos h0⟩
    · have key : ((s.drop 128).length / 8) < (1024 * (fread1 4 intOf junk4 0 (s.drop 20)).1).toNat := by
        rw [List.length_drop, hlen]
        by_cases h24 : k < 24
        · omega
        · have r3 : (fread1 4 intOf junk4 0 (s.drop 20)).1 = NumLos := by
            rw [fread1_full (by norm_num) _ _ _ (a := intBytes NumLos) _ (intBytes_length _)]
            · exact int_round (by omega) (by have := hw.int; exact_mod_cast this)
            · rw [hs, List.drop_take, List.take_take, min_eq_left (by omega), d20, hr, List.take_left' (intBytes_length _)]
          rw [r3]
          omega
      rw [if_neg h0, if_neg (by omega), if_neg (by decide), if_pos (by rw [fread8_length]; omega)]
      exact ⟨2, by norm_num, rfl⟩

/-! ### The files written -/

/-- The program, run with options `o` on the content of a file, ends and writes these files. -/
def Writes (val : Bits → ℝ) (junk8 : List ℕ → ℕ) (junk4 : List ℕ → ℤ) (o : Opts) (content : List ℕ) (files : List (List Char × List ℝ)) : Prop :=
  ∃ fuel, statistic fuel val junk8 junk4 o (some content) = some (.ok files)

/-- The 20 values of the flux distribution of optical depths `taus` multiplied by `scale`. -/
noncomputable def pdfOf (scale : ℝ) (taus : List ℝ) : List ℝ :=
  (List.range 20).map (fun i => 20 * (binCount 20 i (taus.map (fun t => Real.exp (-(scale * t)))) : ℝ) / taus.length)

/-- The 512 values of the power spectrum: the mean over the sightlines. -/
noncomputable def powerOf (scale tau_eff : ℝ) (rows : List (List ℝ)) : List ℝ :=
  (List.range 512).map (fun k => (rows.map (fun row => CTools.band
    (Verif.CTools.powerspectrum 1024 (FluxStats.rfft (CTools.contrast scale tau_eff row))) 512 k)).sum / rows.length)

/-- The factor the program multiplies optical depths with: 1 with `-r`, otherwise that for the observed mean flux. -/
def FactorIs (rescale : Bool) (taus : List ℝ) (z ν : ℝ) : Prop :=
  if rescale then CReturnsScale taus (Real.exp (-(0.0023 * (1 + z) ^ (3.65 : ℝ)))) 1e-5 ν else ν = 1

theorem scaleOf_factor {rescale : Bool} {taus : List ℝ} {z ν : ℝ} (h : FactorIs rescale taus z ν) :
    ∃ fuel, scaleOf fuel rescale taus z = some (some ν) := by
  unfold FactorIs at h
  unfold scaleOf
  cases rescale with
  | true => exact h
  | false => exact ⟨0, by rw [if_neg (by simp)]; rw [if_neg (by simp)] at h; rw [h]⟩

theorem rows_flatten (nbins n : ℕ) (taus : List ℝ) (h : taus.length = nbins * n) : (rowsOf nbins n taus).flatten = taus := by
  have key : ∀ m, ((List.range m).map (fun j => (taus.drop (j * nbins)).take nbins)).flatten = taus.take (m * nbins) := by
    intro m
    induction m with
    | zero => simp
    | succ m ih =>
      rw [List.range_succ, List.map_append, List.flatten_append, ih, add_mul, one_mul, List.take_add]
      simp
  unfold rowsOf
  rw [key, List.take_of_length_le (by rw [h, mul_comm])]

theorem rows_map_flatten (rows : List (List ℝ)) (f : ℝ → ℝ) : (rows.map (fun row => row.map f)).flatten = rows.flatten.map f := by
  rw [List.map_flatten]

theorem pdf_eq {taus : List ℝ} {scale : ℝ} (hne : taus ≠ []) (ht : ∀ t ∈ taus, 0 ≤ t) (hs : 0 ≤ scale) :
    FluxStats.calc_pdf 20 scale taus = .ok (pdfOf scale taus) := by
  obtain ⟨c, p, h1, h2⟩ := c_pdf_agrees hne ht hs (pbins := 20) (by norm_num)
  obtain ⟨c', p', h1', -, h3, -⟩ := flux_pdf_normalised hne ht hs (nbins := 20) (by norm_num)
  rw [h1] at h1'
  cases h1'
  rw [h2, h3]
  unfold pdfOf
  norm_num

theorem power_eq (rows : List (List ℝ)) (scale tau_eff : ℝ) :
    Verif.CTools.calc_power_spectra 1024 rows scale tau_eff =
      .ok (powerOf scale tau_eff rows, rows.map (fun row => row.map (fun t => t * scale))) := by
  obtain ⟨p, h1, h2, h3⟩ := CTools.calc_power_spec 1024 (by norm_num) rows scale tau_eff
  rw [h1]
  suffices hp : p = powerOf scale tau_eff rows by rw [hp]
  unfold powerOf
  apply List.ext_getElem?
  intro k
  by_cases hk : k < 512
  · rw [h3 k hk, List.getElem?_map, List.getElem?_range hk]
    rfl
  · rw [List.getElem?_eq_none (by rw [h2]; omega), List.getElem?_eq_none (by rw [List.length_map, List.length_range]; omega)]

/-- Pdf of optical depths that were multiplied already. -/
theorem pdfOf_scaled (s c : ℝ) (taus : List ℝ) : pdfOf s (taus.map (fun t => t * c)) = pdfOf (s * c) taus := by
  unfold pdfOf
  rw [List.length_map, List.map_map]
  have : ((fun t : ℝ => Real.exp (-(s * t))) ∘ fun t => t * c) = fun t => Real.exp (-(s * c * t)) := by
    funext t
    simp only [Function.comp]
    ring_nf
  rw [this]

/-- A run on a file of the extractor, up to the calculation. -/
theorem statistic_run {redshift box100 : Bits} {NumLos : ℕ} {tau colden : List Bits} (hw : Written redshift box100 NumLos tau colden)
    (val : Bits → ℝ) (junk8 : List ℕ → ℕ) (junk4 : List ℕ → ℤ) {o : Opts} {name : List Char} (hu : o.u = 0) (hin : o.inname = some name)
    {ν : ℝ} (hν : FactorIs o.rescale (tau.map val) (val redshift) ν) (hs : bit1 o.s.sum = true ∨ bit2 o.s.sum = true) :
    ∃ fuel, statistic fuel val junk8 junk4 o (some (specFile redshift box100 NumLos tau colden)) =
      some (writeStats o.s.sum (o.outdir.getD name) 1024 NumLos (tau.map val) ν (TAU_EFF (val redshift))) := by
  obtain ⟨fuel, hf⟩ := scaleOf_factor hν
  refine ⟨fuel, ?_⟩
  unfold statistic
  rw [hin]
  dsimp only
  rw [if_neg (by rcases hs with h | h <;> simp [h]), hu, spectra_read hw]
  dsimp only
  rw [hf, Int.toNat_natCast, show (1024 : ℤ).toNat = 1024 by omega]

theorem written_ne {redshift box100 : Bits} {NumLos : ℕ} {tau colden : List Bits} (hw : Written redshift box100 NumLos tau colden)
    (val : Bits → ℝ) : tau.map val ≠ [] := by
  intro h
  have h1 := hw.tauLen
  rw [List.map_eq_nil_iff.1 h, List.length_nil] at h1
  have := hw.some
  omega

/-- **C98, flux distribution** (partial: the power spectrum is not asked for). The program writes the distribution of the fluxes of
all pixels of the file, with optical depths multiplied by the factor. -/
theorem pdf_written_partial {redshift box100 : Bits} {NumLos : ℕ} {tau colden : List Bits} (hw : Written redshift box100 NumLos tau colden)
    (val : Bits → ℝ) (hpos : ∀ b ∈ tau, 0 ≤ val b) (junk8 : List ℕ → ℕ) (junk4 : List ℕ → ℤ) {o : Opts} {name : List Char}
    (hu : o.u = 0) (hin : o.inname = some name) {ν : ℝ} (h0 : 0 ≤ ν) (hν : FactorIs o.rescale (tau.map val) (val redshift) ν)
    (hs : o.s.sum % 4 = 1) :
    Writes val junk8 junk4 o (specFile redshift box100 NumLos tau colden)
      [(outName (o.outdir.getD name) pdfSuffix, pdfOf ν (tau.map val))] := by
  have b1 : bit1 o.s.sum = true := by unfold bit1; simp; omega
  have b2 : bit2 o.s.sum = false := by unfold bit2; simp; omega
  obtain ⟨fuel, hf⟩ := statistic_run hw val junk8 junk4 hu hin hν (Or.inl b1)
  refine ⟨fuel, ?_⟩
  rw [hf]
  unfold writeStats
  dsimp only
  rw [b1, b2, if_neg (by simp)]
  simp only [pure_bind, if_true]
  rw [rows_flatten _ _ _ (by rw [List.length_map, hw.tauLen]),
    pdf_eq (written_ne hw val) (by intro t ht; obtain ⟨b, hb, rfl⟩ := List.mem_map.1 ht; exact hpos b hb) h0]
  rfl

/-- **C98, power spectrum** (without the distribution). -/
theorem power_written {redshift box100 : Bits} {NumLos : ℕ} {tau colden : List Bits} (hw : Written redshift box100 NumLos tau colden)
    (val : Bits → ℝ) (junk8 : List ℕ → ℕ) (junk4 : List ℕ → ℤ) {o : Opts} {name : List Char}
    (hu : o.u = 0) (hin : o.inname = some name) {ν : ℝ} (hν : FactorIs o.rescale (tau.map val) (val redshift) ν)
    (hs : o.s.sum % 4 = 2) :
    Writes val junk8 junk4 o (specFile redshift box100 NumLos tau colden)
      [(outName (o.outdir.getD name) powerSuffix,
        powerOf ν (0.0023 * (1 + val redshift) ^ (3.65 : ℝ)) (rowsOf 1024 NumLos (tau.map val)))] := by
  have b1 : bit1 o.s.sum = false := by unfold bit1; simp; omega
  have b2 : bit2 o.s.sum = true := by unfold bit2; simp; omega
  obtain ⟨fuel, hf⟩ := statistic_run hw val junk8 junk4 hu hin hν (Or.inr b2)
  refine ⟨fuel, ?_⟩
  rw [hf]
  unfold writeStats
  dsimp only
  rw [b1, b2, if_pos rfl, power_eq]
  simp only [bind, Except.bind, pure, Except.pure]
  rfl

/-- C98: with both statistics the power spectrum is the same, but the distribution is that of optical depths multiplied twice. -/
theorem both_written {redshift box100 : Bits} {NumLos : ℕ} {tau colden : List Bits} (hw : Written redshift box100 NumLos tau colden)
    (val : Bits → ℝ) (hpos : ∀ b ∈ tau, 0 ≤ val b) (junk8 : List ℕ → ℕ) (junk4 : List ℕ → ℤ) {o : Opts} {name : List Char}
    (hu : o.u = 0) (hin : o.inname = some name) {ν : ℝ} (h0 : 0 ≤ ν) (hν : FactorIs o.rescale (tau.map val) (val redshift) ν)
    (hs : o.s.sum % 4 = 3) :
    Writes val junk8 junk4 o (specFile redshift box100 NumLos tau colden)
      [(outName (o.outdir.getD name) powerSuffix,
        powerOf ν (0.0023 * (1 + val redshift) ^ (3.65 : ℝ)) (rowsOf 1024 NumLos (tau.map val))),
       (outName (o.outdir.getD name) pdfSuffix, pdfOf (ν * ν) (tau.map val))] := by
  have b1 : bit1 o.s.sum = true := by unfold bit1; simp; omega
  have b2 : bit2 o.s.sum = true := by unfold bit2; simp; omega
  obtain ⟨fuel, hf⟩ := statistic_run hw val junk8 junk4 hu hin hν (Or.inl b1)
  refine ⟨fuel, ?_⟩
  rw [hf]
  unfold writeStats
  dsimp only
  rw [b1, b2, if_pos rfl, power_eq]
  have hp := pdf_eq (taus := (tau.map val).map (fun t => t * ν)) (scale := ν)
    (by intro h; exact written_ne hw val (List.map_eq_nil_iff.1 h))
    (by intro t ht; obtain ⟨t', ht', rfl⟩ := List.mem_map.1 ht; obtain ⟨b, hb, rfl⟩ := List.mem_map.1 ht'
        exact mul_nonneg (hpos b hb) h0) h0
  rw [pdfOf_scaled] at hp
  have hr : ((rowsOf 1024 NumLos (tau.map val)).map (fun row => row.map (fun t => t * ν))).flatten = (tau.map val).map (fun t => t * ν) := by
    rw [rows_map_flatten, rows_flatten _ _ _ (by rw [List.length_map, hw.tauLen])]
  simp only [bind, Except.bind, pure, Except.pure, if_true, hr, hp]
  rfl

/-- C98: if the file ends before the last optical depth, nothing is written and the program reports failure, whatever the
memory held. -/
theorem truncated_fails {redshift box100 : Bits} {NumLos : ℕ} {tau colden : List Bits} (hw : Written redshift box100 NumLos tau colden)
    (val : Bits → ℝ) (junk8 : List ℕ → ℕ) (junk4 : List ℕ → ℤ) {o : Opts} (hu : o.u = 0) {k : ℕ} (hk : k < 128 + 8 * (1024 * NumLos))
    (fuel : ℕ) :
    ∃ c, c ≠ 0 ∧ statistic fuel val junk8 junk4 o (some ((specFile redshift box100 NumLos tau colden).take k)) = some (.error (.exit c)) := by
  obtain ⟨c, hc, h⟩ := read_truncated hw junk8 junk4 hk
  unfold statistic
  cases o.inname with
  | none => exact ⟨99, by norm_num, rfl⟩
  | some name =>
    dsimp only
    split
    · exact ⟨99, by norm_num, rfl⟩
    · rw [hu, h]
      exact ⟨c, hc, rfl⟩

/-! A file with one sightline, all of whose optical depths are 10⁻⁶, at redshift zero. -/

/-- The number a pattern stands for in the example. -/
noncomputable def exVal (b : Bits) : ℝ := if b = 1 then 1e-6 else 0

theorem exWritten : Written 0 7 1 (List.replicate 1024 1) (List.replicate 1024 2) := by
  refine ⟨by norm_num, by norm_num, by norm_num, by norm_num, ?_, ?_, by rw [List.length_replicate], by rw [List.length_replicate]⟩ <;>
  · intro x hx
    rw [List.eq_of_mem_replicate hx]
    norm_num

theorem exTau : (List.replicate 1024 (1 : Bits)).map exVal = List.replicate 1024 1e-6 := by
  rw [List.map_replicate]
  unfold exVal
  rw [if_pos rfl]

theorem exMean (ν : ℝ) : meanFluxOf (List.replicate 1024 1e-6) ν = Real.exp (-(ν * 1e-6)) := by
  unfold meanFluxOf
  rw [List.map_replicate, List.sum_replicate, List.length_replicate, nsmul_eq_mul, mul_div_cancel_left₀]
  norm_num

theorem exFactor : ∃ ν : ℝ, FactorIs true (List.replicate 1024 1e-6) 0 ν ∧ 0 < ν ∧ 2000 < ν ∧ ν ≤ 2300 := by
  have hobs : (0.0023 * (1 + 0) ^ (3.65 : ℝ) : ℝ) = 0.0023 := by rw [add_zero, Real.one_rpow, mul_one]
  obtain ⟨ν, h1, h2, h3, h4⟩ := c_mean_flux_converges (taus := List.replicate 1024 1e-6) (obs := Real.exp (-0.0023)) (tol := 1e-5)
    (by intro t ht; rw [List.eq_of_mem_replicate ht]; norm_num) ⟨1e-6, List.mem_replicate.2 ⟨by norm_num, rfl⟩, by norm_num⟩ (by norm_num) (by norm_num)
    (by
      unfold clearFraction
      rw [List.countP_replicate]
      norm_num
      exact Real.exp_pos _)
    (Real.exp_lt_one_iff.2 (by norm_num))
  rw [exMean] at h3 h4
  have hle := Real.exp_le_exp.1 h3
  have hexp : Real.exp (-0.0023) ≤ 1 - 0.0023 + 0.0023 ^ 2 := by
    have h5 := Real.add_one_le_exp (0.0023 : ℝ)
    rw [Real.exp_neg, inv_le_comm₀ (Real.exp_pos _) (by norm_num)]
    refine le_trans ?_ h5
    norm_num
  have h6 := Real.add_one_le_exp (-(ν * 1e-6))
  refine ⟨ν, ?_, h2, ?_, ?_⟩
  · unfold FactorIs
    rw [if_pos rfl, hobs]
    exact h1
  · norm_num at h6 h4 hexp ⊢
    linarith
  · norm_num at hle ⊢
    linarith

theorem exPdf (s : ℝ) (i : ℕ) (hi : InBin 20 i (Real.exp (-(s * 1e-6)))) (hi20 : i < 20) :
    (pdfOf s (List.replicate 1024 1e-6))[i]? = some 20 := by
  unfold pdfOf
  rw [List.getElem?_map, List.getElem?_range hi20, Option.map_some, List.map_replicate, List.length_replicate]
  unfold binCount
  rw [List.countP_replicate, if_pos (by simpa using hi)]
  norm_num

/-- The total of the distribution is 20, so no other bin has an entry. -/
theorem exPdf_other (s : ℝ) (i j : ℕ) (hi : InBin 20 i (Real.exp (-(s * 1e-6)))) (hi20 : i < 20) (hj20 : j < 20) (hij : j ≠ i)
    (hs : 0 ≤ s) : (pdfOf s (List.replicate 1024 1e-6))[j]? = some 0 := by
  have hno : ¬ InBin 20 j (Real.exp (-(s * 1e-6))) := by
    intro hj
    have hu := one_bin (n := 20) (by norm_num) (Real.exp_pos (-(s * 1e-6))).le (Real.exp_le_one_iff.2 (by
      have : 0 ≤ s * 1e-6 := by positivity
      linarith))
    exact hij (hu.unique ⟨hj20, hj⟩ ⟨hi20, hi⟩)
  unfold pdfOf
  rw [List.getElem?_map, List.getElem?_range hj20, Option.map_some, List.map_replicate, List.length_replicate]
  unfold binCount
  rw [List.countP_replicate, if_neg (by simpa using hno)]
  norm_num

/-- C98 does not hold for two statistics at once: with `-s 1` the distribution of this file has all pixels in the last bin, with `-s 3`
it has all of them in the first, although the mean flux it was scaled to is the same. -/
theorem pdf_depends_on_power (junk8 : List ℕ → ℕ) (junk4 : List ℕ → ℤ) (name : List Char) :
    ∃ p q r, Writes exVal junk8 junk4 ⟨[1], 0, true, some name, none⟩ (specFile 0 7 1 (List.replicate 1024 1) (List.replicate 1024 2))
        [(outName name pdfSuffix, p)] ∧
      Writes exVal junk8 junk4 ⟨[3], 0, true, some name, none⟩ (specFile 0 7 1 (List.replicate 1024 1) (List.replicate 1024 2))
        [(outName name powerSuffix, r), (outName name pdfSuffix, q)] ∧
      p[19]? = some 20 ∧ p[0]? = some 0 ∧ q[19]? = some 0 ∧ q[0]? = some 20 := by
  obtain ⟨ν, h1, h2, h3, h4⟩ := exFactor
  have hz : exVal 0 = 0 := if_neg (by norm_num)
  have hf : FactorIs true ((List.replicate 1024 (1 : Bits)).map exVal) (exVal 0) ν := by rw [exTau, hz]; exact h1
  have hpos : ∀ b ∈ List.replicate 1024 (1 : Bits), 0 ≤ exVal b := by
    intro b hb
    rw [List.eq_of_mem_replicate hb]
    unfold exVal
    norm_num
  have a := pdf_written_partial exWritten exVal hpos junk8 junk4 (o := ⟨[1], 0, true, some name, none⟩) rfl rfl h2.le hf (by norm_num)
  have b := both_written exWritten exVal hpos junk8 junk4 (o := ⟨[3], 0, true, some name, none⟩) rfl rfl h2.le hf (by norm_num)
  refine ⟨_, _, _, a, b, ?_⟩
  rw [exTau]
  have b1 : InBin 20 19 (Real.exp (-(ν * 1e-6))) := by
    have h5 := Real.add_one_le_exp (-(ν * 1e-6))
    refine ⟨?_, Or.inr ⟨rfl, Real.exp_le_one_iff.2 ?_⟩⟩
    · norm_num at h5 ⊢
      linarith
    · norm_num
      linarith
  have b2 : InBin 20 0 (Real.exp (-(ν * ν * 1e-6))) := by
    refine ⟨by simpa using (Real.exp_pos _).le, Or.inl ?_⟩
    have h5 : (4 : ℝ) ≤ ν * ν * 1e-6 := by norm_num; nlinarith
    have h6 : Real.exp (-(ν * ν * 1e-6)) ≤ Real.exp (-4) := Real.exp_le_exp.2 (by linarith)
    have h7 : (2 : ℝ) ≤ Real.exp 1 := by have := Real.add_one_le_exp (1 : ℝ); linarith
    have h8 := Real.exp_one_gt_d9
    have h9 : Real.exp (-4) = (Real.exp 1)⁻¹ ^ 4 := by
      rw [← Real.exp_neg, ← Real.exp_nat_mul]
      norm_num
    have h10 : (Real.exp 1)⁻¹ ≤ 0.4 := by
      rw [inv_le_comm₀ (Real.exp_pos _) (by norm_num)]
      norm_num
      linarith
    have h11 : (Real.exp 1)⁻¹ ^ 4 ≤ 0.4 ^ 4 := pow_le_pow_left₀ (inv_nonneg.2 (Real.exp_pos _).le) h10 4
    norm_num at h11 ⊢
    rw [h9] at h6
    norm_num at h6
    linarith
  exact ⟨exPdf ν 19 b1 (by norm_num), exPdf_other ν 19 0 b1 (by norm_num) (by norm_num) (by norm_num) h2.le,
    exPdf_other (ν * ν) 0 19 b2 (by norm_num) (by norm_num) (by norm_num) (mul_pos h2 h2).le, exPdf (ν * ν) 0 b2 (by norm_num)⟩

/-! ### Names of the files -/

/-- `_spectra.dat` is not in the name before its end. -/
def OnlyAtEnd (base : List Char) : Prop := ∀ i < base.length, ¬ datSuffix <+: (base ++ datSuffix).drop i

/-- C98: the suffix replaces all from the first `_spectra.dat`. -/
theorem name_cut {base : List Char} (h : OnlyAtEnd base) (rest suffix : List Char) : outName (base ++ datSuffix ++ rest) suffix = base ++ suffix := by
  have hf : Verif.CTools.strFind (base ++ datSuffix ++ rest ++ suffix) datSuffix = some base.length := by
    unfold Verif.CTools.strFind
    rw [List.find?_range_eq_some]
    refine ⟨?_, ?_, ?_⟩
    · rw [CExtract.prefix_beq, List.append_assoc, List.append_assoc, List.drop_left]
      exact List.prefix_append _ _
    · rw [List.mem_range]
      simp only [List.length_append]
      omega
    · intro j hj
      have hn := h j hj
      rw [← CExtract.prefix_beq]  at hn
      have he : ((base ++ datSuffix ++ rest ++ suffix).drop j).take datSuffix.length = ((base ++ datSuffix).drop j).take datSuffix.length := by
        rw [List.append_assoc, List.drop_append_of_le_length (by rw [List.length_append]; omega),
          List.take_append_of_le_length (by rw [List.length_drop, List.length_append]; omega)]
      rw [he]
      simpa using hn
  unfold outName
  rw [hf]
  dsimp only
  rw [List.append_assoc, List.append_assoc, List.take_left]

/-- C98: for an ordinary name of a file of spectra the suffix takes the place of `_spectra.dat`. -/
theorem name_replaced {base : List Char} (h : OnlyAtEnd base) (suffix : List Char) : outName (base ++ datSuffix) suffix = base ++ suffix := by
  have := name_cut h [] suffix
  rwa [List.append_nil] at this

theorem suffix_apart {pre suffix : List Char} (hs : suffix = powerSuffix ∨ suffix = pdfSuffix) {i : ℕ}
    (h : datSuffix <+: (pre ++ suffix).drop i) : i + datSuffix.length ≤ pre.length := by
  by_contra hlt
  have hd : datSuffix.length = 12 := rfl
  rw [hd] at hlt
  have hget : ∀ j < 12, datSuffix[j]? = (pre ++ suffix)[i + j]? := by
    intro j hj
    obtain ⟨t, ht⟩ := h
    rw [← List.getElem?_drop, ← ht, List.getElem?_append_left (by rw [hd]; exact hj)]
  have hu : suffix[0]? = some '_' := by rcases hs with h | h <;> rw [h] <;> rfl
  by_cases hi : i < pre.length
  · have h1 := hget (pre.length - i) (by omega)
    rw [show i + (pre.length - i) = pre.length by omega, List.getElem?_append_right le_rfl, Nat.sub_self, hu] at h1
    have : ∀ j < 12, 0 < j → datSuffix[j]? ≠ some '_' := by decide
    exact this _ (by omega) (by omega) h1
  · obtain ⟨d, hd'⟩ := Nat.exists_eq_add_of_le (not_lt.1 hi)
    have h2 : ∀ j < 12, datSuffix[j]? = suffix[d + j]? := by
      intro j hj
      have := hget j hj
      rwa [List.getElem?_append_right (by omega), show i + j - pre.length = d + j by omega] at this
    have h0 := h2 0 (by norm_num)
    have h1 := h2 1 (by norm_num)
    have h11 := h2 11 (by norm_num)
    have hb : d < 16 := by
      by_contra hc
      rw [List.getElem?_eq_none (l := suffix) (by rcases hs with h | h <;> rw [h] <;> simp [powerSuffix, pdfSuffix] <;> omega)] at h0
      exact absurd h0 (by decide)
    rcases hs with h | h <;> rw [h] at h0 h1 <;> revert h0 h1 <;> interval_cases d <;> decide

/-- C98: otherwise the suffix is appended. -/
theorem name_appended {outdir suffix : List Char} (hs : suffix = powerSuffix ∨ suffix = pdfSuffix) (h : ¬ datSuffix <:+: outdir) :
    outName outdir suffix = outdir ++ suffix := by
  have hf : Verif.CTools.strFind (outdir ++ suffix) datSuffix = none := by
    unfold Verif.CTools.strFind
    rw [List.find?_eq_none]
    intro i hi hc
    rw [CExtract.prefix_beq] at hc
    have hle := suffix_apart hs hc
    apply h
    obtain ⟨t, ht⟩ := hc
    rw [List.drop_append_of_le_length (by omega)] at ht
    have hp : datSuffix <+: outdir.drop i := by
      refine List.prefix_of_prefix_length_le (l₃ := outdir.drop i ++ suffix) ⟨t, ht⟩ (List.prefix_append _ _) ?_
      rw [List.length_drop]
      omega
    exact hp.isInfix.trans (List.drop_suffix i outdir).isInfix
  unfold outName
  rw [hf]

/-- C98: the input is not overwritten. -/
theorem input_kept {name suffix : List Char} (hs : suffix = powerSuffix ∨ suffix = pdfSuffix) : outName name suffix ≠ name := by
  unfold outName
  cases hf : Verif.CTools.strFind (name ++ suffix) datSuffix with
  | none =>
    dsimp only
    intro h
    have := congrArg List.length h
    rw [List.length_append] at this
    rcases hs with h | h <;> rw [h] at this <;> simp [powerSuffix, pdfSuffix] at this
  | some p =>
    dsimp only
    intro h
    unfold Verif.CTools.strFind at hf
    rw [List.find?_range_eq_some] at hf
    obtain ⟨h1, -, -⟩ := hf
    rw [CExtract.prefix_beq] at h1
    have hle := suffix_apart hs h1
    rw [List.take_append_of_le_length (by omega)] at h
    have h2 : name.drop p = suffix := by
      conv_lhs => rw [← h]
      exact List.drop_left' (by rw [List.length_take]; omega)
    rw [List.drop_append_of_le_length (by omega), h2] at h1
    obtain ⟨t, ht⟩ := h1
    have h3 := congrArg (fun l : List Char => l[1]?) ht
    rcases hs with h | h <;> rw [h] at h3 <;> simp [powerSuffix, pdfSuffix, datSuffix] at h3

/-- C98 does not hold: results of different inputs get the same name if a directory above them has `_spectra.dat` in its name. -/
theorem names_collide {base : List Char} (h : OnlyAtEnd base) (a b suffix : List Char) :
    outName (base ++ datSuffix ++ '/' :: a ++ datSuffix) suffix = outName (base ++ datSuffix ++ '/' :: b ++ datSuffix) suffix := by
  rw [List.append_assoc, name_cut h, List.append_assoc, name_cut h]

/-- Witness: `a/x_spectra.dat`; the results of the files `1_spectra.dat` and `2_spectra.dat` of a directory `x_spectra.dat`. -/
example : OnlyAtEnd ['a', '/', 'x'] ∧
    outName (['x'] ++ datSuffix ++ ['/', '1'] ++ datSuffix) pdfSuffix = ['x'] ++ pdfSuffix ∧
    outName (['x'] ++ datSuffix ++ ['/', '2'] ++ datSuffix) pdfSuffix = ['x'] ++ pdfSuffix := by
  refine ⟨?_, ?_, ?_⟩
  · unfold OnlyAtEnd
    decide
  · rw [List.append_assoc, name_cut (by unfold OnlyAtEnd; decide)]
  · rw [List.append_assoc, name_cut (by unfold OnlyAtEnd; decide)]

/-! The theorems of C98 at work on the file of the example. -/

theorem exVal_nonneg (b : Bits) : 0 ≤ exVal b := by
  unfold exVal
  split <;> norm_num

example (j8 : List ℕ → ℕ) (j4 : List ℕ → ℤ) := spectra_read exWritten j8 j4

example (j8 : List ℕ → ℕ) (j4 : List ℕ → ℤ) := first_sightlines_partial exWritten j8 j4 (u := 1) (by norm_num) (by norm_num)

example (j8 : List ℕ → ℕ) (j4 : List ℕ → ℤ) := column_densities_used exWritten j8 j4 (u := 2) (by norm_num) (by norm_num)

example (j8 : List ℕ → ℕ) (j4 : List ℕ → ℤ) := truncated_fails exWritten exVal j8 j4 (o := ⟨[1], 0, true, some ['x'], none⟩) rfl
  (k := 8000) (by norm_num) 10

/-- The rescaling succeeds with a positive factor, whichever statistic is asked for. -/
example (j8 : List ℕ → ℕ) (j4 : List ℕ → ℤ) : ∃ ν : ℝ, 0 < ν ∧
    Writes exVal j8 j4 ⟨[1], 0, true, some ['x'], none⟩ (specFile 0 7 1 (List.replicate 1024 1) (List.replicate 1024 2))
      [(outName ['x'] pdfSuffix, pdfOf ν ((List.replicate 1024 1).map exVal))] ∧
    Writes exVal j8 j4 ⟨[2], 0, true, some ['x'], none⟩ (specFile 0 7 1 (List.replicate 1024 1) (List.replicate 1024 2))
      [(outName ['x'] powerSuffix,
        powerOf ν (0.0023 * (1 + exVal 0) ^ (3.65 : ℝ)) (rowsOf 1024 1 ((List.replicate 1024 1).map exVal)))] ∧
    Writes exVal j8 j4 ⟨[1, 2], 0, true, some ['x'], none⟩ (specFile 0 7 1 (List.replicate 1024 1) (List.replicate 1024 2))
      [(outName ['x'] powerSuffix,
        powerOf ν (0.0023 * (1 + exVal 0) ^ (3.65 : ℝ)) (rowsOf 1024 1 ((List.replicate 1024 1).map exVal))),
       (outName ['x'] pdfSuffix, pdfOf (ν * ν) ((List.replicate 1024 1).map exVal))] := by
  obtain ⟨ν, h1, h2, -⟩ := exFactor
  have h0 : exVal 0 = 0 := by simp [exVal]
  have hν : FactorIs true ((List.replicate 1024 (1 : Bits)).map exVal) (exVal 0) ν := by rw [exTau, h0]; exact h1
  exact ⟨ν, h2, pdf_written_partial exWritten exVal (fun b _ => exVal_nonneg b) j8 j4 rfl rfl h2.le hν rfl,
    power_written exWritten exVal j8 j4 rfl rfl hν rfl,
    both_written exWritten exVal (fun b _ => exVal_nonneg b) j8 j4 rfl rfl h2.le hν rfl⟩

example := name_replaced (base := ['a', '/', 'x']) (by unfold OnlyAtEnd; decide) pdfSuffix

example := name_appended (outdir := ['a', '/', 'x']) (suffix := pdfSuffix) (Or.inr rfl) (by decide)

example := input_kept (name := ['a', '/', 'x']) (suffix := pdfSuffix) (Or.inr rfl)

end Verif.Props.CStatistic
