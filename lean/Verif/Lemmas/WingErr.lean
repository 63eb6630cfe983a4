import Verif.Lemmas.Hermite
import Mathlib.Tactic.IntervalCases

/-!
The numbers of terms of the continued fraction of the Faddeeva function, and its error at the smallest radius of each.
-/

namespace Verif.Hermite

theorem err_3 : (Nat.factorial 3 : ℝ) / 2 ^ 3 * ((692 : ℝ) ^ 2 + 1 / 2) ≤ 4e-12 * hB (692 : ℝ) 3 ^ 2 := by
  have h0 : hB (692 : ℝ) 0 = 1 := rfl
  have h1 : hB (692 : ℝ) 1 = 692 := rfl
  have h2 : hB (692 : ℝ) 2 = 957727 / 2 := by rw [hB_succ, h1, h0]; norm_num
  have h3 : hB (692 : ℝ) 3 = 331372850 := by rw [hB_succ, h2, h1]; norm_num
  rw [h3]
  norm_num [Nat.factorial]

theorem err_4 : (Nat.factorial 4 : ℝ) / 2 ^ 4 * ((6181 / 100 : ℝ) ^ 2 + 1 / 2) ≤ 2.7e-11 * hB (6181 / 100 : ℝ) 4 ^ 2 := by
  have h0 : hB (6181 / 100 : ℝ) 0 = 1 := rfl
  have h1 : hB (6181 / 100 : ℝ) 1 = 6181 / 100 := rfl
  have h2 : hB (6181 / 100 : ℝ) 2 = 38199761 / 10000 := by rw [hB_succ, h1, h0]; norm_num
  have h3 : hB (6181 / 100 : ℝ) 3 = 236050912741 / 1000000 := by rw [hB_succ, h2, h1]; norm_num
  have h4 : hB (6181 / 100 : ℝ) 4 = 1458457695237121 / 100000000 := by rw [hB_succ, h3, h2]; norm_num
  rw [h4]
  norm_num [Nat.factorial]

theorem err_4' : (Nat.factorial 4 : ℝ) / 2 ^ 4 * ((100 : ℝ) ^ 2 + 1 / 2) ≤ 4e-12 * hB (100 : ℝ) 4 ^ 2 := by
  have h0 : hB (100 : ℝ) 0 = 1 := rfl
  have h1 : hB (100 : ℝ) 1 = 100 := rfl
  have h2 : hB (100 : ℝ) 2 = 19999 / 2 := by rw [hB_succ, h1, h0]; norm_num
  have h3 : hB (100 : ℝ) 3 = 999850 := by rw [hB_succ, h2, h1]; norm_num
  have h4 : hB (100 : ℝ) 4 = 399880003 / 4 := by rw [hB_succ, h3, h2]; norm_num
  rw [h4]
  norm_num [Nat.factorial]

theorem err_5 : (Nat.factorial 5 : ℝ) / 2 ^ 5 * ((1589 / 50 : ℝ) ^ 2 + 1 / 2) ≤ 4e-12 * hB (1589 / 50 : ℝ) 5 ^ 2 := by
  have h0 : hB (1589 / 50 : ℝ) 0 = 1 := rfl
  have h1 : hB (1589 / 50 : ℝ) 1 = 1589 / 50 := rfl
  have h2 : hB (1589 / 50 : ℝ) 2 = 2523671 / 2500 := by rw [hB_succ, h1, h0]; norm_num
  have h3 : hB (1589 / 50 : ℝ) 3 = 4006140719 / 125000 := by rw [hB_succ, h2, h1]; norm_num
  have h4 : hB (1589 / 50 : ℝ) 4 = 6356293836241 / 6250000 := by rw [hB_succ, h3, h2]; norm_num
  have h5 : hB (1589 / 50 : ℝ) 5 = 10080120202191949 / 312500000 := by rw [hB_succ, h4, h3]; norm_num
  rw [h5]
  norm_num [Nat.factorial]

theorem err_6 : (Nat.factorial 6 : ℝ) / 2 ^ 6 * ((21 : ℝ) ^ 2 + 1 / 2) ≤ 4e-12 * hB (21 : ℝ) 6 ^ 2 := by
  have h0 : hB (21 : ℝ) 0 = 1 := rfl
  have h1 : hB (21 : ℝ) 1 = 21 := rfl
  have h2 : hB (21 : ℝ) 2 = 881 / 2 := by rw [hB_succ, h1, h0]; norm_num
  have h3 : hB (21 : ℝ) 3 = 18459 / 2 := by rw [hB_succ, h2, h1]; norm_num
  have h4 : hB (21 : ℝ) 4 = 772635 / 4 := by rw [hB_succ, h3, h2]; norm_num
  have h5 : hB (21 : ℝ) 5 = 16151499 / 4 := by rw [hB_succ, h4, h3]; norm_num
  have h6 : hB (21 : ℝ) 6 = 674499783 / 8 := by rw [hB_succ, h5, h4]; norm_num
  rw [h6]
  norm_num [Nat.factorial]

theorem err_7 : (Nat.factorial 7 : ℝ) / 2 ^ 7 * ((31 / 2 : ℝ) ^ 2 + 1 / 2) ≤ 4e-12 * hB (31 / 2 : ℝ) 7 ^ 2 := by
  have h0 : hB (31 / 2 : ℝ) 0 = 1 := rfl
  have h1 : hB (31 / 2 : ℝ) 1 = 31 / 2 := rfl
  have h2 : hB (31 / 2 : ℝ) 2 = 959 / 4 := by rw [hB_succ, h1, h0]; norm_num
  have h3 : hB (31 / 2 : ℝ) 3 = 29605 / 8 := by rw [hB_succ, h2, h1]; norm_num
  have h4 : hB (31 / 2 : ℝ) 4 = 912001 / 16 := by rw [hB_succ, h3, h2]; norm_num
  have h5 : hB (31 / 2 : ℝ) 5 = 28035191 / 32 := by rw [hB_succ, h4, h3]; norm_num
  have h6 : hB (31 / 2 : ℝ) 6 = 859970911 / 64 := by rw [hB_succ, h5, h4]; norm_num
  have h7 : hB (31 / 2 : ℝ) 7 = 26322675949 / 128 := by rw [hB_succ, h6, h5]; norm_num
  rw [h7]
  norm_num [Nat.factorial]

theorem err_8 : (Nat.factorial 8 : ℝ) / 2 ^ 8 * ((12 : ℝ) ^ 2 + 1 / 2) ≤ 4e-12 * hB (12 : ℝ) 8 ^ 2 := by
  have h0 : hB (12 : ℝ) 0 = 1 := rfl
  have h1 : hB (12 : ℝ) 1 = 12 := rfl
  have h2 : hB (12 : ℝ) 2 = 287 / 2 := by rw [hB_succ, h1, h0]; norm_num
  have h3 : hB (12 : ℝ) 3 = 1710 := by rw [hB_succ, h2, h1]; norm_num
  have h4 : hB (12 : ℝ) 4 = 81219 / 4 := by rw [hB_succ, h3, h2]; norm_num
  have h5 : hB (12 : ℝ) 5 = 240237 := by rw [hB_succ, h4, h3]; norm_num
  have h6 : hB (12 : ℝ) 6 = 22656657 / 8 := by rw [hB_succ, h5, h4]; norm_num
  have h7 : hB (12 : ℝ) 7 = 66528549 / 2 := by rw [hB_succ, h6, h5]; norm_num
  have h8 : hB (12 : ℝ) 8 = 6228144105 / 16 := by rw [hB_succ, h7, h6]; norm_num
  rw [h8]
  norm_num [Nat.factorial]

theorem err_9 : (Nat.factorial 9 : ℝ) / 2 ^ 9 * ((10 : ℝ) ^ 2 + 1 / 2) ≤ 4e-12 * hB (10 : ℝ) 9 ^ 2 := by
  have h0 : hB (10 : ℝ) 0 = 1 := rfl
  have h1 : hB (10 : ℝ) 1 = 10 := rfl
  have h2 : hB (10 : ℝ) 2 = 199 / 2 := by rw [hB_succ, h1, h0]; norm_num
  have h3 : hB (10 : ℝ) 3 = 985 := by rw [hB_succ, h2, h1]; norm_num
  have h4 : hB (10 : ℝ) 4 = 38803 / 4 := by rw [hB_succ, h3, h2]; norm_num
  have h5 : hB (10 : ℝ) 5 = 190075 / 2 := by rw [hB_succ, h4, h3]; norm_num
  have h6 : hB (10 : ℝ) 6 = 7408985 / 8 := by rw [hB_succ, h5, h4]; norm_num
  have h7 : hB (10 : ℝ) 7 = 35904475 / 4 := by rw [hB_succ, h6, h5]; norm_num
  have h8 : hB (10 : ℝ) 8 = 1384316105 / 16 := by rw [hB_succ, h7, h6]; norm_num
  have h9 : hB (10 : ℝ) 9 = 6634344725 / 8 := by rw [hB_succ, h8, h7]; norm_num
  rw [h9]
  norm_num [Nat.factorial]

theorem err_10 : (Nat.factorial 10 : ℝ) / 2 ^ 10 * ((17 / 2 : ℝ) ^ 2 + 1 / 2) ≤ 4e-12 * hB (17 / 2 : ℝ) 10 ^ 2 := by
  have h0 : hB (17 / 2 : ℝ) 0 = 1 := rfl
  have h1 : hB (17 / 2 : ℝ) 1 = 17 / 2 := rfl
  have h2 : hB (17 / 2 : ℝ) 2 = 287 / 4 := by rw [hB_succ, h1, h0]; norm_num
  have h3 : hB (17 / 2 : ℝ) 3 = 4811 / 8 := by rw [hB_succ, h2, h1]; norm_num
  have h4 : hB (17 / 2 : ℝ) 4 = 80065 / 16 := by rw [hB_succ, h3, h2]; norm_num
  have h5 : hB (17 / 2 : ℝ) 5 = 1322617 / 32 := by rw [hB_succ, h4, h3]; norm_num
  have h6 : hB (17 / 2 : ℝ) 6 = 21683839 / 64 := by rw [hB_succ, h5, h4]; norm_num
  have h7 : hB (17 / 2 : ℝ) 7 = 352753859 / 128 := by rw [hB_succ, h6, h5]; norm_num
  have h8 : hB (17 / 2 : ℝ) 8 = 5693241857 / 256 := by rw [hB_succ, h7, h6]; norm_num
  have h9 : hB (17 / 2 : ℝ) 9 = 91141049825 / 512 := by rw [hB_succ, h8, h7]; norm_num
  have h10 : hB (17 / 2 : ℝ) 10 = 1446919493599 / 1024 := by rw [hB_succ, h9, h8]; norm_num
  rw [h10]
  norm_num [Nat.factorial]

theorem err_11 : (Nat.factorial 11 : ℝ) / 2 ^ 11 * ((73 / 10 : ℝ) ^ 2 + 1 / 2) ≤ 4e-12 * hB (73 / 10 : ℝ) 11 ^ 2 := by
  have h0 : hB (73 / 10 : ℝ) 0 = 1 := rfl
  have h1 : hB (73 / 10 : ℝ) 1 = 73 / 10 := rfl
  have h2 : hB (73 / 10 : ℝ) 2 = 5279 / 100 := by rw [hB_succ, h1, h0]; norm_num
  have h3 : hB (73 / 10 : ℝ) 3 = 378067 / 1000 := by rw [hB_succ, h2, h1]; norm_num
  have h4 : hB (73 / 10 : ℝ) 4 = 26807041 / 10000 := by rw [hB_succ, h3, h2]; norm_num
  have h5 : hB (73 / 10 : ℝ) 5 = 1881300593 / 100000 := by rw [hB_succ, h4, h3]; norm_num
  have h6 : hB (73 / 10 : ℝ) 6 = 130633183039 / 1000000 := by rw [hB_succ, h5, h4]; norm_num
  have h7 : hB (73 / 10 : ℝ) 7 = 8971832183947 / 10000000 := by rw [hB_succ, h6, h5]; norm_num
  have h8 : hB (73 / 10 : ℝ) 8 = 609222135364481 / 100000000 := by rw [hB_succ, h7, h6]; norm_num
  have h9 : hB (73 / 10 : ℝ) 9 = 40884483008028313 / 1000000000 := by rw [hB_succ, h8, h7]; norm_num
  have h10 : hB (73 / 10 : ℝ) 10 = 2710417298672050399 / 10000000000 := by rw [hB_succ, h9, h8]; norm_num
  have h11 : hB (73 / 10 : ℝ) 11 = 177418221299045522627 / 100000000000 := by rw [hB_succ, h10, h9]; norm_num
  rw [h11]
  norm_num [Nat.factorial]

theorem err_12 : (Nat.factorial 12 : ℝ) / 2 ^ 12 * ((319 / 50 : ℝ) ^ 2 + 1 / 2) ≤ 4e-12 * hB (319 / 50 : ℝ) 12 ^ 2 := by
  have h0 : hB (319 / 50 : ℝ) 0 = 1 := rfl
  have h1 : hB (319 / 50 : ℝ) 1 = 319 / 50 := rfl
  have h2 : hB (319 / 50 : ℝ) 2 = 100511 / 2500 := by rw [hB_succ, h1, h0]; norm_num
  have h3 : hB (319 / 50 : ℝ) 3 = 31265509 / 125000 := by rw [hB_succ, h2, h1]; norm_num
  have h4 : hB (319 / 50 : ℝ) 4 = 9596781121 / 6250000 := by rw [hB_succ, h3, h2]; norm_num
  have h5 : hB (319 / 50 : ℝ) 5 = 2905045632599 / 312500000 := by rw [hB_succ, h4, h3]; norm_num
  have h6 : hB (319 / 50 : ℝ) 6 = 866729674792831 / 15625000000 := by rw [hB_succ, h5, h4]; norm_num
  have h7 : hB (319 / 50 : ℝ) 7 = 254698924014420589 / 781250000000 := by rw [hB_succ, h6, h5]; norm_num
  have h8 : hB (319 / 50 : ℝ) 8 = 73665072106162896641 / 39062500000000 := by rw [hB_succ, h7, h6]; norm_num
  have h9 : hB (319 / 50 : ℝ) 9 = 20952168761721758138479 / 1953125000000000 := by rw [hB_succ, h8, h7]; norm_num
  have h10 : hB (319 / 50 : ℝ) 10 = 5855009773794908258963551 / 97656250000000000 := by rw [hB_succ, h9, h8]; norm_num
  have h11 : hB (319 / 50 : ℝ) 11 = 1605846008319053757878385269 / 4882812500000000000 := by rw [hB_succ, h10, h9]; norm_num
  have h12 : hB (319 / 50 : ℝ) 12 = 431758492264098160202456074561 / 244140625000000000000 := by rw [hB_succ, h11, h10]; norm_num
  rw [h12]
  norm_num [Nat.factorial]

theorem err_six {n : ℕ} (h1 : 13 ≤ n) (h2 : n ≤ 19) : (Nat.factorial n : ℝ) / 2 ^ n * ((6 : ℝ) ^ 2 + 1 / 2) ≤ 4e-12 * hB (6 : ℝ) n ^ 2 := by
  have h0 : hB (6 : ℝ) 0 = 1 := rfl
  have h1 : hB (6 : ℝ) 1 = 6 := rfl
  have h2 : hB (6 : ℝ) 2 = 71 / 2 := by rw [hB_succ, h1, h0]; norm_num
  have h3 : hB (6 : ℝ) 3 = 207 := by rw [hB_succ, h2, h1]; norm_num
  have h4 : hB (6 : ℝ) 4 = 4755 / 4 := by rw [hB_succ, h3, h2]; norm_num
  have h5 : hB (6 : ℝ) 5 = 13437 / 2 := by rw [hB_succ, h4, h3]; norm_num
  have h6 : hB (6 : ℝ) 6 = 298713 / 8 := by rw [hB_succ, h5, h4]; norm_num
  have h7 : hB (6 : ℝ) 7 = 815517 / 4 := by rw [hB_succ, h6, h5]; norm_num
  have h8 : hB (6 : ℝ) 8 = 17481417 / 16 := by rw [hB_succ, h7, h6]; norm_num
  have h9 : hB (6 : ℝ) 9 = 45920115 / 8 := by rw [hB_succ, h8, h7]; norm_num
  have h10 : hB (6 : ℝ) 10 = 944750007 / 32 := by rw [hB_succ, h9, h8]; norm_num
  have h11 : hB (6 : ℝ) 11 = 2375048871 / 16 := by rw [hB_succ, h10, h9]; norm_num
  have h12 : hB (6 : ℝ) 12 = 46608922827 / 64 := by rw [hB_succ, h11, h10]; norm_num
  have h13 : hB (6 : ℝ) 13 = 111326182029 / 32 := by rw [hB_succ, h12, h11]; norm_num
  have h14 : hB (6 : ℝ) 14 = 2065912371945 / 128 := by rw [hB_succ, h13, h12]; norm_num
  have h15 : hB (6 : ℝ) 15 = 4639170567429 / 64 := by rw [hB_succ, h14, h13]; norm_num
  have h16 : hB (6 : ℝ) 16 = 80351408039121 / 256 := by rw [hB_succ, h15, h14]; norm_num
  have h17 : hB (6 : ℝ) 17 = 166827495038499 / 128 := by rw [hB_succ, h16, h15]; norm_num
  have h18 : hB (6 : ℝ) 18 = 2637885944258919 / 512 := by rw [hB_succ, h17, h16]; norm_num
  have h19 : hB (6 : ℝ) 19 = 4910762922083775 / 256 := by rw [hB_succ, h18, h17]; norm_num
  interval_cases n
  · rw [h13]; norm_num [Nat.factorial]
  · rw [h14]; norm_num [Nat.factorial]
  · rw [h15]; norm_num [Nat.factorial]
  · rw [h16]; norm_num [Nat.factorial]
  · rw [h17]; norm_num [Nat.factorial]
  · rw [h18]; norm_num [Nat.factorial]
  · rw [h19]; norm_num [Nat.factorial]

theorem wing_radius {x y ρ m r : ℝ} (hρ : ρ ^ 2 = x ^ 2 + y ^ 2) (hρ0 : 0 ≤ ρ) (hm : m < 0.08254 * x + 0.1421 * y) (hm0 : 0 ≤ m) (hr : 0 ≤ r)
    (h : r ^ 2 * 0.0270052616 ≤ m ^ 2) : r ≤ ρ := by
  have h1 : m ^ 2 ≤ (0.08254 * x + 0.1421 * y) ^ 2 := by gcongr
  have h2 : (0.08254 * x + 0.1421 * y) ^ 2 ≤ 0.0270052616 * ρ ^ 2 := by
    rw [hρ]
    nlinarith [sq_nonneg (0.1421 * x - 0.08254 * y)]
  have h3 : r ^ 2 ≤ ρ ^ 2 := by linarith
  exact abs_le_of_sq_le_sq' h3 hρ0 |>.2

/-- The error of the continued fraction with the number of terms that the code takes. -/
theorem wing_err {n : ℕ} {x y ρ : ℝ} (h1 : 3 ≤ n) (h2 : n ≤ 19) (hρ : ρ ^ 2 = x ^ 2 + y ^ 2) (hρ0 : 0 ≤ ρ) (hx : 0 ≤ x) (hy : 0 < y) (hρ6 : 6 ≤ ρ)
    (hs : 11.398 / ((n : ℝ) - 2.9) < 0.08254 * x + 0.1421 * y + 0.2023) :
    2 * ((n : ℝ) - 1) ≤ ρ ^ 2 ∧ (Nat.factorial n : ℝ) / 2 ^ n * (ρ ^ 2 + 1 / 2) ≤ 4e-12 * max 1 (y ^ 2) * hB ρ n ^ 2 := by
  have use : ∀ (m : ℕ) {r K : ℝ}, 0 < r → r ≤ ρ → 2 * (m : ℝ) ≤ r ^ 2 → (Nat.factorial (m + 1) : ℝ) / 2 ^ (m + 1) * (r ^ 2 + 1 / 2) ≤ K * hB r (m + 1) ^ 2 →
      0 ≤ K → K ≤ 4e-12 * max 1 (y ^ 2) →
      2 * (((m + 1 : ℕ) : ℝ) - 1) ≤ ρ ^ 2 ∧ (Nat.factorial (m + 1) : ℝ) / 2 ^ (m + 1) * (ρ ^ 2 + 1 / 2) ≤ 4e-12 * max 1 (y ^ 2) * hB ρ (m + 1) ^ 2 := by
    intro m r K hr hrρ hm hK hK0 hKm
    have hsq : r ^ 2 ≤ ρ ^ 2 := by gcongr
    refine ⟨by push_cast; linarith, ?_⟩
    have h := err_mono hr hrρ m hm (by positivity) hK hK0
    refine h.trans ?_
    exact mul_le_mul_of_nonneg_right hKm (sq_nonneg _)
  have h4 : (4e-12 : ℝ) ≤ 4e-12 * max 1 (y ^ 2) := by nlinarith [le_max_left 1 (y ^ 2)]
  interval_cases n
  · have hm := wing_radius hρ hρ0 (m := 11.398 / (3 - 2.9) - 0.2023) (r := 692) (by norm_num at hs ⊢; linarith) (by norm_num) (by norm_num) (by norm_num)
    exact use 2 (by norm_num) hm (by norm_num) err_3 (by positivity) h4
  · by_cases hy2 : y < 2.6
    · have hm : (100 : ℝ) ≤ ρ := by
        have : (100 : ℝ) < x := by norm_num at hs; linarith
        nlinarith
      exact use 3 (by norm_num) hm (by norm_num) err_4' (by positivity) (by nlinarith [le_max_left 1 (y ^ 2)])
    · have hm := wing_radius hρ hρ0 (m := 11.398 / (4 - 2.9) - 0.2023) (r := 6181 / 100) (by norm_num at hs ⊢; linarith) (by norm_num) (by norm_num) (by norm_num)
      have hy3 : (2.6 : ℝ) ^ 2 ≤ y ^ 2 := by
        rw [not_lt] at hy2
        gcongr
      exact use 3 (by norm_num) hm (by norm_num) err_4 (by positivity) (by nlinarith [le_max_right 1 (y ^ 2)])
  · have hm := wing_radius hρ hρ0 (m := 11.398 / (5 - 2.9) - 0.2023) (r := 1589 / 50) (by norm_num at hs ⊢; linarith) (by norm_num) (by norm_num) (by norm_num)
    exact use 4 (by norm_num) hm (by norm_num) err_5 (by positivity) h4
  · have hm := wing_radius hρ hρ0 (m := 11.398 / (6 - 2.9) - 0.2023) (r := 21) (by norm_num at hs ⊢; linarith) (by norm_num) (by norm_num) (by norm_num)
    exact use 5 (by norm_num) hm (by norm_num) err_6 (by positivity) h4
  · have hm := wing_radius hρ hρ0 (m := 11.398 / (7 - 2.9) - 0.2023) (r := 31 / 2) (by norm_num at hs ⊢; linarith) (by norm_num) (by norm_num) (by norm_num)
    exact use 6 (by norm_num) hm (by norm_num) err_7 (by positivity) h4
  · have hm := wing_radius hρ hρ0 (m := 11.398 / (8 - 2.9) - 0.2023) (r := 12) (by norm_num at hs ⊢; linarith) (by norm_num) (by norm_num) (by norm_num)
    exact use 7 (by norm_num) hm (by norm_num) err_8 (by positivity) h4
  · have hm := wing_radius hρ hρ0 (m := 11.398 / (9 - 2.9) - 0.2023) (r := 10) (by norm_num at hs ⊢; linarith) (by norm_num) (by norm_num) (by norm_num)
    exact use 8 (by norm_num) hm (by norm_num) err_9 (by positivity) h4
  · have hm := wing_radius hρ hρ0 (m := 11.398 / (10 - 2.9) - 0.2023) (r := 17 / 2) (by norm_num at hs ⊢; linarith) (by norm_num) (by norm_num) (by norm_num)
    exact use 9 (by norm_num) hm (by norm_num) err_10 (by positivity) h4
  · have hm := wing_radius hρ hρ0 (m := 11.398 / (11 - 2.9) - 0.2023) (r := 73 / 10) (by norm_num at hs ⊢; linarith) (by norm_num) (by norm_num) (by norm_num)
    exact use 10 (by norm_num) hm (by norm_num) err_11 (by positivity) h4
  · have hm := wing_radius hρ hρ0 (m := 11.398 / (12 - 2.9) - 0.2023) (r := 319 / 50) (by norm_num at hs ⊢; linarith) (by norm_num) (by norm_num) (by norm_num)
    exact use 11 (by norm_num) hm (by norm_num) err_12 (by positivity) h4
  · exact use 12 (by norm_num) hρ6 (by norm_num) (err_six (by norm_num) (by norm_num)) (by positivity) h4
  · exact use 13 (by norm_num) hρ6 (by norm_num) (err_six (by norm_num) (by norm_num)) (by positivity) h4
  · exact use 14 (by norm_num) hρ6 (by norm_num) (err_six (by norm_num) (by norm_num)) (by positivity) h4
  · exact use 15 (by norm_num) hρ6 (by norm_num) (err_six (by norm_num) (by norm_num)) (by positivity) h4
  · exact use 16 (by norm_num) hρ6 (by norm_num) (err_six (by norm_num) (by norm_num)) (by positivity) h4
  · exact use 17 (by norm_num) hρ6 (by norm_num) (err_six (by norm_num) (by norm_num)) (by positivity) h4
  · exact use 18 (by norm_num) hρ6 (by norm_num) (err_six (by norm_num) (by norm_num)) (by positivity) h4

end Verif.Hermite
