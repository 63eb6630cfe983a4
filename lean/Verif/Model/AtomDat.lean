import Verif.Model.LineData

/-!
The rows of neutral hydrogen in the shipped table of lines, and `float` of decimal numbers.
-/

namespace Verif.LineData

/-- Rows 7 to 38 of fake_spectra/atom.dat, without the ends of the lines: the Lyman series and its limit. No other row of the
file is read as neutral hydrogen. -/
def hydrogen : List String := [
  "H I   1215.6701 0.416400  6.265E8  1.00794 Morton(03), 2cpts sep by 1.3 km/s, A&G:10.446",
  "H I   1025.7223 0.079120  1.897E8",
  "H I    972.5368 0.029000  8.127E7",
  "H I    949.7431 0.013940  4.204E7",
  "H I    937.8035 0.007799  2.450E7",
  "H I    930.7483 0.004814  1.236E7  Aki only (< real Gamma)",
  "H I    926.2257 0.003183  8.255E6",
  "H I    923.1504 0.002216  5.785E6",
  "H I    920.9631 0.001605  4.210E6",
  "H I    919.3514 0.00120   3.160E6",
  "H I    918.1294 0.000921  2.432E6",
  "H I    917.1806 7.226e-4  1.911E6",
  "H I    916.429 0.000577  1.529E6",
  "H I    915.824 0.000469  1.243E6",
  "H I    915.329 0.000386  1.024E6",
  "H I    914.919 0.000321  8.533E5",
  "H I    914.576 0.000270  7.186E5",
  "H I    914.286 0.000230  6.109E5",
  "H I    914.039 0.000197  5.237E5",
  "H I    913.826 0.000170  4.523E5",
  "H I    913.641 0.000148  3.933E5",
  "H I    913.480 0.000129  3.443E5",
  "H I    913.339 0.000114  3.030E5",
  "H I    913.215 0.000101  2.679E5",
  "H I    913.104 0.000089  2.382E5",
  "H I    913.006 0.000080  2.127E5",
  "H I    912.918 0.000071  1.907E5",
  "H I    912.839 0.000064  1.716E5",
  "H I    912.768 0.000058  1.550E5",
  "H I    912.703 0.000053  1.405E5",
  "H I    912.645 0.000048  1.277E5",
  "H I    911.7633 0.630E-17 1.0000  Lyman limit"]

/-- Rows 236 and 237 of fake_spectra/atom.dat, without the ends of the lines: the rows of neon. -/
def neon : List String := [
  "NeVIII 780.324 0.050500  1.000e8  20.18 VBT A&G:6.537",
  "NeVIII 770.409 0.103000  1.000e8  VBT"]

/-- The digits of a natural number. -/
def decNat (s : List Char) : Option ℕ :=
  if s.all (fun c => 48 ≤ c.toNat && c.toNat ≤ 57) then some (s.foldl (fun n c => 10 * n + (c.toNat - 48)) 0) else none

/-- An integer with or without a sign. -/
def decInt : List Char → Option ℤ
  | '-' :: s => if s.isEmpty then none else (decNat s).map (fun n => -(n : ℤ))
  | '+' :: s => if s.isEmpty then none else (decNat s).map (fun n => (n : ℤ))
  | s => if s.isEmpty then none else (decNat s).map (fun n => (n : ℤ))

/-- `float(s)` for a decimal number with or without sign, point and exponent: mantissa and power of ten. Python's underscores,
infinities and NaN are not modelled (rejected). -/
def decParse (s : List Char) : Option (ℤ × ℤ) :=
  let (neg, s) := match s with
    | '-' :: r => (true, r)
    | '+' :: r => (false, r)
    | r => (false, r)
  let (m, e) := s.span (fun c => c != 'e' && c != 'E')
  let ex : Option ℤ := match e with
    | [] => some 0
    | _ :: r => decInt r
  let (whole, frac) := m.span (fun c => c != '.')
  let frac := frac.drop 1
  if (whole ++ frac).isEmpty then none
  else match decNat (whole ++ frac), ex with
    | some n, some x => some (if neg then -(n : ℤ) else n, x - (frac.length : ℤ))
    | _, _ => none

/-- The number with a mantissa and a power of ten. -/
noncomputable def decVal (p : ℤ × ℤ) : ℝ := p.1 * (10 : ℝ) ^ p.2

/-- `float`, line_data.py:104-105. -/
noncomputable def decFloat (s : List Char) : Option ℝ := (decParse s).map decVal

end Verif.LineData
