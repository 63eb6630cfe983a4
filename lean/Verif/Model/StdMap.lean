import Verif.Common

/-!
The C++ containers used by the extension module: `std::map<int, T>` and `std::set<int>` as
key-sorted lists, `std::multimap<double, int>` as a list sorted by key with equal keys in insertion
order. Iteration order in C++ is the list order here.
-/

namespace Verif

/-- `std::map<int, β>`: key-sorted association list. Keys are the `int` indices used by
fake_spectra/index_table.cpp, which are never negative. -/
abbrev StdMap (β : Type) := List (ℕ × β)

namespace StdMap

/-- `m[k] = v` (fake_spectra/index_table.cpp:46): insert, or overwrite if present. -/
def assign {β : Type} : StdMap β → ℕ → β → StdMap β
  | [], k, v => [(k, v)]
  | (k', v') :: t, k, v =>
    if k < k' then (k, v) :: (k', v') :: t
    else if k = k' then (k, v) :: t
    else (k', v') :: assign t k v

/-- `m.insert(std::pair(k, v))` (fake_spectra/index_table.cpp:145): insert unless `k` is present. -/
def insertNew {β : Type} : StdMap β → ℕ → β → StdMap β
  | [], k, v => [(k, v)]
  | (k', v') :: t, k, v =>
    if k < k' then (k, v) :: (k', v') :: t
    else if k = k' then (k', v') :: t
    else (k', v') :: insertNew t k v

/-- `m.find(k)`. -/
def find? {β : Type} : StdMap β → ℕ → Option β
  | [], _ => none
  | (k', v') :: t, k => if k = k' then some v' else find? t k

/-- Keys strictly increase. -/
def Sorted {β : Type} (m : StdMap β) : Prop := m.Pairwise (fun a b => a.1 < b.1)

end StdMap

/-- `std::set<int>::insert` (fake_spectra/py_module.cpp:79). -/
def StdSet.insert : List ℕ → ℕ → List ℕ
  | [], k => [k]
  | k' :: t, k => if k < k' then k :: k' :: t else if k = k' then k' :: t else k' :: StdSet.insert t k

/-- `std::multimap<double,int>::insert` (fake_spectra/index_table.cpp:12,14): after every element
with a key that is not larger. -/
noncomputable def MultiMap.insert : List (ℝ × ℕ) → ℝ → ℕ → List (ℝ × ℕ)
  | [], k, v => [(k, v)]
  | (k', v') :: t, k, v =>
    if k < k' then (k, v) :: (k', v') :: t else (k', v') :: MultiMap.insert t k v

/-- `std::multimap::lower_bound(x)` as a position: the number of elements with key below `x` at the
front (fake_spectra/index_table.cpp:102,104). -/
noncomputable def MultiMap.lowerBound : List (ℝ × ℕ) → ℝ → ℕ
  | [], _ => 0
  | (k', _) :: t, x => if k' < x then MultiMap.lowerBound t x + 1 else 0

/-- The elements visited by `for(it = low; it != high; ++it)`. Only used with `low ≤ high`. -/
def MultiMap.range (t : List (ℝ × ℕ)) (low high : ℕ) : List (ℝ × ℕ) := (t.drop low).take (high - low)

end Verif
