import Verif.Model.NumTypes
import Verif.Props.PyModule
import Verif.Props.WeightMean

/-!
C129: averages over the gas hand arrays to the extension in the precision it takes.
-/

namespace Verif.Props.NumTypes
open Verif Verif.Spec Verif.Props Verif.PartInt Verif.IndexTable Verif.Absorption Verif.ComputeSpectra Verif.PyModule Verif.NumTypes
open Verif.Props.PyModule

/-! ### The extension -/

theorem typed_ok (c : Config) (hc : GoodAxes c) (parts : List Part) :
    interpolateTyped c .float32 parts =
      crash (interpolate c false parts) (fun res => .value ([(c.lines.length : ℤ), (c.nbins : ℤ)], res)) := by
  unfold interpolateTyped
  have hP : 3 * parts.length ≤ (vectors (parts.map Part.pos)).data.length := by
    unfold vectors
    dsimp only
    rw [flat_length (fun v => v), List.length_map]
  have hC : 3 * c.lines.length ≤ (cofmArr c.lines).data.length := by
    unfold cofmArr
    dsimp only
    rw [flat_length Line.cofm]
  have hT : Types (vectors (parts.map Part.pos)) (vectors (parts.map Part.vel)) ⟨.float32, [parts.length], parts.map Part.dens⟩
      (numbers (parts.map Part.temp)) (numbers (parts.map Part.h)) (axisArr c.lines) (cofmArr c.lines) :=
    ⟨rfl, rfl, rfl, rfl, rfl, rfl, rfl⟩
  rw [interp_value c.L c.box hT (n := parts.length) (l := c.lines.length) (r1 := [3]) (r2 := []) (r3 := []) (r4 := []) (r5 := [])
    (by simp [vectors]) rfl (by simp [numbers]) (by simp [axisArr]) (by simp [cofmArr]) hP (by simp)
    (by simp [numbers]) (by simp [axisArr]) hC (by simp) (by simp) (axes_ok hc) (vectors (parts.map Part.vel)).data (parts.map Part.temp) (by simp) (by simp)]
  have hb : flatParts (vectors (parts.map Part.pos)).data (vectors (parts.map Part.vel)).data (numbers (parts.map Part.dens)).data
      (parts.map Part.temp) (numbers (parts.map Part.h)).data parts.length = parts := parts_back parts
  have hb' : flatParts (vectors (parts.map Part.pos)).data (vectors (parts.map Part.vel)).data (parts.map Part.dens)
      (parts.map Part.temp) (numbers (parts.map Part.h)).data parts.length = parts := hb
  rw [lines_back, hb']
  rfl

theorem typed_refused (c : Config) {t : DType} (ht : t ≠ .float32) (parts : List Part) : interpolateTyped c t parts = .raised .typeError :=
  interp_types _ _ _ _ _ _ _ _ _ _ _ fun h => ht h.dens

theorem file_ok {c : Config} (hc : GoodConfig c) (len : ℝ) (w : Part → ℝ) (seg : List Raw) :
    NumTypes.weighted_single_file c .float32 len w seg = WeightMean.weighted_single_file c len w seg := by
  unfold NumTypes.weighted_single_file WeightMean.weighted_single_file
  rcases read_particle_data c true seg with e | _ | parts
  · rfl
  · rfl
  · simp only [typed_ok c hc.axes, interpolate_eq hc]
    rfl

/-! ### Spectra -/

/-- The densities read from a snapshot are in single precision. -/
theorem read_single (r : Rule) (q : Query) : readType r q = .float32 := by cases r <;> cases q <;> rfl

/-- C129, spectra: the arrays for column densities and optical depths are accepted, and the result of a segment is that of `compute_spectra`. -/
theorem spectra_accepted (r : Rule) {c : Config} (hc : GoodConfig c) {get_tau haveTemp : Bool} (ht : get_tau = true → haveTemp = true) (seg : List Raw) :
    NumTypes.interpolate_single_file r c get_tau haveTemp seg = ComputeSpectra.interpolate_single_file c get_tau seg := by
  unfold NumTypes.interpolate_single_file ComputeSpectra.interpolate_single_file
  rcases read_particle_data c get_tau seg with e | _ | parts
  · rfl
  · rfl
  · have h := interp_from_python c hc.axes get_tau haveTemp ht parts
    have hd : (⟨readType r (query c.sp), [parts.length], parts.map Part.dens⟩ : Arr ℝ) = numbers (parts.map Part.dens) := by
      rw [read_single, numbers, List.length_map]
    unfold do_interpolation_work at h
    simp only [hd, h, interpolate_eq hc]
    rfl

/-- A particle on a sightline. -/
example : NumTypes.interpolate_single_file .numpy2 (exConfig .HI) true true [exRaw 2] = ComputeSpectra.interpolate_single_file (exConfig .HI) true [exRaw 2] :=
  spectra_accepted .numpy2 (exConfig_good .HI) (fun _ => rfl) _

/-! ### Temperatures and densities -/

/-- C129, temperatures: whatever the types of the numbers in the header and with either rule of NumPy the arrays are accepted, and the sum is that of
`get_temp`. -/
theorem temp_accepted (r : Rule) (hd : Header) {c : Config} (hc : GoodConfig c) (len : ℝ) (segs : List (List Raw)) :
    temp_sum r hd c len segs = WeightMean.sumFiles (WeightMean.weighted_single_file c len (fun p => p.temp)) segs := by
  have : tempType r (query c.sp) hd = .float32 := by
    unfold tempType
    rw [read_single]
    cases r <;> rfl
  unfold temp_sum
  rw [this, funext (file_ok hc len _)]

/-- C129, density-weighted densities: the arrays are accepted. -/
theorem densweight_accepted (r : Rule) (q : Query) (hd : Header) {c : Config} (hc : GoodAxes c) (parts : List Part) :
    interpolateTyped c (densweightType r q hd) parts =
      crash (interpolate c false parts) (fun res => .value ([(c.lines.length : ℤ), (c.nbins : ℤ)], res)) := by
  have : densweightType r q hd = .float32 := by
    unfold densweightType
    rw [read_single, read_single]
    cases r <;> rfl
  rw [this, typed_ok c hc]

/-! ### Velocities -/

/-- The products for velocities are in single precision before NumPy 2, and since only if no number in them is in double precision. -/
theorem velocity_type (r : Rule) (q : Query) (hd : Header) :
    velocityType r q hd = .float32 ↔ r = .numpy1 ∨ (hd.atime = .single ∧ hd.box ≠ .double ∧ hd.hz ≠ .double) := by
  obtain ⟨a, b, h⟩ := hd
  unfold velocityType
  rw [read_single]
  cases r <;> cases a <;> cases b <;> cases h <;> simp [NumTypes.phys, NumTypes.dvbin, NumTypes.velfac, numOp, arrNum, arrArr, sqrtNum]

/-- C129, velocities: before NumPy 2 the arrays are accepted, and the sum is that of `get_velocity`. Missing: NumPy 2 and double precision in the header
(`velocity_refused`). -/
theorem velocity_accepted_partial (r : Rule) (hd : Header) (hr : r = .numpy1 ∨ (hd.atime = .single ∧ hd.box ≠ .double ∧ hd.hz ≠ .double)) {c : Config}
    (hc : GoodConfig c) (len atime : ℝ) (ax : Fin 3) (segs : List (List Raw)) :
    NumTypes.velocity_sum r hd c len atime ax segs = WeightMean.velocity_sum .hdf5 c len atime ax segs := by
  unfold NumTypes.velocity_sum WeightMean.velocity_sum WeightMean.countSegments
  rw [(velocity_type r _ hd).2 hr, funext (file_ok hc len _)]

/-- C129 is false of velocities: with NumPy 2 and an expansion factor in double precision the query is a `TypeError` as soon as there is gas near a
sightline. -/
theorem velocity_refused {hd : Header} (ha : hd.atime ≠ .single) {c : Config} (hc : GoodAxes c) (hs : c.sp = .HI ∨ c.sp = .all) (len atime : ℝ) (ax : Fin 3)
    {segs : List (List Raw)} (hgas : ∃ seg ∈ segs, ∃ r ∈ seg, Near c r) : NumTypes.velocity_sum .numpy2 hd c len atime ax segs = .raised .typeError := by
  classical
  have ht : velocityType .numpy2 (query c.sp) hd ≠ .float32 := by
    rw [Ne, velocity_type]
    rintro (h | h)
    · cases h
    · exact ha h.1
  have hT : TempRead true c.sp := by rcases hs with h | h <;> rw [h] <;> trivial
  have hprep : ∀ r, ∃ p, prep c true r = some p := by
    intro r
    unfold prep
    rcases hs with h | h <;> rw [h] <;> exact ⟨_, rfl⟩
  set F := NumTypes.weighted_single_file c (velocityType .numpy2 (query c.sp) hd) len (fun p => p.vel ax * Real.sqrt atime) with hF
  have hfile : ∀ seg, (F seg = .raised .typeError) ∨ (F seg = .value (zeros c) ∧ ∀ r ∈ seg, ¬ Near c r) := by
    intro seg
    obtain ⟨o, ho, h⟩ := read_particle_data_eq hc true hT seg
    rw [hF]
    unfold NumTypes.weighted_single_file
    rw [ho]
    rcases h with ⟨rfl, h⟩ | ⟨rfl, h⟩
    · refine Or.inr ⟨rfl, fun r hr hn => ?_⟩
      obtain ⟨p, hp⟩ := hprep r
      have : p ∈ (seg.filter (fun r => decide (Near c r))).filterMap (prep c true) :=
        List.mem_filterMap.2 ⟨r, List.mem_filter.2 ⟨hr, by simpa using hn⟩, hp⟩
      rw [h] at this
      cases this
    · left
      simp only [typed_refused c ht]
  have hadd : ∀ (l : List (List Raw)) (a : List ℝ), (∃ seg ∈ l, ∃ r ∈ seg, Near c r) → WeightMean.addFiles F a l = .raised .typeError := by
    intro l
    induction l with
    | nil => rintro a ⟨seg, h, -⟩; cases h
    | cons s l ih =>
      rintro a ⟨seg, h, r, hr, hn⟩
      rw [WeightMean.addFiles]
      rcases hfile s with e | ⟨e, hno⟩
      · rw [e]
      · rw [e]
        rcases List.mem_cons.1 h with rfl | h
        · exact absurd hn (hno r hr)
        · exact ih _ ⟨seg, h, r, hr, hn⟩
  unfold NumTypes.velocity_sum
  obtain ⟨seg, h, r, hr, hn⟩ := hgas
  cases segs with
  | nil => cases h
  | cons s l =>
    rw [WeightMean.sumFiles]
    rcases hfile s with e | ⟨e, hno⟩
    · rw [← hF, e]
    · rw [← hF, e]
      rcases List.mem_cons.1 h with rfl | h
      · exact absurd hn (hno r hr)
      · exact hadd _ _ ⟨seg, h, r, hr, hn⟩

/-- One particle on a sightline, in the second of two files, with a header in double precision. -/
example : NumTypes.velocity_sum .numpy2 ⟨.double, .double, .double⟩ (exConfig .HI) 2 1 0 [[], [exRaw 2]] = .raised .typeError :=
  velocity_refused (by simp) (exConfig_good .HI).axes (Or.inl rfl) 2 1 0
    ⟨[exRaw 2], by simp, exRaw 2, by simp, exNear .HI (by norm_num) (by norm_num)⟩

/-- The same before NumPy 2. -/
example : NumTypes.velocity_sum .numpy1 ⟨.double, .double, .double⟩ (exConfig .HI) 2 1 0 [[], [exRaw 2]] =
    WeightMean.velocity_sum .hdf5 (exConfig .HI) 2 1 0 [[], [exRaw 2]] :=
  velocity_accepted_partial .numpy1 _ (Or.inl rfl) (exConfig_good .HI) 2 1 0 _

/-! ### Stars -/

/-- C129, stars: with a radius that is a number of Python, such as the default, or before NumPy 2, the search is that of `_near_lines`. -/
theorem stars_accepted_partial {r : Rule} {t : Num} (hr : r = .numpy1 ∨ t ≠ .double) {c : Config} (hc : GoodAxes c) (hl : c.lines ≠ []) (hhmult : ℝ)
    (stars : List Vec3) : starSearch r c t hhmult stars = .value (near_lines c.box (stars.map (fun x => (x, hhmult))) c.lines) := by
  have ht : starType r t = .float32 := by
    rcases hr with rfl | h
    · rfl
    · cases r <;> cases t <;> first | rfl | exact absurd rfl h
  unfold starSearch
  rw [if_neg hl, if_pos]
  swap
  · rw [Bool.and_eq_true, List.all_eq_true, List.all_eq_true]
    constructor <;>
    · intro l hl
      rw [decide_eq_true_eq]
      rcases hc l hl with h | h | h <;> rw [h] <;> norm_num
  have hP : 3 * stars.length ≤ (vectors stars).data.length := by
    unfold vectors
    dsimp only
    rw [flat_length (fun v => v)]
  have hC : 3 * c.lines.length ≤ (cofmArr c.lines).data.length := by
    unfold cofmArr
    dsimp only
    rw [flat_length Line.cofm]
  rw [near_value c.box rfl ht rfl rfl (n := stars.length) (l := c.lines.length) (r1 := [3]) (r4 := []) (r5 := [])
    (by simp [vectors]) (by simp [axisArr]) (by simp [cofmArr]) hP (by simp) (by simp [axisArr]) hC, lines_back]
  congr 2
  apply List.ext_getElem?
  intro i
  by_cases hi : i < stars.length
  · have hx := List.getElem?_eq_getElem hi
    rw [List.getElem?_map, List.getElem?_map, List.getElem?_range hi, hx]
    unfold vectors
    simp only [Option.map_some]
    rw [flat_vec (fun v => v) stars hx, getD_map' _ stars hx]
  · rw [List.getElem?_eq_none (by simp; omega), List.getElem?_eq_none (by simp; omega)]

/-- C129 is false of stars: with NumPy 2 and a radius from an angle on the sky the search is a `TypeError`, whatever the types of the angle and of the header
and even if there are no stars. -/
theorem stars_refused (arcsec hubble atime : Num) {c : Config} (hc : GoodAxes c) (hl : c.lines ≠ []) (hhmult : ℝ) (stars : List Vec3) :
    starSearch .numpy2 c (distanceType .numpy2 arcsec hubble atime) hhmult stars = .raised .typeError := by
  have ht : starType .numpy2 (distanceType .numpy2 arcsec hubble atime) ≠ .float32 := by
    cases arcsec <;> cases hubble <;> cases atime <;> simp [starType, distanceType, numOp, arrNum]
  unfold starSearch
  rw [if_neg hl, if_pos]
  swap
  · rw [Bool.and_eq_true, List.all_eq_true, List.all_eq_true]
    constructor <;>
    · intro l hl
      rw [decide_eq_true_eq]
      rcases hc l hl with h | h | h <;> rw [h] <;> norm_num
  exact (near_raises c.box (vectors stars) _ (axisArr c.lines) (cofmArr c.lines) (n := stars.length) (r := [3]) rfl).2 (by simp [axisArr, cofmArr]) (Or.inr ht)

/-- A star on a sightline. -/
example : starSearch .numpy2 (exConfig .HI) (distanceType .numpy2 .python .double .double) 1 [![5, 5, 2]] = .raised .typeError ∧
    starSearch .numpy2 (exConfig .HI) .python 1 [![5, 5, 2]] =
      .value (near_lines (exConfig .HI).box [(![5, 5, 2], 1)] (exConfig .HI).lines) :=
  ⟨stars_refused _ _ _ (exConfig_good .HI).axes (by simp [exConfig]) 1 _,
    stars_accepted_partial (Or.inr (by simp)) (exConfig_good .HI).axes (by simp [exConfig]) 1 [![5, 5, 2]]⟩

end Verif.Props.NumTypes
