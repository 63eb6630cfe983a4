import Verif.Common
import Mathlib.Analysis.Real.Pi.Bounds

/-!
SPH kernels and the fraction of a kernel that falls in a pixel
(fake_spectra/singleabs.h, fake_spectra/absorption.cpp). `double` is an exact real.
-/

namespace Verif
namespace Absorption

open Real

/-- fake_spectra/singleabs.h:8 -/
def NGRID : ℕ := 8
/-- fake_spectra/singleabs.h:9 -/
def TOP_HAT_KERNEL : ℤ := 0
/-- fake_spectra/singleabs.h:10 -/
def SPH_CUBIC_SPLINE : ℤ := 1
/-- fake_spectra/singleabs.h:11 -/
def VORONOI_MESH : ℤ := 2
/-- fake_spectra/singleabs.h:12 -/
def SPH_QUINTIC_SPLINE : ℤ := 3

/-- fake_spectra/singleabs.h:17-26 -/
noncomputable def sph_cubic_kernel (q : ℝ) : ℝ :=
  let norm := 32 / 4 / π
  if q ≥ 1 then 0
  else if q < 0.5 then norm * (1 - 6 * q * q + 6 * q * q * q)
  else norm * (2 * (1 - q) ^ 3)

/-- fake_spectra/singleabs.h:31-42 -/
noncomputable def sph_quintic_kernel (q : ℝ) : ℝ :=
  let norm := 9 / 40 / π
  if q ≥ 1 then 0
  else if q < 1 / 3 then
    norm * 6 * (11 - 90 * q * q + 405 * q * q * q * q - 405 * q * q * q * q * q)
  else if q < 2 / 3 ∧ q ≥ 1 / 3 then norm * ((3 - 3 * q) ^ 5 - 6 * (2 - 3 * q) ^ 5)
  else norm * (243 * (1 - q) ^ 5)

/-- The trapezium rule of `sph_cubic_kern_frac` and `sph_quintic_kern_frac`, which differ only in
the kernel they call (fake_spectra/absorption.cpp:53-74 and 76-97). -/
noncomputable def sph_kern_frac (kern : ℝ → ℝ) (zlow zhigh smooth dr2 zrange : ℝ) : ℝ :=
  let zlow := max zlow (-zrange)
  let zhigh := min zhigh zrange
  if zlow > zhigh then 0
  else
    let qlow := √(dr2 + zlow * zlow) / smooth
    let total := kern qlow / 2
    let deltaz := (zhigh - zlow) / NGRID
    let total := (List.range' 1 (NGRID - 1)).foldl (fun total (i : ℕ) =>
      let zz := i * deltaz + zlow
      let q := √(dr2 + zz * zz) / smooth
      total + kern q) total
    let qhigh := √(dr2 + zhigh * zhigh) / smooth
    let total := total + kern qhigh / 2
    deltaz * total

/-- fake_spectra/absorption.cpp:53-74 -/
noncomputable def sph_cubic_kern_frac := sph_kern_frac sph_cubic_kernel

/-- fake_spectra/absorption.cpp:76-97 -/
noncomputable def sph_quintic_kern_frac := sph_kern_frac sph_quintic_kernel

/-- fake_spectra/absorption.cpp:109-115 -/
noncomputable def tophat_kern_frac (zlow zhigh _smooth _dr2 zrange : ℝ) : ℝ :=
  let zlow := max zlow (-zrange)
  let zhigh := min zhigh zrange
  3 / 4 / π * max 0 (zhigh - zlow)

/-- fake_spectra/absorption.cpp:129-134 -/
noncomputable def arepo_kern_frac (zlow zhigh _smooth _dr2 zrange : ℝ) : ℝ :=
  let zlow := max zlow (-zrange)
  let zhigh := min zhigh zrange
  max 0 (zhigh - zlow)

/-- fake_spectra/absorption.cpp:136-148 -/
noncomputable def get_kern_frac (kernel : ℤ) : ℝ → ℝ → ℝ → ℝ → ℝ → ℝ :=
  if kernel = TOP_HAT_KERNEL then tophat_kern_frac
  else if kernel = SPH_CUBIC_SPLINE then sph_cubic_kern_frac
  else if kernel = VORONOI_MESH then arepo_kern_frac
  else if kernel = SPH_QUINTIC_SPLINE then sph_quintic_kern_frac
  else tophat_kern_frac

end Absorption
end Verif
