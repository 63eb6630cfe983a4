import Verif.Model.Kernels
import Verif.Model.CRes

/-!
Model of `SingleAbsorber` (fake_spectra/singleabs.h) and `LineAbsorption`
(fake_spectra/absorption.cpp): deposition of one particle on one sightline.
`int`, `float`, `double` are exact. The Voigt profile (real part of the Faddeeva function,
fake_spectra/singleabs.h:56-61) is a parameter.
-/

namespace Verif
namespace Absorption

open Real

/-- `SingleAbsorber`, fake_spectra/singleabs.h:169-174; `profile` stands for
fake_spectra/singleabs.h:56-61. -/
structure SingleAbsorber where
  profile : ℝ → ℝ → ℝ
  btherm : ℝ
  vdr2 : ℝ
  vsmooth : ℝ
  aa : ℝ
  kernel : ℤ

namespace SingleAbsorber

/-- `m_vhigh` as set by the constructor, fake_spectra/singleabs.h:81-90. -/
noncomputable def m_vhigh (s : SingleAbsorber) : ℝ :=
  if s.kernel = VORONOI_MESH then
    if s.vdr2 > 0 ∧ s.vsmooth > 0 then (s.vsmooth - s.vdr2) / 2 else 0
  else
    if s.vsmooth * s.vsmooth > s.vdr2 then √(s.vsmooth * s.vsmooth - s.vdr2) else 0

/-- fake_spectra/singleabs.h:143-167 -/
noncomputable def tau_kern_inner (s : SingleAbsorber) (vouter : ℝ) : ℝ :=
  let deltav := 2 * s.m_vhigh / NGRID
  let total := (List.range' 1 (NGRID - 1)).foldl (fun total (i : ℕ) =>
    let vv := i * deltav - s.m_vhigh
    let q := √(s.vdr2 + vv * vv) / s.vsmooth
    let vdiff := vv - vouter
    let T0 := vdiff / s.btherm
    let tbin := s.profile T0 s.aa
    let tbin :=
      if s.kernel = SPH_CUBIC_SPLINE then tbin * sph_cubic_kernel q
      else if s.kernel = SPH_QUINTIC_SPLINE then tbin * sph_quintic_kernel q
      else if s.kernel = TOP_HAT_KERNEL then tbin * (3 / 4 / π)
      else tbin
    total + tbin) 0
  deltav * total

/-- fake_spectra/singleabs.h:104-126. The `assert(vhigh >= vlow)` is dropped: the only caller
passes `vlow + bintov`. -/
noncomputable def tau_kern_outer (s : SingleAbsorber) (vlow vhigh : ℝ) : ℝ :=
  if vhigh - vlow < s.btherm / 2 then s.tau_kern_inner ((vhigh + vlow) / 2)
  else
    let npoints : ℤ := 2 * ⌈(vhigh - vlow) / (s.btherm / 2) / 2⌉ + 1
    let total := s.tau_kern_inner vlow / 2
    let deltav := (vhigh - vlow) / ((npoints : ℝ) - 1)
    let total := (List.range' 1 (npoints - 2).toNat).foldl (fun total (i : ℕ) =>
      let vv := i * deltav + vlow
      total + s.tau_kern_inner vv) total
    let total := total + s.tau_kern_inner vhigh / 2
    total / ((npoints : ℝ) - 1)

end SingleAbsorber

/-- Members of `LineAbsorption`, fake_spectra/absorption.h and absorption.cpp:152-161. -/
structure LineAbsorption where
  profile : ℝ → ℝ → ℝ
  tautail : ℝ
  sigma_a : ℝ
  bfac : ℝ
  voigt_fac : ℝ
  velfac : ℝ
  vbox : ℝ
  kernel : ℤ

/-- cgs constants, fake_spectra/absorption.cpp:21-26 and absorption.h. -/
noncomputable def SIGMA_T : ℝ := 6.652458558e-25
noncomputable def BOLTZMANN : ℝ := 1.3806504e-16
noncomputable def LIGHT : ℝ := 2.99792458e10
noncomputable def PROTONMASS : ℝ := 1.67262178e-24

/-- Constructor, fake_spectra/absorption.cpp:152-161 (`atime` is stored but never read). -/
noncomputable def LineAbsorption.mk' (profile : ℝ → ℝ → ℝ)
    (lambda gamma fosc amumass velfac boxsize : ℝ) (kernel : ℤ) (tautail : ℝ) : LineAbsorption where
  profile := profile
  tautail := tautail
  sigma_a := √(3 * π * SIGMA_T / 8) * lambda * fosc
  bfac := √(2 * BOLTZMANN / (amumass * PROTONMASS)) / 1e5
  voigt_fac := gamma * lambda / (4 * π) / 1e5
  velfac := velfac
  vbox := boxsize * velfac
  kernel := kernel

/-- C++ `z % nbins` with the wrap that follows it, fake_spectra/absorption.cpp:198-200, 246-248. -/
def wrapIndex (z : ℤ) (nbins : ℕ) : ℤ :=
  let j := Int.tmod z nbins
  if j < 0 then j + nbins else j

/-- The loop of fake_spectra/absorption.cpp:191-209 over `z = zlow .. zhigh`. The array is the whole
output array; `off` is the offset of the pointer passed by the caller. -/
noncomputable def coldenLoop (kern_frac : ℝ → ℝ → ℝ → ℝ → ℝ → ℝ) (off nbins : ℕ)
    (boxtokpc pos1 smooth dr2 zrange dens : ℝ) (zs : List ℤ) (colden : List ℝ) : CRes (List ℝ) :=
  zs.foldlM (fun colden (z : ℤ) =>
    let plow := boxtokpc * z - pos1
    let j := wrapIndex z nbins
    addAt colden (off + j) (dens * kern_frac plow (plow + boxtokpc) smooth dr2 zrange)) colden

/-- The integers `lo, lo+1, ..., hi`. -/
def intRange (lo hi : ℤ) : List ℤ := (List.range (hi + 1 - lo).toNat).map (fun (k : ℕ) => lo + (k : ℤ))

/-- fake_spectra/absorption.cpp:167-210. -/
noncomputable def add_colden_particle (L : LineAbsorption) (colden : List ℝ) (off nbins : ℕ)
    (dr2 dens pos smooth : ℝ) : CRes (List ℝ) :=
  if L.kernel = VORONOI_MESH ∧ (dr2 > 2 * L.vbox / L.velfac ∨ smooth > 2 * L.vbox / L.velfac) then
    .ok colden
  else if L.kernel ≠ VORONOI_MESH ∧ smooth * smooth - dr2 ≤ 0 then .ok colden
  else
    let pos1 := if L.kernel = VORONOI_MESH then (dr2 + smooth) / 2 else pos
    let zrange := if L.kernel = VORONOI_MESH then (smooth - dr2) / 2 else √(smooth * smooth - dr2)
    let boxtokpc := L.vbox / nbins / L.velfac
    let zlow := ⌊(pos1 - zrange) / boxtokpc⌋
    let zhigh := ⌈(pos1 + zrange) / boxtokpc⌉
    coldenLoop (get_kern_frac L.kernel) off nbins boxtokpc pos1 smooth dr2 zrange dens
      (intRange zlow zhigh) colden

/-- The two loops of fake_spectra/absorption.cpp:240-254 and 256-270: `n` more iterations from `z`
in direction `dir` (+1 or -1), stopping after a pixel with `taulast < tautail`. -/
noncomputable def tauLoop (tauAt : ℤ → ℝ) (tautail : ℝ) (off nbins : ℕ) (dir : ℤ) :
    ℕ → ℤ → List ℝ → CRes (List ℝ)
  | 0, _, tau => .ok tau
  | n + 1, z, tau => do
    let taulast := tauAt z
    let j := wrapIndex z nbins
    let tau ← addAt tau (off + j) taulast
    if taulast < tautail then .ok tau else tauLoop tauAt tautail off nbins dir n (z + dir) tau

/-- The optical depth deposited in pixel number `z` (before wrapping): `taulast` of
fake_spectra/absorption.cpp:242-246 with the quantities of lines 218-238. -/
noncomputable def tauPixel (L : LineAbsorption) (nbins : ℕ) (dr2 dens pos1 pvel temp smooth : ℝ)
    (z : ℤ) : ℝ :=
  let btherm := L.bfac * √temp
  let vel := L.velfac * pos1 + pvel
  let val1 := L.velfac * dr2
  let val1 := if L.kernel ≠ VORONOI_MESH then val1 * L.velfac else val1
  let absorber : SingleAbsorber :=
    ⟨L.profile, btherm, val1, L.velfac * smooth, L.voigt_fac / btherm, L.kernel⟩
  let bintov := L.vbox / nbins
  let amp := L.sigma_a / √π * (LIGHT / 1e5 / btherm)
  let vlow := z * bintov - vel
  amp * dens * absorber.tau_kern_outer vlow (vlow + bintov) / L.velfac

/-- fake_spectra/absorption.cpp:212-271. -/
noncomputable def add_tau_particle (L : LineAbsorption) (tau : List ℝ) (off nbins : ℕ)
    (dr2 dens ppos pvel temp smooth : ℝ) : CRes (List ℝ) :=
  if L.kernel = VORONOI_MESH ∧ (dr2 > 2 * L.vbox / L.velfac ∨ smooth > 2 * L.vbox / L.velfac) then
    .ok tau
  else if L.kernel ≠ VORONOI_MESH ∧ smooth * smooth - dr2 ≤ 0 then .ok tau
  else
    let pos1 := if L.kernel = VORONOI_MESH then (dr2 + smooth) / 2 else ppos
    let vel := L.velfac * pos1 + pvel
    let bintov := L.vbox / nbins
    let zmax := ⌊vel / bintov⌋
    let tauAt := tauPixel L nbins dr2 dens pos1 pvel temp smooth
    do
      let tau ← tauLoop tauAt L.tautail off nbins 1 (nbins / 2) zmax tau
      tauLoop tauAt L.tautail off nbins (-1) (nbins / 2) (zmax - 1) tau

end Absorption
end Verif
