import Verif.Model.NearRounding

/-!
The deposit of a particle with its squared radius in single precision: `smooth` is a `float`, so that `smooth*smooth` is one too
(fake_spectra/absorption.cpp:184, 187, 233), where `dr2` and everything computed from it is `double`. `fl` is what the exact result of an operation becomes
when it is a `float`.
-/

namespace Verif.EdgeRounding
open Verif Verif.IndexTable Verif.PartInt Verif.Absorption Real

/-- fake_spectra/absorption.cpp:167-210. The `zrange` of line 187 is overwritten for a Voronoi mesh. -/
noncomputable def add_colden_particle (fl : ℝ → ℝ) (L : LineAbsorption) (colden : List ℝ) (off nbins : ℕ)
    (dr2 dens pos smooth : ℝ) : CRes (List ℝ) :=
  if L.kernel = VORONOI_MESH ∧ (dr2 > 2 * L.vbox / L.velfac ∨ smooth > 2 * L.vbox / L.velfac) then
    .ok colden
  else if L.kernel ≠ VORONOI_MESH ∧ fl (smooth * smooth) - dr2 ≤ 0 then .ok colden
  else
    let pos1 := if L.kernel = VORONOI_MESH then (dr2 + smooth) / 2 else pos
    let zrange := if L.kernel = VORONOI_MESH then (smooth - dr2) / 2 else √(fl (smooth * smooth) - dr2)
    let boxtokpc := L.vbox / nbins / L.velfac
    let zlow := ⌊(pos1 - zrange) / boxtokpc⌋
    let zhigh := ⌈(pos1 + zrange) / boxtokpc⌉
    coldenLoop (get_kern_frac L.kernel) off nbins boxtokpc pos1 smooth dr2 zrange dens
      (intRange zlow zhigh) colden

/-- fake_spectra/absorption.cpp:212-271. The absorber has its radius in double precision (line 240), and no width if that is below the distance
(fake_spectra/singleabs.h:83). -/
noncomputable def add_tau_particle (fl : ℝ → ℝ) (L : LineAbsorption) (tau : List ℝ) (off nbins : ℕ)
    (dr2 dens ppos pvel temp smooth : ℝ) : CRes (List ℝ) :=
  if L.kernel = VORONOI_MESH ∧ (dr2 > 2 * L.vbox / L.velfac ∨ smooth > 2 * L.vbox / L.velfac) then
    .ok tau
  else if L.kernel ≠ VORONOI_MESH ∧ fl (smooth * smooth) - dr2 ≤ 0 then .ok tau
  else
    let pos1 := if L.kernel = VORONOI_MESH then (dr2 + smooth) / 2 else ppos
    let vel := L.velfac * pos1 + pvel
    let bintov := L.vbox / nbins
    let zmax := ⌊vel / bintov⌋
    let tauAt := tauPixel L nbins dr2 dens pos1 pvel temp smooth
    do
      let tau ← tauLoop tauAt L.tautail off nbins 1 (nbins / 2) zmax tau
      tauLoop tauAt L.tautail off nbins (-1) (nbins / 2) (zmax - 1) tau

/-- The particle loop of one sightline in `compute_colden`, fake_spectra/part_int.cpp:68-80. -/
noncomputable def coldenLine (fl : ℝ → ℝ) (L : LineAbsorption) (nbins : ℕ) (parts : List Part) (i : ℕ) (line : Line)
    (entries : List ((ℕ × ℝ) × (ℝ × ℝ))) (colden : List ℝ) : CRes (List ℝ) :=
  entries.foldlM (fun colden e => do
    let p ← readAt parts e.1.1
    let ppos ← coord p.pos line.axis
    if L.kernel = VORONOI_MESH then
      add_colden_particle fl L colden (i * nbins) nbins e.2.1 p.dens ppos e.2.2
    else
      add_colden_particle fl L colden (i * nbins) nbins e.1.2 p.dens ppos p.h) colden

/-- The particle loop of one sightline in `compute_tau`, fake_spectra/part_int.cpp:35-47. -/
noncomputable def tauLine (fl : ℝ → ℝ) (L : LineAbsorption) (nbins : ℕ) (parts : List Part) (i : ℕ) (line : Line)
    (entries : List ((ℕ × ℝ) × (ℝ × ℝ))) (tau : List ℝ) : CRes (List ℝ) :=
  entries.foldlM (fun tau e => do
    let p ← readAt parts e.1.1
    let ppos ← coord p.pos line.axis
    let pvel ← coord p.vel line.axis
    if L.kernel = VORONOI_MESH then
      add_tau_particle fl L tau (i * nbins) nbins e.2.1 p.dens ppos pvel p.temp e.2.2
    else
      add_tau_particle fl L tau (i * nbins) nbins e.1.2 p.dens ppos pvel p.temp p.h) tau

/-- fake_spectra/part_int.cpp:53-84: search and squared radii in single precision. Simplification: the limits of the cells of a mesh are exact here;
see `Verif.CellRounding` for those. -/
noncomputable def compute_colden (fl : ℝ → ℝ) (L : LineAbsorption) (nbins : ℕ) (box : ℝ) (lines : List Line)
    (parts : List Part) (sched : List ℕ) (colden : List ℝ) : CRes (List ℝ) :=
  NearRounding.overLines fl (coldenLine fl L nbins parts) L.kernel box lines parts sched colden

/-- fake_spectra/part_int.cpp:20-51: search and squared radii in single precision. Simplification: as for `compute_colden`. -/
noncomputable def compute_tau (fl : ℝ → ℝ) (L : LineAbsorption) (nbins : ℕ) (box : ℝ) (lines : List Line)
    (parts : List Part) (sched : List ℕ) (tau : List ℝ) : CRes (List ℝ) :=
  NearRounding.overLines fl (tauLine fl L nbins parts) L.kernel box lines parts sched tau

end Verif.EdgeRounding
