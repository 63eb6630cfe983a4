import Verif.Model.RateNetwork
import Verif.Model.TempDens

/-!
Model of `fake_spectra/rate_network_plot.py`. A plot is the numbers handed to `plt.contour`. Files, colours and labels are not
modelled.
-/

namespace Verif.RatePlots
open Verif.Rates

/-- The photoionisation rates and the gray opacity at the redshift of the plot, which `RateNetwork` reads from its tables. -/
structure Background where
  gH0 : ℝ
  gHe0 : ℝ
  gHep : ℝ
  gray : ℝ

/-- `RateNetwork(zz, selfshield=False, recomb="C92", collisional=...)`, rate_network_plot.py:28-29, 50, 63, 77, 82, with the
defaults of rate_network.py:47. The default of `converge` is 1e-7. -/
noncomputable def plotNet (b : Background) (converge : ℝ) (collisional : Bool) : Net where
  recomb := recombOf "C92"
  gH0 := b.gH0
  gHe0 := b.gHe0
  gHep := b.gHep
  gray := b.gray
  photo_factor := 1
  f_bar := 0.17
  converge := converge
  selfshield := false
  collisional := collisional

section
variable {ι : Type} [Fintype ι]

/-- `np.median(gridd)`; there is nothing to plot if the grid is empty. -/
noncomputable def med (gridd : ι → ℝ) : ℝ := (TempDens.median (Finset.univ.toList.map gridd)).getD 0

/-- `rates.get_temp(np.median(gridd)*np.ones_like(gridt), gridt)`, rate_network_plot.py:15, 43 and 88. -/
noncomputable def medianTemp (rates : Net) (gridd gridt : ι → ℝ) : Py (ι → ℝ) :=
  get_temp rates (fun _ => med gridd * 1) gridt 0.24

/-- What is handed to `plt.contour`: the two axes and the height, at each point of the grid. -/
structure Contour (ι : Type) where
  x : ι → ℝ
  y : ι → ℝ
  z : ι → ℝ

/-- `make_cont_plot`, rate_network_plot.py:8-24, on the grid it is given. -/
noncomputable def contPlot (zfunc : (ι → ℝ) → (ι → ℝ) → Py (ι → ℝ)) (rates : Net) (gridd gridt : ι → ℝ) : Py (Contour ι) := do
  let temp ← medianTemp rates gridd gridt
  let z ← zfunc gridd gridt
  pure ⟨gridd, fun i => temp i / 1e4, z⟩

/-- `ratio` of `collisplot`, rate_network_plot.py:31-35. -/
noncomputable def collisRatio (rates ratesphoto : Net) (gridd gridt : ι → ℝ) : Py (ι → ℝ) := do
  let nh0 ← get_neutral_fraction rates gridd gridt 0.24
  let nh0photo ← get_neutral_fraction ratesphoto gridd gridt 0.24
  pure (fun i => nh0 i / nh0photo i)

/-- `simplenh0frac`, rate_network_plot.py:39-45. -/
noncomputable def simplenh0frac (gridd gridt : ι → ℝ) (rates : Net) (helium : ℝ) : Py (ι → ℝ) := do
  let yy := helium / (4 - 4 * helium)
  let nh := fun i => (1 - helium) * gridd i
  let temp ← medianTemp rates gridd gridt
  pure (fun i => nh i * (rates.recomb.alphaHp (temp i) / rates.gH0 * (1 + 2 * yy)))

/-- `ratio` of `simpleplot`, rate_network_plot.py:51-55. -/
noncomputable def simpleRatio (rates : Net) (gridd gridt : ι → ℝ) : Py (ι → ℝ) := do
  let nh0 ← get_neutral_fraction rates gridd gridt 0.24
  let nh0simple ← simplenh0frac gridd gridt rates 0.24
  pure (fun i => nh0 i / nh0simple i)

/-- `ratio` of `neplot`, rate_network_plot.py:65-70. -/
noncomputable def neRatio (rates : Net) (helium : ℝ) (gridd gridt : ι → ℝ) : Py (ι → ℝ) := do
  let ne ← get_ne_by_nh rates gridd gridt 0.24
  let yy := helium / (4 - 4 * helium)
  let nes := 1 + 2 * yy
  pure (fun i => ne i / nes)

/-- `rates.get_neutral_fraction`, rate_network_plot.py:77, with its default mass fraction of helium. -/
noncomputable def hFrac (rates : Net) (gridd gridt : ι → ℝ) : Py (ι → ℝ) := get_neutral_fraction rates gridd gridt 0.24

/-- `ratio` of `hefracplot`, rate_network_plot.py:84-91. The third argument of `_nHep` and `_nHepp` is the number of electrons per
hydrogen atom; here it is the density of electrons. -/
noncomputable def heRatio (rates : Net) (helium : ℝ) (gridd gridt : ι → ℝ) : Py (ι → ℝ) := do
  let ne ← get_equilib_ne rates gridd gridt helium
  let nh := fun i => (1 - helium) * gridd i
  let temp ← medianTemp rates gridd gridt
  let nhep := fun i => nHep rates (nh i) (temp i) (ne i)
  let nhepp := fun i => nHepp rates (nh i) (temp i) (ne i)
  pure (fun i => nhep i / nhepp i)

end

/-- The points of the grid of `make_cont_plot`. -/
abbrev Grid := Fin 100 × Fin 100

/-- `dens = np.logspace(-6, -2, 100)` on the mesh, rate_network_plot.py:10-14. -/
noncomputable def gridd (i : Grid) : ℝ := (10 : ℝ) ^ (-6 + 4 * (i.2 : ℝ) / 99)

/-- `ienergy = np.linspace(100, 700, 100)` on the mesh, rate_network_plot.py:12-14. -/
noncomputable def gridt (i : Grid) : ℝ := 100 + 600 * (i.1 : ℝ) / 99

/-- `collisplot`, rate_network_plot.py:26-37. -/
noncomputable def collisplot (b : Background) (converge : ℝ) : Py (Contour Grid) :=
  let rates := plotNet b converge true
  let ratesphoto := plotNet b converge false
  contPlot (collisRatio rates ratesphoto) rates gridd gridt

/-- `simpleplot`, rate_network_plot.py:47-57. -/
noncomputable def simpleplot (b : Background) (converge : ℝ) : Py (Contour Grid) :=
  let rates := plotNet b converge true
  contPlot (simpleRatio rates) rates gridd gridt

/-- `neplot`, rate_network_plot.py:59-72. -/
noncomputable def neplot (b : Background) (converge : ℝ) : Py (Contour Grid) :=
  let rates := plotNet b converge true
  contPlot (neRatio rates 0.24) rates gridd gridt

/-- `hfracplot`, rate_network_plot.py:74-77. -/
noncomputable def hfracplot (b : Background) (converge : ℝ) : Py (Contour Grid) :=
  let rates := plotNet b converge true
  contPlot (hFrac rates) rates gridd gridt

/-- `hefracplot`, rate_network_plot.py:79-93. -/
noncomputable def hefracplot (b : Background) (converge : ℝ) : Py (Contour Grid) :=
  let rates := plotNet b converge true
  contPlot (heRatio rates 0.24) rates gridd gridt

end Verif.RatePlots
