import Verif.Model.RateNetwork
import Mathlib.Analysis.Real.Pi.Bounds

/-!
Model of the cooling rates, rate_network.py:92-130, 241-254 and 488-666. Numbers are exact reals.
-/

namespace Verif.Rates

/-- What the network asks of a table of cooling rates. -/
structure Cool where
  CollisionalH0 : ℝ → ℝ
  CollisionalHe0 : ℝ → ℝ
  CollisionalHeP : ℝ → ℝ
  RecombHp : ℝ → ℝ
  RecombHeP : ℝ → ℝ
  RecombHePP : ℝ → ℝ
  FreeFree : ℝ → ℝ → ℝ
  InverseCompton : ℝ → ℝ → ℝ

/-- `eVinergs`, rate_network.py:510. -/
noncomputable def eVinergs : ℝ := 1.60218e-12
/-- `kB`, rate_network.py:512. -/
noncomputable def kB : ℝ := 1.38064852e-16
/-- `tcmb`, rate_network.py:502. -/
noncomputable def tcmb : ℝ := 2.7255

/-- `_t5`, rate_network.py:514-522. -/
noncomputable def t5 (t5_corr temp : ℝ) : ℝ := 1 + (temp / t5_corr) ^ (0.5 : ℝ)

/-- rate_network.py:524-526. -/
noncomputable def exciteH0 (c temp : ℝ) : ℝ := 7.5e-19 * Real.exp (-118348.0 / temp) / t5 c temp
/-- rate_network.py:528-530. -/
noncomputable def exciteHeP (c temp : ℝ) : ℝ := 5.54e-17 * temp ^ (-0.397 : ℝ) * Real.exp (-473638 / temp) / t5 c temp
/-- rate_network.py:532-535. -/
noncomputable def exciteHe0 (c temp : ℝ) : ℝ := 9.1e-27 * temp ^ (-0.1687 : ℝ) * Real.exp (-473638 / temp) / t5 c temp

/-- `_gff`, rate_network.py:587-590. -/
noncomputable def gff (temp _zz : ℝ) : ℝ := 1.1 + 0.34 * Real.exp (-(5.5 - Real.logb 10 temp) ^ 2 / 3)

/-- `FreeFree`, rate_network.py:581-585, with the Gaunt factor as an argument. -/
noncomputable def freeFree (gaunt : ℝ → ℝ → ℝ) (temp zz : ℝ) : ℝ := 1.426e-27 * √temp * zz ^ 2 * gaunt temp zz

/-- `InverseCompton`, rate_network.py:592-604. -/
noncomputable def inverseCompton (temp redshift : ℝ) : ℝ :=
  let tcmb_red := tcmb * (1 + redshift)
  let sigmat : ℝ := 6.6524e-25
  let rad_dens : ℝ := 7.5657e-15
  let me : ℝ := 9.10938e-28
  let cc : ℝ := 2.99792e10
  4 * sigmat * rad_dens / (me * cc) * tcmb_red ^ 4 * kB * (temp - tcmb_red)

/-- `CoolingRatesKWH92`, rate_network.py:488-604, for a table of recombination rates and a temperature of the
correction. -/
noncomputable def kwh (t5_corr : ℝ) (r : Recomb) : Cool where
  CollisionalH0 := fun temp => exciteH0 t5_corr temp + 13.5984 * eVinergs * r.GammaeH0 temp
  CollisionalHe0 := fun temp => exciteHe0 t5_corr temp + 24.5874 * eVinergs * r.GammaeHe0 temp
  CollisionalHeP := fun temp => exciteHeP t5_corr temp + 54.417760 * eVinergs * r.GammaeHep temp
  RecombHp := fun temp => 0.75 * kB * temp * r.alphaHp temp
  RecombHeP := fun temp => 0.75 * kB * temp * r.alphaHep temp + 6.526e-11 * r.alphad temp
  RecombHePP := fun temp => 0.75 * kB * temp * r.alphaHepp temp
  FreeFree := freeFree gff
  InverseCompton := inverseCompton

/-- The coefficients of `CollisionalH0`, rate_network.py:645-646. -/
noncomputable def scholzLow : List ℝ := [213.7913, 113.9492, 25.06062, 2.762755, 0.1515352, 3.290382e-3]
/-- See above. -/
noncomputable def scholzHigh : List ℝ := [271.25446, 98.019455, 14.00728, 0.9780842, 3.356289e-2, 4.553323e-4]

/-- `CoolingRatesNyx.CollisionalH0`, rate_network.py:633-649. -/
noncomputable def nyxCollisionalH0 (temp : ℝ) : ℝ :=
  let y := Real.log temp
  let Ryd : ℝ := 2.1798741e-11
  let tot := -0.75 / kB * Ryd / temp
  let tot := (List.range 6).foldl (fun acc j => acc + (ind (temp < 1e5) * scholzLow.getD j 0 +
    ind (temp ≥ 1e5) * scholzHigh.getD j 0) * (-y) ^ j) tot
  1e-20 * Real.exp tot

/-- `CoolingRatesNyx.RecombHp`, rate_network.py:651-654. -/
noncomputable def nyxRecombHp (temp : ℝ) : ℝ :=
  2.851e-27 * √temp * (5.914 - 0.5 * Real.log temp + 0.01184 * temp ^ (1 / 3 : ℝ))

/-- `CoolingRatesNyx.RecombHePP`, rate_network.py:656-659. -/
noncomputable def nyxRecombHePP (temp : ℝ) : ℝ :=
  1.140e-26 * √temp * (6.607 - 0.5 * Real.log temp + 7.459e-3 * temp ^ (1 / 3 : ℝ))

/-- `CoolingRatesNyx._gff`, rate_network.py:661-667. -/
noncomputable def nyxGff (temp zz : ℝ) : ℝ :=
  let lt := Real.logb 10 (temp / zz ^ 2)
  ind (temp / zz ^ 2 ≤ 3.2e5) * (0.79464 + 0.1243 * lt) + ind (¬ temp / zz ^ 2 ≤ 3.2e5) * (2.13164 - 0.1240 * lt)

/-- `CoolingRatesNyx`, rate_network.py:614-667. -/
noncomputable def nyx : Cool :=
  { kwh 5e7 Cen92 with
    CollisionalH0 := nyxCollisionalH0, RecombHp := nyxRecombHp, RecombHePP := nyxRecombHePP, FreeFree := freeFree nyxGff }

/-- The choice of the table in the constructor, rate_network.py:57-64. -/
noncomputable def coolOf (name : String) : Py Cool :=
  if name = "KWH" then .ok (kwh 1e5 Cen92)
  else if name = "Sherwood" then .ok (kwh 5e7 Verner96)
  else if name = "Nyx" then .ok nyx
  else .error .valueError

/-- The attributes of the network only the cooling depends on, rate_network.py:65-76; the heating rates are those at
`redshift`. -/
structure CoolNet where
  net : Net
  cool : Cool
  redshift : ℝ
  epsH0 : ℝ
  epsHe0 : ℝ
  epsHep : ℝ
  hub : ℝ
  he_thresh : ℝ
  he_amp : ℝ
  he_exp : ℝ
  he_model_on : Bool

/-- `_he_reion_factor`, rate_network.py:241-254, on a single density. -/
noncomputable def heFactor (c : CoolNet) (density : ℝ) : ℝ :=
  let gravity : ℝ := 6.672e-8
  let hubble : ℝ := 3.2407789e-18
  let omegab : ℝ := 0.0483
  let atime := 1 / (1 + c.redshift)
  let rhoc := 3 * (c.hub * hubble) ^ 2 / (8 * Real.pi * gravity)
  let overden := protonmass * density / (omegab * rhoc * atime ^ (-3 : ℤ))
  let overden := if overden ≥ c.he_thresh then c.he_thresh else overden
  c.he_amp * overden ^ c.he_exp

/-- `Lambda`, rate_network.py:111-120, from the fractions and temperature of a particle; `nHe0`, `nHep` and `nHepp` are
already multiplied by `yy`. -/
noncomputable def lambdaTot (c : CoolNet) (nebynh temp nH0 nHp nHe0 nHep nHepp : ℝ) : ℝ :=
  let LambdaCollis := nebynh * (c.cool.CollisionalH0 temp * nH0 + c.cool.CollisionalHe0 temp * nHe0 +
    c.cool.CollisionalHeP temp * nHep)
  let LambdaRecomb := nebynh * (c.cool.RecombHp temp * nHp + c.cool.RecombHeP temp * nHep +
    c.cool.RecombHePP temp * nHepp)
  let LambdaFF := nebynh * (c.cool.FreeFree temp 1 * (nHp + nHep) + c.cool.FreeFree temp 2 * nHepp)
  let LambdaCmptn := nebynh ^ 2 * c.cool.InverseCompton temp c.redshift
  LambdaCollis + LambdaRecomb + LambdaFF + LambdaCmptn

/-- `Heating`, rate_network.py:121-127. -/
noncomputable def heatingTot (c : CoolNet) (photoheating : Bool) (density nh nH0 nHe0 nHep : ℝ) : ℝ :=
  if photoheating then
    let Heating := nH0 * c.epsH0 / nh
    let Heating := Heating + nHe0 * c.epsHe0 / nh
    let Heating := Heating + nHep * c.epsHep / nh
    let Heating := Heating * c.net.photo_factor
    if c.he_model_on then Heating * heFactor c density else Heating
  else 0

/-- `get_cooling_rate`, rate_network.py:92-130, on `k` particles. `none` is not a number. The comparison in
`_he_reion_factor` of an array of more than one element raises ValueError. -/
noncomputable def get_cooling_rate {k : ℕ} (c : CoolNet) (density ienergy : Fin k → ℝ) (helium : ℝ) (photoheating : Bool) :
    Py (Fin k → Option ℝ) := do
  let ne ← get_equilib_ne c.net density ienergy helium
  let nh := fun i => density i * (1 - helium)
  let nebynh := fun i => ne i / nh i
  let temp ← getTemp nebynh ienergy helium
  if photoheating = true ∧ c.he_model_on = true ∧ k ≠ 1 then .error .valueError
  else pure (fun i =>
    (nHe0 c.net (nh i) (temp i) (nebynh i)).map (fun he0 =>
      let n0 := nH0 c.net (nh i) (temp i) (nebynh i)
      let np := nHp c.net (nh i) (temp i) (nebynh i)
      let he0 := he0 * yy helium
      let hep := nHep c.net (nh i) (temp i) (nebynh i) * yy helium
      let hepp := nHepp c.net (nh i) (temp i) (nebynh i) * yy helium
      let LambdaNet := lambdaTot c (nebynh i) (temp i) n0 np he0 hep hepp -
        heatingTot c photoheating (density i) (nh i) n0 he0 hep
      LambdaNet * (1 - helium) ^ 2 * density i / protonmass))

end Verif.Rates
