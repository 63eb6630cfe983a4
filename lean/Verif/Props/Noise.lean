import Verif.Model.SpecTools
import Verif.Lemmas.Numpy

/-!
C31: noise and continuum errors.
-/

namespace Verif.Props
open Verif Verif.Np Verif.SpecTools

/-- The noise of sightline `i`: the first `nbins` draws with standard deviation `1/snr[i]` after seeding with `i`. -/
def noiseVector (g : Rng) (nbins : ℕ) (snr : List ℝ) (i : ℕ) (noise : List ℝ) : Prop :=
  ∃ s, snr[i]? = some s ∧ noise = (g.draws (1 / s) nbins (g.seed i)).1

theorem get_nat {α : Type} (a : List α) {i : ℕ} (hi : i < a.length) : Np.get a (i : ℤ) = .ok a[i] :=
  get_eq (index_nonneg (by omega) (by exact_mod_cast hi)) (by simp [hi])

theorem get_out {α : Type} (a : List α) {i : ℕ} (hi : a.length ≤ i) : Np.get a (i : ℤ) = .error .indexError := by
  unfold Np.get index
  rw [if_neg (by omega), if_neg (by omega)]
  rfl

theorem draws_length (g : Rng) (sigma : ℝ) (n : ℕ) (st : g.State) : (g.draws sigma n st).1.length = n := by
  induction n generalizing st with
  | zero => rfl
  | succ n ih => simp [Rng.draws, ih]

theorem noiseOf_ok {g : Rng} {snr : List ℝ} {nbins : ℕ} {i : ℕ} {n : List ℝ × g.State}
    (h : noiseOf g snr nbins i = .ok n) : noiseVector g nbins snr i n.1 ∧ n.1.length = nbins := by
  unfold noiseOf Rng.seedWith at h
  rw [if_neg (by omega)] at h
  simp only [bind, Except.bind] at h
  rcases lt_or_ge i snr.length with hi | hi
  · rw [get_nat snr hi] at h
    simp only at h
    split_ifs at h
    have := Except.ok.inj h
    subst this
    exact ⟨⟨snr[i], by simp [hi], by simp⟩, draws_length _ _ _ _⟩
  · rw [get_out snr hi] at h
    exact absurd h (by simp)

theorem noiseOf_succeeds {g : Rng} {snr : List ℝ} {nbins : ℕ} {i : ℕ} {s : ℝ} (hi : snr[i]? = some s) (hs : 0 < s) :
    noiseOf g snr nbins i = .ok (g.draws (1 / s) nbins (g.seed i)) := by
  obtain ⟨hil, rfl⟩ := List.getElem?_eq_some_iff.1 hi
  unfold noiseOf Rng.seedWith
  rw [if_neg (by omega), get_nat snr hil]
  simp only [bind, Except.bind]
  rw [if_neg (by have : 0 < 1 / snr[i] := by positivity
                 linarith)]
  simp [pure, Except.pure]

theorem addRow_ok {row noise out : List ℝ} (h : addRow row noise = .ok out) :
    row.length = noise.length ∧ out = row.zipWith (· + ·) noise := by
  unfold addRow at h
  split_ifs at h with hl
  exact ⟨hl, (Except.ok.inj h).symm⟩

theorem noiseLoop_ok {g : Rng} {snr : List ℝ} {nbins : ℕ} (rows : List (List ℝ)) :
    ∀ {ii : ℕ} {acc : List ℝ} {st : g.State} {r : List (List ℝ) × List ℝ × g.State},
    noiseLoop g snr nbins ii rows acc st = .ok r →
      r.1.length = rows.length ∧ r.2.1.length = acc.length + rows.length * nbins ∧ r.2.1.take acc.length = acc ∧
      ∀ (k : ℕ) row, rows[k]? = some row → ∃ noise, noiseVector g nbins snr (ii + k) noise ∧ row.length = nbins ∧
        r.1[k]? = some (row.zipWith (· + ·) noise) ∧
        slice r.2.1 (acc.length + k * nbins) (acc.length + (k + 1) * nbins) = noise := by
  induction rows with
  | nil =>
    intro ii acc st r h
    have := Except.ok.inj h
    subst this
    simp
  | cons row rows ih =>
    intro ii acc st r h
    rw [noiseLoop] at h
    simp only [bind, Except.bind] at h
    cases hn : noiseOf g snr nbins ii with
    | error e => rw [hn] at h; simp at h
    | ok n =>
      rw [hn] at h
      simp only at h
      cases hr : addRow row n.1 with
      | error e => rw [hr] at h; simp at h
      | ok row' =>
        rw [hr] at h
        simp only at h
        cases hl : noiseLoop g snr nbins (ii + 1) rows (acc ++ n.1) n.2 with
        | error e => rw [hl] at h; simp at h
        | ok q =>
          rw [hl] at h
          have := Except.ok.inj h
          subst this
          obtain ⟨i1, i2, i3, i4⟩ := ih hl
          obtain ⟨hv, hnl⟩ := noiseOf_ok hn
          obtain ⟨hrl, rfl⟩ := addRow_ok hr
          have hacc : q.2.1.take acc.length = acc := by
            have := congrArg (List.take acc.length) i3
            rw [List.take_take, List.take_left] at this
            rw [show min acc.length (acc ++ n.1).length = acc.length by simp] at this
            exact this
          refine ⟨by simp [i1], by simp [i2, hnl]; ring, hacc, ?_⟩
          intro k row0 hk
          cases k with
          | zero =>
            simp at hk
            subst hk
            refine ⟨n.1, by simpa using hv, by omega, by simp, ?_⟩
            unfold slice
            have hlen : acc.length + (0 + 1) * nbins = (acc ++ n.1).length := by simp [hnl]
            rw [hlen, i3]
            simp
          | succ k =>
            simp at hk
            obtain ⟨noise, h1, h2, h3, h4⟩ := i4 k row0 hk
            refine ⟨noise, by rw [show ii + (k + 1) = ii + 1 + k by omega]; exact h1, h2, by simpa using h3, ?_⟩
            rw [← h4]
            simp only [List.length_append, hnl]
            congr 1 <;> ring

/-- C31: noise added to an array of two or more sightlines: sightline `i` gets its own noise vector, the same whatever the
other sightlines and the earlier state of the generator; the returned noise is the list of these vectors. -/
theorem noise_batch {g : Rng} {nbins : ℕ} {snr : List ℝ} {spec_num : ℤ} {st st' : g.State} {rows : List (List ℝ)}
    (h2 : 2 ≤ rows.length) {out : FluxArg} {noise : List ℝ}
    (h : add_noise g nbins snr spec_num st (.many rows) = .ok (out, noise, st')) :
    ∃ outs, out = .many outs ∧ outs.length = rows.length ∧ noise.length = rows.length * nbins ∧
      ∀ (i : ℕ) row, rows[i]? = some row → ∃ v, noiseVector g nbins snr i v ∧
        outs[i]? = some (row.zipWith (· + ·) v) ∧ slice noise (i * nbins) ((i + 1) * nbins) = v := by
  have hh : add_noise g nbins snr spec_num st (.many rows) = (noiseLoop g snr nbins 0 rows [] st).map (fun r => (.many r.1, r.2)) := by
    match rows, h2 with
    | a :: b :: rows, _ =>
      change (noiseLoop g snr nbins 0 (a :: b :: rows) [] st >>= fun r => pure (FluxArg.many r.1, r.2)) = _
      cases noiseLoop g snr nbins 0 (a :: b :: rows) [] st <;> rfl
  rw [hh] at h
  cases hl : noiseLoop g snr nbins 0 rows [] st with
  | error e => rw [hl] at h; simp [Except.map] at h
  | ok r =>
    rw [hl] at h
    have := Except.ok.inj h
    obtain ⟨h1, h2⟩ := Prod.mk.inj this
    obtain ⟨h3, h4⟩ := Prod.mk.inj h2
    obtain ⟨i1, i2, -, i4⟩ := noiseLoop_ok rows hl
    refine ⟨r.1, h1.symm, i1, by rw [← h3, i2]; simp, ?_⟩
    intro i row hi
    obtain ⟨v, v1, -, v3, v4⟩ := i4 i row hi
    refine ⟨v, by simpa using v1, v3, ?_⟩
    rw [← h3, ← v4]
    simp

/-- C31: noise added to one spectrum with its number gives the same as in any batch. -/
theorem noise_single {g : Rng} {nbins : ℕ} {snr : List ℝ} {i : ℕ} {st st' : g.State} {row : List ℝ}
    {out : FluxArg} {noise : List ℝ} (h : add_noise g nbins snr i st (.one row) = .ok (out, noise, st')) :
    ∃ v, noiseVector g nbins snr i v ∧ out = .one (row.zipWith (· + ·) v) := by
  unfold add_noise at h
  simp only [bind, Except.bind] at h
  cases hn : noiseOf g snr nbins i with
  | error e => rw [hn] at h; simp at h
  | ok n =>
    rw [hn] at h
    simp only at h
    cases hr : addRow row n.1 with
    | error e => rw [hr] at h; simp at h
    | ok row' =>
      rw [hr] at h
      have := Except.ok.inj h
      obtain ⟨h1, -⟩ := Prod.mk.inj this
      obtain ⟨hv, -⟩ := noiseOf_ok hn
      obtain ⟨-, rfl⟩ := addRow_ok hr
      exact ⟨n.1, hv, h1.symm⟩

/-- The noise vector of a sightline is unique, so `noise_batch` and `noise_single` describe the same flux. -/
theorem noiseVector_unique {g : Rng} {nbins : ℕ} {snr : List ℝ} {i : ℕ} {v w : List ℝ} (hv : noiseVector g nbins snr i v)
    (hw : noiseVector g nbins snr i w) : v = w := by
  obtain ⟨s, h1, rfl⟩ := hv
  obtain ⟨s', h2, rfl⟩ := hw
  rw [h1] at h2
  rw [Option.some.inj h2]

/-- C31: one spectrum alone and the same spectrum in a batch, at any time, get the same noisy flux. -/
theorem noise_repeatable {g : Rng} {nbins : ℕ} {snr : List ℝ} {sn : ℤ} {st1 st2 st1' st2' : g.State} {rows : List (List ℝ)}
    (h2 : 2 ≤ rows.length) {i : ℕ} {row : List ℝ} (hi : rows[i]? = some row) {outs : List (List ℝ)} {o : List ℝ} {n1 n2 : List ℝ}
    (hb : add_noise g nbins snr sn st1 (.many rows) = .ok (.many outs, n1, st1'))
    (hs : add_noise g nbins snr i st2 (.one row) = .ok (.one o, n2, st2')) : outs[i]? = some o := by
  obtain ⟨outs', ho, -, -, hall⟩ := noise_batch h2 hb
  obtain ⟨v, hv, hv2, -⟩ := hall i row hi
  obtain ⟨w, hw, hw2⟩ := noise_single hs
  injection ho with ho
  injection hw2 with hw2
  rw [ho, hv2, hw2, noiseVector_unique hv hw]

/-- C31: with a positive ratio for every sightline and rows of `nbins` pixels, adding noise to a batch succeeds. -/
theorem noise_succeeds {g : Rng} {nbins : ℕ} {snr : List ℝ} {rows : List (List ℝ)} (hs : ∀ s ∈ snr, 0 < s)
    (hrows : ∀ row ∈ rows, row.length = nbins) (st : g.State) :
    ∀ (ii : ℕ) (acc : List ℝ), ii + rows.length ≤ snr.length → ∃ r, noiseLoop g snr nbins ii rows acc st = .ok r := by
  induction rows generalizing st with
  | nil => intro ii acc _; exact ⟨_, rfl⟩
  | cons row rows ih =>
    intro ii acc hlen
    simp only [List.length_cons] at hlen
    have hi : ii < snr.length := by omega
    have hn := noiseOf_succeeds (g := g) (nbins := nbins) (i := ii) (s := snr[ii]) (List.getElem?_eq_getElem hi) (hs _ (List.getElem_mem hi))
    obtain ⟨r, hr⟩ := ih (fun row h => hrows row (by simp [h])) (g.draws (1 / snr[ii]) nbins (g.seed ii)).2 (ii + 1)
      (acc ++ (g.draws (1 / snr[ii]) nbins (g.seed ii)).1) (by omega)
    refine ⟨(row.zipWith (· + ·) (g.draws (1 / snr[ii]) nbins (g.seed ii)).1 :: r.1, r.2), ?_⟩
    · rw [noiseLoop]
      simp only [bind, Except.bind, hn]
      have ha : addRow row (g.draws (1 / snr[ii]) nbins (g.seed ii)).1 =
          .ok (row.zipWith (· + ·) (g.draws (1 / snr[ii]) nbins (g.seed ii)).1) := by
        unfold addRow
        rw [if_pos (by rw [draws_length]; exact hrows row (by simp))]
      simp only [ha, hr]
      rfl

/-- C31 is false of the code for a single sightline: with the default number -1, documented as `all spectra`, a lone spectrum
or an array with one sightline raises. -/
theorem noise_default_fails (g : Rng) (nbins : ℕ) (snr : List ℝ) (st : g.State) (row : List ℝ) :
    add_noise g nbins snr (-1) st (.one row) = .error .valueError ∧
    add_noise g nbins snr (-1) st (.many [row]) = .error .valueError := by
  constructor <;> rfl

/-- C31: the error of a sightline is within the limits. -/
theorem deltaLoop_range {g : Rng} {l u sigma : ℝ} {fuel : ℕ} {st : g.State} {d : ℝ × g.State}
    (h : deltaLoop g l u sigma fuel st = some (.ok d)) : l ≤ d.1 ∧ d.1 ≤ u := by
  unfold deltaLoop at h
  generalize g.normal sigma st = s0 at h
  induction fuel generalizing s0 with
  | zero => simp [whileRun] at h
  | succ fuel ih =>
    rw [whileRun] at h
    by_cases hc : s0.1 < l ∨ s0.1 > u
    · rw [decide_eq_true hc] at h
      exact ih _ h
    · rw [decide_eq_false hc] at h
      have := Except.ok.inj (Option.some.inj h)
      subst this
      push Not at hc
      exact hc

/-- A larger bound on the number of draws does not change a result. -/
theorem deltaLoop_more {g : Rng} {l u sigma : ℝ} {f f' : ℕ} {st : g.State} {d d' : Py (ℝ × g.State)}
    (h : deltaLoop g l u sigma f st = some d) (h' : deltaLoop g l u sigma f' st = some d') : d = d' := by
  unfold deltaLoop at h h'
  generalize g.normal sigma st = s0 at h h'
  induction f generalizing s0 f' with
  | zero => simp [whileRun] at h
  | succ f ih =>
    cases f' with
    | zero => simp [whileRun] at h'
    | succ f' =>
      rw [whileRun] at h h'
      by_cases hc : s0.1 < l ∨ s0.1 > u
      · rw [decide_eq_true hc] at h h'
        exact ih _ h h'
      · rw [decide_eq_false hc] at h h'
        exact (Option.some.inj h).symm.trans (Option.some.inj h')

/-- The continuum error of sightline `i`: the first draw within the limits after seeding with `2 i`. -/
def contError (g : Rng) (CE : List ℝ) (l u : ℝ) (i : ℕ) (d : ℝ) : Prop :=
  ∃ s fuel st, CE[i]? = some s ∧ deltaLoop g l u s fuel (g.seed (2 * i)) = some (.ok (d, st))

theorem contError_spec {g : Rng} {CE : List ℝ} {l u : ℝ} {i : ℕ} {d d' : ℝ} (h : contError g CE l u i d)
    (h' : contError g CE l u i d') : (l ≤ d ∧ d ≤ u) ∧ d = d' := by
  obtain ⟨s, f, st, h1, h2⟩ := h
  obtain ⟨s', f', st', h1', h2'⟩ := h'
  refine ⟨deltaLoop_range h2, ?_⟩
  rw [h1] at h1'
  rw [← Option.some.inj h1'] at h2'
  have := Except.ok.inj (deltaLoop_more h2 h2')
  exact (Prod.mk.inj this).1

theorem deltaOf_ok {g : Rng} {CE : List ℝ} {l u : ℝ} {fuel i : ℕ} {d : ℝ × g.State}
    (h : deltaOf g CE l u fuel i = some (.ok d)) : contError g CE l u i d.1 := by
  unfold deltaOf Rng.seedWith at h
  rw [if_neg (by omega)] at h
  simp only [Run.andThen] at h
  rcases lt_or_ge i CE.length with hi | hi
  · rw [get_nat CE hi] at h
    simp only at h
    by_cases hneg : CE[i] < 0
    · rw [if_pos hneg] at h; simp at h
    · rw [if_neg hneg, show (2 * (i : ℤ)).toNat = 2 * i by omega] at h
      exact ⟨CE[i], fuel, d.2, List.getElem?_eq_getElem hi, h⟩
  · rw [get_out CE hi] at h
    simp at h

theorem contLoop_ok {g : Rng} {CE : List ℝ} {l u : ℝ} {fuel : ℕ} (rows : List (List ℝ)) :
    ∀ {ii : ℕ} {st : g.State} {r : List (List ℝ) × List ℝ × g.State}, contLoop g CE l u fuel ii rows st = some (.ok r) →
      r.1.length = rows.length ∧ r.2.1.length = rows.length ∧
      ∀ (k : ℕ) row, rows[k]? = some row → ∃ d, contError g CE l u (ii + k) d ∧ r.2.1[k]? = some d ∧
        r.1[k]? = some (row.map (fun f => f / (1 + d))) := by
  induction rows with
  | nil =>
    intro ii st r h
    have := Except.ok.inj (Option.some.inj h)
    subst this
    simp
  | cons row rows ih =>
    intro ii st r h
    rw [contLoop] at h
    cases hd : deltaOf g CE l u fuel ii with
    | none => rw [hd] at h; simp [Run.andThen] at h
    | some d =>
      cases d with
      | error e => rw [hd] at h; simp [Run.andThen] at h
      | ok d =>
        rw [hd] at h
        simp only [Run.andThen] at h
        cases hl : contLoop g CE l u fuel (ii + 1) rows d.2 with
        | none => rw [hl] at h; simp at h
        | some q =>
          cases q with
          | error e => rw [hl] at h; simp at h
          | ok q =>
            rw [hl] at h
            have := Except.ok.inj (Option.some.inj h)
            subst this
            obtain ⟨i1, i2, i3⟩ := ih hl
            refine ⟨by simp [i1], by simp [i2], ?_⟩
            intro k row0 hk
            cases k with
            | zero =>
              simp at hk
              subst hk
              exact ⟨d.1, by simpa using deltaOf_ok hd, by simp, by simp⟩
            | succ k =>
              simp at hk
              obtain ⟨e, e1, e2, e3⟩ := i3 k row0 hk
              exact ⟨e, by rw [show ii + (k + 1) = ii + 1 + k by omega]; exact e1, by simpa using e2, by simpa using e3⟩

/-- C31: continuum errors of a batch: whenever the call returns, sightline `i` is divided by one plus its own error, which is
within the limits and depends only on the number of the sightline and the parameters. -/
theorem cont_error_batch {g : Rng} {CE : List ℝ} {spec_num : ℤ} {u l : ℝ} {fuel : ℕ} {st st' : g.State} {rows : List (List ℝ)}
    (h2 : 2 ≤ rows.length) {out : FluxArg} {delta : List ℝ}
    (h : add_cont_error g CE spec_num u l fuel st (.many rows) = some (.ok (out, delta, st'))) :
    ∃ outs, out = .many outs ∧ outs.length = rows.length ∧ delta.length = rows.length ∧
      ∀ (i : ℕ) row, rows[i]? = some row → ∃ d, contError g CE l u i d ∧ l ≤ d ∧ d ≤ u ∧ delta[i]? = some d ∧
        outs[i]? = some (row.map (fun f => f / (1 + d))) := by
  have hh : add_cont_error g CE spec_num u l fuel st (.many rows) =
      (contLoop g CE l u fuel 0 rows st).andThen fun r => some (.ok (.many r.1, r.2)) := by
    match rows, h2 with
    | a :: b :: rows, _ => rfl
  rw [hh] at h
  cases hl : contLoop g CE l u fuel 0 rows st with
  | none => rw [hl] at h; simp [Run.andThen] at h
  | some q =>
    cases q with
    | error e => rw [hl] at h; simp [Run.andThen] at h
    | ok q =>
      rw [hl] at h
      have := Except.ok.inj (Option.some.inj h)
      obtain ⟨h1, h3⟩ := Prod.mk.inj this
      obtain ⟨h3, -⟩ := Prod.mk.inj h3
      obtain ⟨i1, i2, i3⟩ := contLoop_ok rows hl
      refine ⟨q.1, h1.symm, i1, by rw [← h3]; exact i2, ?_⟩
      intro i row hi
      obtain ⟨d, d1, d2, d3⟩ := i3 i row hi
      rw [Nat.zero_add] at d1
      have hr := (contError_spec d1 d1).1
      exact ⟨d, d1, hr.1, hr.2, by rw [← h3]; exact d2, d3⟩

/-- C31: one spectrum alone gets the same continuum error as in a batch. -/
theorem cont_error_single {g : Rng} {CE : List ℝ} {i : ℕ} {u l : ℝ} {fuel : ℕ} {st st' : g.State} {row : List ℝ}
    {out : FluxArg} {delta : List ℝ} (h : add_cont_error g CE i u l fuel st (.one row) = some (.ok (out, delta, st'))) :
    ∃ d, contError g CE l u i d ∧ l ≤ d ∧ d ≤ u ∧ delta = [d] ∧ out = .one (row.map (fun f => f / (1 + d))) := by
  unfold add_cont_error at h
  cases hd : deltaOf g CE l u fuel i with
  | none => rw [hd] at h; simp [Run.andThen] at h
  | some d =>
    cases d with
    | error e => rw [hd] at h; simp [Run.andThen] at h
    | ok d =>
      rw [hd] at h
      have := Except.ok.inj (Option.some.inj h)
      obtain ⟨h1, h3⟩ := Prod.mk.inj this
      obtain ⟨h3, -⟩ := Prod.mk.inj h3
      have hc := deltaOf_ok hd
      have hr := (contError_spec hc hc).1
      exact ⟨d.1, hc, hr.1, hr.2, h3.symm, h1.symm⟩

/-- C31: a batch of a single spectrum is treated as that spectrum alone, under the number given. -/
theorem cont_error_batch_of_one {g : Rng} {CE : List ℝ} {i : ℕ} {u l : ℝ} {fuel : ℕ} {st st' : g.State} {row : List ℝ}
    {out : FluxArg} {delta : List ℝ} (h : add_cont_error g CE i u l fuel st (.many [row]) = some (.ok (out, delta, st'))) :
    ∃ d, contError g CE l u i d ∧ l ≤ d ∧ d ≤ u ∧ delta = [d] ∧ out = .many [row.map (fun f => f / (1 + d))] := by
  unfold add_cont_error at h
  cases hd : deltaOf g CE l u fuel i with
  | none => rw [hd] at h; simp [Run.andThen] at h
  | some d =>
    cases d with
    | error e => rw [hd] at h; simp [Run.andThen] at h
    | ok d =>
      rw [hd] at h
      have := Except.ok.inj (Option.some.inj h)
      obtain ⟨h1, h3⟩ := Prod.mk.inj this
      obtain ⟨h3, -⟩ := Prod.mk.inj h3
      have hc := deltaOf_ok hd
      have hr := (contError_spec hc hc).1
      exact ⟨d.1, hc, hr.1, hr.2, h3.symm, h1.symm⟩

/-- C31: when a draw within the limits comes up sooner or later, the error of the sightline is found. -/
theorem cont_error_ends {g : Rng} {l u sigma : ℝ} {st : g.State} {n : ℕ}
    (hin : ¬(((fun s : ℝ × g.State => g.normal sigma s.2)^[n] (g.normal sigma st)).1 < l ∨
      ((fun s : ℝ × g.State => g.normal sigma s.2)^[n] (g.normal sigma st)).1 > u)) :
    ∃ fuel d, deltaLoop g l u sigma fuel st = some (.ok d) := by
  unfold deltaLoop
  generalize g.normal sigma st = s0 at hin
  refine ⟨n + 1, ?_⟩
  induction n generalizing s0 with
  | zero =>
    refine ⟨s0, ?_⟩
    rw [whileRun]
    simp only [Function.iterate_zero, id] at hin
    rw [decide_eq_false hin]
  | succ n ih =>
    by_cases hc : s0.1 < l ∨ s0.1 > u
    · obtain ⟨d, hd⟩ := ih (g.normal sigma s0.2) (by simpa using hin)
      refine ⟨d, ?_⟩
      rw [whileRun, decide_eq_true hc]
      exact hd
    · refine ⟨s0, ?_⟩
      rw [whileRun, decide_eq_false hc]

/-- C31, finding: limits in the wrong order are not refused: the call never returns. -/
theorem cont_error_hangs {g : Rng} {l u sigma : ℝ} (hlu : u < l) (fuel : ℕ) (st : g.State) :
    deltaLoop g l u sigma fuel st = none := by
  unfold deltaLoop
  generalize g.normal sigma st = s0
  induction fuel generalizing s0 with
  | zero => rfl
  | succ fuel ih =>
    rw [whileRun]
    have hc : s0.1 < l ∨ s0.1 > u := by
      by_contra hc
      push Not at hc
      linarith [hc.1, hc.2]
    rw [decide_eq_true hc]
    exact ih _

/-- The hypotheses are met by a generator that counts up from its seed. -/
noncomputable example : ∃ g : Rng, ∃ st : g.State, ∃ r, add_noise g 2 [1, 2] (-1) st (.many [[0, 0], [1, 1]]) = .ok r := by
  let g : Rng := ⟨ℕ, id, fun sigma n => (sigma * n, n + 1)⟩
  obtain ⟨r, hr⟩ := noise_succeeds (g := g) (nbins := 2) (snr := [1, 2]) (rows := [[0, 0], [1, 1]])
    (by intro s hs; simp at hs; rcases hs with rfl | rfl <;> norm_num)
    (by intro row hrow; simp at hrow; rcases hrow with rfl | rfl <;> rfl) (0 : ℕ) 0 [] (by simp)
  refine ⟨g, (0 : ℕ), (.many r.1, r.2), ?_⟩
  change (noiseLoop g [1, 2] 2 0 [[0, 0], [1, 1]] [] (0 : ℕ) >>= fun r => pure (FluxArg.many r.1, r.2)) = _
  rw [hr]
  rfl

/-! A generator whose numbers are half a standard deviation: the calls succeed, and so the theorems apply. -/

/-- The generator. -/
noncomputable def halfRng : Rng := ⟨ℕ, id, fun sigma s => (sigma / 2, s + 1)⟩

theorem half_noise : ∃ out, add_noise halfRng 2 [10, 20] 0 (3 : ℕ) (.many [[1, 0.5], [0.2, 1]]) = .ok out := by
  obtain ⟨r, hr⟩ := noise_succeeds (g := halfRng) (nbins := 2) (snr := [10, 20]) (rows := [[1, 0.5], [0.2, 1]]) (by norm_num) (by simp)
    (3 : ℕ) 0 [] (by simp)
  have e : add_noise halfRng 2 [10, 20] 0 (3 : ℕ) (.many [[1, 0.5], [0.2, 1]]) =
      (noiseLoop halfRng [10, 20] 2 0 [[1, 0.5], [0.2, 1]] [] (3 : ℕ)).bind (fun r => .ok (.many r.1, r.2)) := rfl
  exact ⟨_, by rw [e, hr]; rfl⟩

theorem half_noise_one : ∃ out, add_noise halfRng 2 [10, 20] (1 : ℕ) (5 : ℕ) (.one [0.2, 1]) = .ok out := by
  obtain ⟨r, hr⟩ := noise_succeeds (g := halfRng) (nbins := 2) (snr := [10, 20]) (rows := [[0.2, 1]]) (by norm_num) (by simp)
    (3 : ℕ) 1 [] (by simp)
  have e : noiseLoop halfRng [10, 20] 2 1 [[0.2, 1]] [] (3 : ℕ) = (noiseOf halfRng [10, 20] 2 ((1 : ℕ) : ℤ)).bind (fun n =>
    (addRow [0.2, 1] n.1).bind (fun row' => .ok ([row'], [] ++ n.1, n.2))) := rfl
  have e' : add_noise halfRng 2 [10, 20] (1 : ℕ) (5 : ℕ) (.one [0.2, 1]) = (noiseOf halfRng [10, 20] 2 ((1 : ℕ) : ℤ)).bind (fun n =>
    (addRow [0.2, 1] n.1).bind (fun row' => .ok (.one row', [], n.2))) := rfl
  rw [e] at hr
  rw [e']
  cases hn : noiseOf halfRng [10, 20] 2 ((1 : ℕ) : ℤ) with
  | error e => rw [hn] at hr; cases hr
  | ok n =>
    rw [hn] at hr
    simp only [Except.bind] at hr ⊢
    cases ha : addRow [0.2, 1] n.1 with
    | error e => rw [ha] at hr; cases hr
    | ok row' => exact ⟨_, rfl⟩

/-- The noise of sightline 1 is the same in the batch and alone. -/
example : ∃ outs o n1 n2 st1 st2, add_noise halfRng 2 [10, 20] 0 (3 : ℕ) (.many [[1, 0.5], [0.2, 1]]) = .ok (.many outs, n1, st1) ∧
    add_noise halfRng 2 [10, 20] (1 : ℕ) (5 : ℕ) (.one [0.2, 1]) = .ok (.one o, n2, st2) ∧ outs[1]? = some o := by
  obtain ⟨⟨out, n1, st1⟩, h1⟩ := half_noise
  obtain ⟨⟨out', n2, st2⟩, h2⟩ := half_noise_one
  obtain ⟨outs, rfl, -⟩ := noise_batch (by simp) h1
  obtain ⟨v, -, rfl⟩ := noise_single h2
  exact ⟨outs, _, n1, n2, st1, st2, h1, h2, noise_repeatable (by simp) rfl h1 h2⟩

/-- The first number drawn for a standard deviation of 0.2 is within the limits. -/
example := cont_error_ends (g := halfRng) (l := -0.25) (u := 0.25) (sigma := 0.2) (st := (3 : ℕ)) (n := 0)
  (by change ¬((0.2 / 2 : ℝ) < -0.25 ∨ (0.2 / 2 : ℝ) > 0.25); norm_num)

example (st : ℕ) : ∃ fuel d, deltaLoop halfRng (-0.25) 0.25 0.2 fuel st = some (.ok d) ∧ -0.25 ≤ d.1 ∧ d.1 ≤ 0.25 := by
  obtain ⟨fuel, d, hd⟩ := cont_error_ends (g := halfRng) (l := -0.25) (u := 0.25) (sigma := 0.2) (st := st) (n := 0)
    (by change ¬((0.2 / 2 : ℝ) < -0.25 ∨ (0.2 / 2 : ℝ) > 0.25); norm_num)
  exact ⟨fuel, d, hd, deltaLoop_range hd⟩

/-- The limits are exchanged. -/
example := cont_error_hangs (g := halfRng) (l := 0.25) (u := -0.25) (sigma := 0.2) (by norm_num) 5 (3 : ℕ)

end Verif.Props
