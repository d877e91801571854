import Verif.Lemmas.Loop
import Verif.Spec.Rational

/-!
# Constructing a `DataStructure` (C01, C02, C03, C08, C09, C48)

All theorems of this file hold in every arithmetic, in particular for IEEE doubles including NaN and
infinities.
-/

set_option linter.unusedSectionVars false
set_option linter.unusedSimpArgs false

namespace Sacf

variable {F : Type} [Arith F]

/-! ## C01 -/

/-- Classification of `setUp` used below. -/
theorem setUp_cases (t data err : List F) (N : Nat) :
    ((t = [] ∨ data = []) ∧ setUp t data err N t.length = .exn .emptyDataStructure) ∨
    (t ≠ [] ∧ data ≠ [] ∧ ¬ t.length ∣ data.length ∧
      setUp t data err N t.length = .exn .badDataInput) ∨
    (t ≠ [] ∧ data ≠ [] ∧ t.length ∣ data.length ∧ data.length < N * t.length ∧
      setUp t data err N t.length = .ub) ∨
    (t ≠ [] ∧ data ≠ [] ∧ t.length ∣ data.length ∧ N * t.length ≤ data.length ∧
      ∃ d, setUp t data err N t.length = .ok d ∧ d.Built t data err N) := by
  by_cases h1 : t = [] ∨ data = []
  · exact Or.inl ⟨h1, setUp_empty (by tauto)⟩
  · push Not at h1
    obtain ⟨ht, hd⟩ := h1
    by_cases h2 : t.length ∣ data.length
    · have h2' : data.length % t.length = 0 := Nat.mod_eq_zero_of_dvd h2
      by_cases h3 : N * t.length ≤ data.length
      · exact Or.inr (Or.inr (Or.inr ⟨ht, hd, h2, h3, setUp_ok ht hd h2' h3⟩))
      · exact Or.inr (Or.inr (Or.inl ⟨ht, hd, h2, by omega, setUp_ub ht hd h2' (by omega)⟩))
    · exact Or.inr (Or.inl ⟨ht, hd, h2, setUp_bad ht hd (fun h => h2 (Nat.dvd_of_mod_eq_zero h))⟩)

/-- **C01**, with an error list.  For a flat list of values the three outcomes are decided by the sizes
alone, they are the only outcomes, and on success there is one dataset of `len(timeseries)` points. -/
theorem C01_flat_constructor_with_errors (t v e : List F) :
    (mkFlatErr t v e = .exn .emptyDataStructure ↔ t = [] ∨ v = []) ∧
    (mkFlatErr t v e = .exn .badDataInput ↔ t ≠ [] ∧ v ≠ [] ∧ ¬ t.length ∣ v.length) ∧
    ((∃ d, mkFlatErr t v e = .ok d) ↔ t ≠ [] ∧ v ≠ [] ∧ t.length ∣ v.length) ∧
    (∀ d, mkFlatErr t v e = .ok d → d.N = 1 ∧ d.M = t.length) ∧
    mkFlatErr t v e ≠ .ub := by
  unfold mkFlatErr
  rcases setUp_cases t v e 1 with ⟨h, hr⟩ | ⟨h1, h2, h3, hr⟩ | ⟨h1, h2, h3, h4, hr⟩ |
      ⟨h1, h2, h3, h4, d, hr, hb⟩
  · rw [hr]; simp; tauto
  · rw [hr]; simp; tauto
  · exfalso
    have := Nat.le_of_dvd (List.length_pos_iff.2 h2) h3
    omega
  · rw [hr]
    simp only [reduceCtorEq, false_iff, Res.ok.injEq, exists_eq', true_iff, not_or, ne_eq, forall_eq']
    exact ⟨⟨h1, h2⟩, by tauto, ⟨h1, h2, h3⟩, ⟨hb.hN, hb.hM⟩, not_false⟩

/-- **C01**, without an error list. -/
theorem C01_flat_constructor (t v : List F) :
    (mkFlat t v = .exn .emptyDataStructure ↔ t = [] ∨ v = []) ∧
    (mkFlat t v = .exn .badDataInput ↔ t ≠ [] ∧ v ≠ [] ∧ ¬ t.length ∣ v.length) ∧
    ((∃ d, mkFlat t v = .ok d) ↔ t ≠ [] ∧ v ≠ [] ∧ t.length ∣ v.length) ∧
    (∀ d, mkFlat t v = .ok d → d.N = 1 ∧ d.M = t.length) ∧
    mkFlat t v ≠ .ub :=
  C01_flat_constructor_with_errors t v []

-- each of the three outcomes occurs
example : mkFlat (q []) (q [1]) = .exn .emptyDataStructure := by decide +kernel
example : mkFlat (q [0, 1]) (q [1, 2, 3]) = .exn .badDataInput := by decide +kernel
example : ∃ d, mkFlat (q [0, 1, 3]) (q [1, 2, 3]) = .ok d ∧ d.N = 1 ∧ d.M = 3 :=
  ⟨_, rfl, rfl, rfl⟩

/-! ## C02 -/

/-- **C02 is false of the code**: two timestamps with four values are accepted. -/
theorem C02_false :
    ¬ ∀ (t v : List Q), t.length ≠ v.length → ∀ d, mkFlat t v ≠ .ok d := by
  intro h
  exact h (q [0, 1]) (q [1, 2, 3, 4]) (by decide) _ rfl

/-- **C02**, what holds of the rejection: a value list that is shorter, or whose length lies strictly
between one and two times the number of timestamps, is always rejected. (Missing: proper multiples are
accepted, see `C02_false`.) -/
theorem C02_rejection_partial (t v e : List F) (h : t.length ≠ v.length)
    (h2 : v.length < 2 * t.length) : ∀ d, mkFlatErr t v e ≠ .ok d := by
  intro d hd
  have := ((C01_flat_constructor_with_errors t v e).2.2.1).1 ⟨d, hd⟩
  obtain ⟨_, hv, k, hk⟩ := this
  have hpos := List.length_pos_iff.2 hv
  have : k = 1 := by
    rcases k with _ | _ | k
    · rw [Nat.mul_zero] at hk; omega
    · rfl
    · have := Nat.mul_le_mul_left t.length (show 2 ≤ k + 1 + 1 by omega); omega
  subst this; omega

example : mkFlatErr (q [0, 1, 2]) (q [1, 2]) (q []) = .exn .badDataInput := by decide +kernel

/-- **C02**, what holds of accepted surplus values: they have no influence on anything that can be read
from the object. -/
theorem C02_surplus_ignored_partial (t v e : List F) (d : DS F) (h : mkFlatErr t v e = .ok d) :
    ∃ d', mkFlatErr t (v.take t.length) e = .ok d' ∧
      d'.timeseries = d.timeseries ∧ d'.normalisedTimeseries = d.normalisedTimeseries ∧
      d'.data2d = d.data2d ∧ d'.err2d = d.err2d ∧ d'.normData2d = d.normData2d ∧
      d'.meanData = d.meanData ∧ d'.medianTime = d.medianTime ∧ d'.maxTime = d.maxTime ∧
      ∀ (a : AbsFn) (g : LagArgs F) (sel wt : String),
        (autocorrelation a d' g sel wt).bind (fun r => .ok (r.lags, r.corrs))
          = (autocorrelation a d g sel wt).bind (fun r => .ok (r.lags, r.corrs)) := by
  have hb : d.Built t v e 1 := setUp_built h
  have hs := hb.hsize
  have hpos := List.length_pos_iff.2 hb.tne
  have htl : (v.take t.length).length = t.length := by simp; omega
  obtain ⟨d', hd', hb'⟩ := setUp_ok (t := t) (data := v.take t.length) (err := e) (N := 1) hb.tne
    (by intro h0; rw [h0] at htl; simp at htl; omega) (by rw [htl]; simp) (by rw [htl]; omega)
  have hrow : rowOf (v.take t.length) t.length 0 = rowOf v t.length 0 := by simp [rowOf]
  have hmean : d'.dataMean = d.dataMean := by rw [hb'.mean, hb.mean]; simp [hrow]
  have hnt : d'.normT = d.normT := by rw [hb'.normT, hb.normT]
  have hmed : d'.tMedian = d.tMedian := by
    have h1 := hb'.med; have h2 := hb.med
    rw [hnt, h2] at h1; simpa using h1.symm
  have hmax : d'.tMax = d.tMax := by
    have h1 := hb'.tMax; have h2 := hb.tMax
    rw [h2] at h1; simpa using h1.symm
  have hw := hb.wf (by omega)
  have hw' := hb'.wf (by omega)
  have hnrow : d'.nrow 0 = d.nrow 0 := by
    have e1 : ∀ (X Y : List F), X.length = t.length → rowOf (X ++ Y) t.length 0 = X := by
      intro X Y hX; simp [rowOf, ← hX]
    unfold DS.nrow
    rw [hb'.normData, hb.normData, hb.hM, hb'.hM]
    simp only [List.range_one, List.map_cons, List.map_nil, List.flatten_cons, List.flatten_nil,
      List.append_nil, hrow]
    rw [e1 _ _ (by simp [rowOf_length hs (Nat.zero_lt_one)]),
      e1 _ _ (by simp [rowOf_length hs (Nat.zero_lt_one)])]
  have hdrow : d'.drow 0 = d.drow 0 := by
    unfold DS.drow; rw [hb'.hdata, hb.hdata, hb.hM, hb'.hM, hrow]
  refine ⟨d', hd', ?_, hnt, ?_, ?_, ?_, hmean, hmed, hmax, ?_⟩
  · simp [DS.timeseries, hb'.ht, hb.ht]
  · unfold DS.data2d
    rw [unflatten_ok hw'.data_len, unflatten_ok hw.data_len, hb.hN, hb'.hN]
    simpa [DS.drow] using hdrow
  · unfold DS.err2d
    rw [hb'.herr, hb.herr, hb.hN, hb'.hN, hb.hM, hb'.hM]
  · unfold DS.normData2d
    rw [unflatten_ok hw'.norm_len, unflatten_ok hw.norm_len, hb.hN, hb'.hN]
    simpa [DS.nrow] using hnrow
  · intro a g sel wt
    obtain ⟨c1, _, h1⟩ := autocorrelation_eq a hw g sel wt
    obtain ⟨c2, _, h2⟩ := autocorrelation_eq a hw' g sel wt
    rw [h1, h2, hnt, hmed, Res.bind_assoc, Res.bind_assoc]
    apply Res.bind_congr
    intro L _
    have : (List.range d'.N).map (d'.acRow L) = (List.range d.N).map (d.acRow L) := by
      rw [hb.hN, hb'.hN]
      simp [DS.acRow, hnrow, hdrow, hmean]
    rw [this, Res.bind_assoc, Res.bind_assoc]
    apply Res.bind_congr
    intro out _
    rfl

/-! ## C03 -/

/-- A table of values or errors over `m` timestamps: every row has `m` entries. -/
def Rect (m : Nat) (rows : List (List F)) : Prop := ∀ r ∈ rows, r.length = m

theorem Rect.size {m : Nat} {rows : List (List F)} (h : Rect m rows) :
    rows.flatten.length = rows.length * m := length_flatten_const h

/-- **C03**: what was put in comes back out (table with errors). -/
theorem C03_round_trip_errors (t : List F) (rows errs : List (List F)) (ht : t ≠ []) (hr : rows ≠ [])
    (hrect : Rect t.length rows) (herr : Rect t.length errs) (hel : errs.length = rows.length) :
    ∃ d, mkTableErr t rows errs = .ok d ∧ d.timeseries = t ∧ d.data2d = .ok rows ∧
      d.err2d = .ok errs ∧ d.N = rows.length ∧ d.M = t.length := by
  have hsz := hrect.size
  have hsz' := herr.size
  have hpos := List.length_pos_iff.2 ht
  have hrpos := List.length_pos_iff.2 hr
  obtain ⟨d, hd, hb⟩ := setUp_ok (t := t) (data := rows.flatten) (err := errs.flatten)
    (N := rows.length) ht (by
      intro h0
      rw [h0] at hsz
      simp at hsz
      rcases hsz with h | h
      · exact hr h
      · exact ht h) (by rw [hsz]; simp) (by rw [hsz])
  refine ⟨d, hd, hb.ht, ?_, ?_, hb.hN, hb.hM⟩
  · unfold DS.data2d
    rw [hb.hN, hb.hM, hb.hdata, unflatten_ok (by rw [hsz]), rowOf_flatten hrect]
  · unfold DS.err2d
    rw [hb.hN, hb.hM, hb.herr, if_neg, unflatten_ok (by rw [hsz', hel]), ← hel, rowOf_flatten herr]
    intro h0
    rw [List.isEmpty_iff] at h0
    rw [h0, hel] at hsz'
    simp at hsz'
    rcases hsz' with h | h
    · exact hr h
    · exact ht h

/-- **C03**: without errors `errors()` is empty. -/
theorem C03_round_trip (t : List F) (rows : List (List F)) (ht : t ≠ []) (hr : rows ≠ [])
    (hrect : Rect t.length rows) :
    ∃ d, mkTable t rows = .ok d ∧ d.timeseries = t ∧ d.data2d = .ok rows ∧ d.err2d = .ok [] ∧
      d.N = rows.length ∧ d.M = t.length := by
  have hsz := hrect.size
  obtain ⟨d, hd, hb⟩ := setUp_ok (t := t) (data := rows.flatten) (err := [])
    (N := rows.length) ht (by
      intro h0
      rw [h0] at hsz
      simp at hsz
      rcases hsz with h | h
      · exact hr h
      · exact ht h) (by rw [hsz]; simp) (by rw [hsz])
  refine ⟨d, hd, hb.ht, ?_, ?_, hb.hN, hb.hM⟩
  · unfold DS.data2d
    rw [hb.hN, hb.hM, hb.hdata, unflatten_ok (by rw [hsz]), rowOf_flatten hrect]
  · unfold DS.err2d
    rw [hb.herr]; rfl

/-- **C03**: the flat form is the one-row table. -/
theorem C03_flat_is_one_row (t v e : List F) :
    mkFlat t v = mkTable t [v] ∧ mkFlatErr t v e = mkTableErr t [v] [e] := by
  simp [mkFlat, mkTable, mkFlatErr, mkTableErr]

example : ∃ d, mkTableErr (q [0, 1, 3]) [q [1, 2, 3], q [4, 5, 6]] [q [7, 8, 9], q [1, 1, 1]] = .ok d ∧
    d.data2d = .ok [q [1, 2, 3], q [4, 5, 6]] ∧ d.err2d = .ok [q [7, 8, 9], q [1, 1, 1]] :=
  ⟨_, rfl, rfl, rfl⟩

/-! ## C08 -/

/-- **C08 is false of the code**: a ragged table passes the size test and is read out of bounds. -/
theorem C08_false : ¬ ∀ (t : List Q) (rows : List (List Q)), mkTable t rows ≠ .ub := by
  intro h
  exact h (q [0, 1]) [q [1, 2], q []] (by decide +kernel)

/-- **C08**, exact condition: the constructor is undefined exactly when the total number of values passes the
size test but is smaller than rows × timestamps. -/
theorem C08_ub_iff_partial (t : List F) (rows errs : List (List F)) :
    (mkTableErr t rows errs = .ub ↔
      t ≠ [] ∧ rows.flatten ≠ [] ∧ t.length ∣ rows.flatten.length ∧
        rows.flatten.length < rows.length * t.length) ∧
    ((∃ d, mkTableErr t rows errs = .ok d) ↔
      t ≠ [] ∧ rows.flatten ≠ [] ∧ t.length ∣ rows.flatten.length ∧
        rows.length * t.length ≤ rows.flatten.length) ∧
    mkTable t rows = mkTableErr t rows [] := by
  refine ⟨?_, ?_, by simp [mkTable, mkTableErr]⟩ <;> unfold mkTableErr <;>
  rcases setUp_cases t rows.flatten errs.flatten rows.length with ⟨h, hr⟩ | ⟨h1, h2, h3, hr⟩ |
      ⟨h1, h2, h3, h4, hr⟩ | ⟨h1, h2, h3, h4, d, hr, hb⟩ <;> rw [hr] <;>
  simp only [reduceCtorEq, false_iff, true_iff, Res.ok.injEq, exists_eq', exists_false]
  · tauto
  · tauto
  · exact ⟨h1, h2, h3, h4⟩
  · intro h; omega
  · tauto
  · tauto
  · intro h; omega
  · exact ⟨h1, h2, h3, h4⟩

/-- **C08** for rectangular tables: always safe, and accepted when not empty. -/
theorem C08_rectangular_safe_partial (t : List F) (rows errs : List (List F)) (h : Rect t.length rows) :
    mkTableErr t rows errs ≠ .ub ∧
      (t ≠ [] → rows ≠ [] → ∃ d, mkTableErr t rows errs = .ok d) := by
  have hsz := h.size
  obtain ⟨h1, h2, _⟩ := C08_ub_iff_partial t rows errs
  refine ⟨fun hu => ?_, fun ht hr => h2.2 ⟨ht, ?_, ?_, ?_⟩⟩
  · have := (h1.1 hu).2.2.2; omega
  · intro h0
    rw [h0] at hsz
    simp at hsz
    rcases hsz with h | h
    · exact hr h
    · exact ht h
  · rw [hsz]; exact Nat.dvd_mul_left _ _
  · omega

example : Rect (F := Q) 2 [q [1, 2], q [3, 4]] := by simp [Rect, q]

/-! ## C09 -/

/-- **C09 is false of the code**: an error list that is too short is accepted and then read out of bounds. -/
theorem C09_false : ¬ ∀ (t v e : List Q) d, mkFlatErr t v e = .ok d → d.err2d ≠ .ub := by
  intro h
  exact h (q [0, 1]) (q [1, 2]) (q [1]) _ rfl (by decide +kernel)

/-- **C09**, exact condition for `errors()`. -/
theorem C09_errors_iff_partial (t : List F) (rows errs : List (List F)) (d : DS F)
    (h : mkTableErr t rows errs = .ok d) :
    (d.err2d = .ub ↔ errs.flatten ≠ [] ∧ errs.flatten.length < rows.length * t.length) ∧
    ((∃ e, d.err2d = .ok e) ↔ errs.flatten = [] ∨ rows.length * t.length ≤ errs.flatten.length) := by
  have hb : d.Built t rows.flatten errs.flatten rows.length := setUp_built h
  unfold DS.err2d
  rw [hb.herr, hb.hN, hb.hM]
  by_cases he : errs.flatten = []
  · rw [he]; simp
  · rw [if_neg (by simpa using he)]
    by_cases hl : rows.length * t.length ≤ errs.flatten.length
    · rw [unflatten_ok hl]
      simp only [reduceCtorEq, false_iff, Res.ok.injEq, exists_eq', true_iff]
      exact ⟨fun h => by omega, Or.inr hl⟩
    · rw [unflatten_ub (by omega)]
      simp only [true_iff, reduceCtorEq, exists_false, false_iff]
      exact ⟨⟨he, by omega⟩, by tauto⟩

/-- **C09**, exact condition for the flat constructor (one row of `M` points). -/
theorem C09_errors_flat_iff_partial (t v e : List F) (d : DS F) (h : mkFlatErr t v e = .ok d) :
    (d.err2d = .ub ↔ e ≠ [] ∧ e.length < t.length) ∧
    ((∃ r, d.err2d = .ok r) ↔ e = [] ∨ t.length ≤ e.length) := by
  rw [(C03_flat_is_one_row t v e).2] at h
  simpa using C09_errors_iff_partial t [v] [e] d h

example : ∃ d, mkFlatErr (q [0, 1]) (q [1, 2]) (q [3, 4, 5]) = .ok d ∧ d.err2d = .ok [q [3, 4]] :=
  ⟨_, rfl, rfl⟩

end Sacf
