import Verif.Props.Races
import Verif.Props.Interrupt

/-!
# Reading a `Correlator` while other threads compute (C98)

`lag_timeseries()` and `correlations()` are two calls; other threads may run in between.
-/

namespace Sacf

open Arith

variable {F : Type} [Arith F]

theorem filled_lag {c : Corr F} {V : List (CorrIt F)} {n : Nat} {it : CorrIt F} (h : V[n]? = some it) : (c.filled V).lagTimeseries[n]? = some it.k := by
  have hlt := (List.getElem?_eq_some_iff.1 h).1
  simp only [Corr.lagTimeseries, Corr.filled]
  rw [List.getElem?_append_left (by simpa using hlt), List.getElem?_map, h]
  rfl

theorem stored_lag {c : Corr F} {V : List (CorrIt F)} {n : Nat} {it : CorrIt F} (h : V[n]? = some it) : (c.stored V).lagTimeseries[n]? = some it.k := by
  simp only [Corr.lagTimeseries, Corr.stored]
  rw [List.getElem?_map, h]
  rfl

/-- **C98**, for a single read: at any moment while threads run `find_correlation` on a correlator, the table has as many columns as there are lags
and is in two parts.  Up to some lag each column is, with its lag, one that one of the calls leaves behind alone; from there on the columns and lags
are those before the calls. -/
theorem C98_moment_partial (a : AbsFn) (d : DS F) (hd : Constructed d) (c : Corr F) (hr : Reached a d c) (heap : List (Corr F))
    (tasks : List (Task F × Option Nat)) (hv : ValidRefs heap tasks) (x : Nat) (hc : heap[x]? = some c) (hl : LoopsOn a c x tasks)
    (sched : List Nat) (w : World F) (hw : (World.init heap tasks).run a sched = .ok w) :
    ∃ s rows, w.heap[x]? = some s ∧ s.correlations = .ok rows ∧ rows.length = s.ds.N ∧ (∀ row ∈ rows, row.length = s.lagTimeseries.length) ∧
      ∃ P ≤ s.lagTimeseries.length,
        (∀ i < P, ∃ sel wt s', NamesOn x tasks sel wt ∧ Leaves a c sel wt s' ∧ s.lagTimeseries[i]? = s'.lagTimeseries[i]? ∧
          ∀ j v, s.EntryIs j i v ↔ s'.EntryIs j i v) ∧
        ∀ i, P ≤ i → i < s.lagTimeseries.length → s.lagTimeseries[i]? = c.lagTimeseries[i]? ∧ ∀ j v, s.EntryIs j i v ↔ c.EntryIs j i v := by
  have hg := (hr.good hd).1
  have hs : Src a c (fun sel wt V e => NamesOn x tasks sel wt ∧ Runs a c sel wt V e) := runs_src hg
  obtain ⟨s, W, cut, h1, h2, _⟩ := ((loops_shared hg hv hc hl).run hs hw).state
  have hWs := h2.slots hs
  have hcol : ∀ i it, W[i]? = some it → ∃ sel wt s', NamesOn x tasks sel wt ∧ Leaves a c sel wt s' ∧ s'.lagTimeseries[i]? = some it.k ∧
      ∀ j v, s'.EntryIs j i v ↔ j < c.ds.N ∧ it.correlation.getD j zero = v := by
    intro i it hi
    obtain ⟨sel, wt, V, e, ⟨g1, g2⟩, g3⟩ := h2.each i it hi
    have hL := g2.2.2
    have hne : V ≠ [] := by rintro rfl; simp at g3
    cases e with
    | none =>
      simp only [Comes, if_neg hne] at hL
      exact ⟨sel, wt, _, g1, .inl hL, stored_lag g3, fun j v => stored_entry hg g3 j v⟩
    | some e => exact ⟨sel, wt, _, g1, .inr ⟨e, hL⟩, filled_lag g3, fun j v => filled_entry hg g2.2.1 g3 j v⟩
  have hsg : s.Good := by
    rw [h2.form]
    cases cut
    · exact Corr.filled_good hg hWs
    · exact Corr.stored_good hg W
  obtain ⟨rows, k1, k2, k3⟩ := correlations_good hsg
  refine ⟨s, rows, h1, k1, k2, fun row hrow => (k3 row hrow).trans hsg.ts_len.symm, W.length, ?_, fun i hi => ?_, fun i hi hi' => ?_⟩
  · rw [h2.form]
    cases cut <;> simp [Corr.lagTimeseries, Corr.filled, Corr.stored]
  · have hit : W[i]? = some W[i] := List.getElem?_eq_getElem hi
    obtain ⟨sel, wt, s', g1, g2, g3, g4⟩ := hcol i _ hit
    refine ⟨sel, wt, s', g1, g2, ?_, fun j v => ?_⟩
    · rw [g3, h2.form]
      cases cut
      · exact filled_lag hit
      · exact stored_lag hit
    · rw [g4, h2.form]
      cases cut
      · exact filled_entry hg hWs hit j v
      · exact stored_entry hg hit j v
  · have hf := h2.form
    cases cut with
    | true =>
      rw [hf] at hi'
      simp [Corr.lagTimeseries, Corr.stored] at hi'
      omega
    | false =>
      have hf : s = c.filled W := hf
      subst hf
      refine ⟨?_, fun j v => filled_rest hg hWs hi j v⟩
      simp only [Corr.lagTimeseries, Corr.filled]
      rw [List.getElem?_append_right (by simpa using hi), List.getElem?_drop]
      simp only [List.length_map]
      rw [Nat.add_sub_cancel' hi]

/-- a thread that has ended stays as it is -/
theorem ended_stays {a : AbsFn} {t x : Nat} {task : Task F} {pc : Pc F} (he : pc.Ended) : ∀ {sched : List Nat} {w w' : World F},
    w.run a sched = .ok w' → w.threads[t]? = some ⟨task, pc, some x⟩ → w'.threads[t]? = some ⟨task, pc, some x⟩
  | [], w, w', h, ht => by
    simp only [World.run, Res.foldL, Res.ok.injEq] at h
    subst h
    exact ht
  | u :: sched, w, w', h, ht => by
    simp only [World.run, Res.foldL_cons, Res.bind_eq_ok] at h
    obtain ⟨w1, h1, h2⟩ := h
    refine ended_stays he (sched := sched) h2 ?_
    have hlt : t < w.threads.length := (List.getElem?_eq_some_iff.1 ht).1
    unfold World.step at h1
    by_cases hu : u = t
    · subst hu
      rw [ht] at h1
      simp only [Task.step_ended a task he, Res.ok_bind, Res.ok.injEq] at h1
      subst h1
      unfold World.store
      split <;> simp [List.getElem?_set_self hlt]
    · cases hth : w.threads[u]? with
      | none =>
        rw [hth] at h1
        simp only [Res.ok.injEq] at h1
        subst h1
        exact ht
      | some th =>
        rw [hth] at h1
        simp only [Res.bind_eq_ok, Res.ok.injEq] at h1
        obtain ⟨p, _, rfl⟩ := h1
        unfold World.store
        split
        · simp only [List.getElem?_set_ne hu]; exact ht
        · split <;> simp only [List.getElem?_set_ne hu] <;> exact ht

/-- **C98**, for two reads: from the moment on at which one of the calls has returned, the lags are never changed, so `lag_timeseries()` read at one
moment and `correlations()` read at another have the same length and fit together. -/
theorem C98_settled_partial (a : AbsFn) (d : DS F) (hd : Constructed d) (c : Corr F) (hr : Reached a d c) (heap : List (Corr F))
    (tasks : List (Task F × Option Nat)) (hv : ValidRefs heap tasks) (x : Nat) (hc : heap[x]? = some c) (hl : LoopsOn a c x tasks)
    (sched sched' : List Nat) (w w' : World F) (hw : (World.init heap tasks).run a sched = .ok w) (hw' : w.run a sched' = .ok w') (t : Nat) (sel wt : PyName)
    (ht : tasks[t]? = some (.on (.find sel wt), some x)) (s : Corr F) (hres : w.result t = some (.ok () s)) :
    ∃ s' rows, w.heap[x]? = some s ∧ w'.heap[x]? = some s' ∧ s'.lagTimeseries = s.lagTimeseries ∧ s'.correlations = .ok rows ∧
      ∀ row ∈ rows, row.length = s.lagTimeseries.length := by
  have hrun : (World.init heap tasks).run a (sched ++ sched') = .ok w' := by
    unfold World.run at hw hw' ⊢
    rw [Res.foldL_append, hw, Res.ok_bind, hw']
  obtain ⟨pc, hth⟩ := run_thread hv hw ht
  have hpc : pc = .finished ∧ w.heap[x]? = some s := by
    unfold World.result at hres
    rw [hth] at hres
    cases pc <;> simp at hres
    exact ⟨rfl, hres⟩
  obtain ⟨rfl, hsx⟩ := hpc
  obtain ⟨s0, e0, e1, _⟩ := C92_columns_partial a d hd c hr heap tasks hv x hc hl sched w hw t sel wt ht s hres
  obtain ⟨s', rows, k1, k2, _, k3, _⟩ := C98_moment_partial a d hd c hr heap tasks hv x hc hl (sched ++ sched') w' hrun
  have hth' := ended_stays (pc := .finished) trivial hw' hth
  have hres' : w'.result t = some (.ok () s') := by
    unfold World.result
    rw [hth']
    simp [k1]
  obtain ⟨s1, e2, e3, _⟩ := C92_columns_partial a d hd c hr heap tasks hv x hc hl _ w' hrun t sel wt ht s' hres'
  rw [e0] at e2
  simp only [Out.ok.injEq, true_and] at e2
  subst e2
  exact ⟨s', rows, hsx, k1, by rw [e3, e1], k2, fun row hrow => by rw [k3 row hrow, e3, e1]⟩

/-- **C98** is false before: during the first computation of a new `Correlator` a thread that reads the lags gets nine, of which all but those written so
far are zero; the correlations it reads next have seven columns. -/
theorem C98_false : ∃ (d : DS Q) (c s s' : Corr Q) (sched sched' : List Nat) (w w' : World Q) (row : List Q), Constructed d ∧ Reached .fabs d c ∧
    (World.init [c] [(.on linear, some 0)]).run .fabs sched = .ok w ∧ w.run .fabs sched' = .ok w' ∧ w.heap[0]? = some s ∧ w'.heap[0]? = some s' ∧
    s.lagTimeseries = q [-3, -2, 0, 0, 0, 0, 0, 0, 0] ∧ s'.lagTimeseries = q [-3, -2, -1, 0, 1, 2, 3] ∧ s'.correlations = .ok [row] ∧ row.length = 7 := by
  obtain ⟨d, c, hd, hr, h⟩ := corrAfter [] (by simp) (fun c =>
    okThen (fun w => okThen (fun w' => match w.heap[0]?, w'.heap[0]? with
        | some s, some s' => decide (s.lagTimeseries = q [-3, -2, 0, 0, 0, 0, 0, 0, 0] ∧ s'.lagTimeseries = q [-3, -2, -1, 0, 1, 2, 3]) &&
            okThen (fun rows => decide (rows.map List.length = [7])) s'.correlations
        | _, _ => false) (w.run .fabs (List.replicate 60 0)))
      ((World.init [c] [(.on linear, some 0)]).run .fabs (List.replicate 18 0)) = true) (by decide +kernel)
  obtain ⟨w, hw, h⟩ := okThen_ok h
  obtain ⟨w', hw', h⟩ := okThen_ok h
  split at h
  · rename_i s s' e e'
    simp only [Bool.and_eq_true, decide_eq_true_eq] at h
    obtain ⟨⟨h1, h2⟩, h3⟩ := h
    obtain ⟨rows, h3, h4⟩ := okThen_ok h3
    obtain ⟨row, rfl, h5⟩ := List.map_eq_singleton_iff.1 (of_decide_eq_true h4)
    exact ⟨d, c, s, s', _, _, w, w', row, hd, hr, hw, hw', e, e', h1, h2, h3, h5⟩
  · simp at h

end Sacf
