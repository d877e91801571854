import Verif.Spec.Session
import Verif.Lemmas.Session
import Verif.Props.More

/-!
# Sessions on a correlator (C65 - C69)
-/

set_option linter.unusedSectionVars false
set_option linter.unusedSimpArgs false

namespace Sacf

open Arith

variable {F : Type} [Arith F]

theorem Reached.start {a : AbsFn} {d : DS F} {c : Corr F} (h : Corr.new d = .ok c) : Reached a d c :=
  ⟨c, [], [], h, by simp, rfl⟩

theorem Reached.good {a : AbsFn} {d : DS F} (hd : Constructed d) {c : Corr F} (h : Reached a d c) :
    c.Good ∧ c.ds = d ∧ ∃ n, Corr.new d = .ok (Corr.fresh d n) ∧ c.norm = (Corr.fresh d n).norm := by
  obtain ⟨c0, xs, log, h0, hcl, h1⟩ := h
  obtain ⟨n, hn, rfl, hg0⟩ := corrNew_good hd.wf h0
  obtain ⟨g1, g2, g3⟩ := runSession_good hcl h1
  exact ⟨g1 hg0, g2, n, h0, g3⟩

theorem Reached.rows {a : AbsFn} {d : DS F} (hd : Constructed d) {c : Corr F} (h : Reached a d c) :
    c.correlations = .ok ((List.range d.N).map fun j => rowOf c.corrBuf c.numLagSteps j) := by
  obtain ⟨hg, rfl, _⟩ := h.good hd
  have := unflatten_ok (v := c.corrBuf) (N := c.ds.N) (M := c.numLagSteps) (by rw [hg.corr_len])
  unfold unflatten vecIdx at this
  exact this

/-! ## C65 -/

/-- **C65**: over every history of calls with any arguments, exceptions caught, without `clearCorrelation`, the buffers stay consistent:
`correlations()` is in bounds and rectangular, one row per dataset, as many columns as `lag_timeseries()` has entries; the data are the
data of the start. -/
theorem C65_history (a : AbsFn) (d : DS F) (hd : Constructed d) (c : Corr F) (h : Reached a d c) :
    (∃ rows, c.correlations = .ok rows ∧ rows.length = d.N ∧ ∀ row ∈ rows, row.length = c.lagTimeseries.length) ∧
      c.values = d.data2d ∧ c.normalisedTimeseries = d.normT := by
  obtain ⟨hg, hds, _⟩ := h.good hd
  obtain ⟨rows, h1, h2, h3⟩ := correlations_good hg
  refine ⟨⟨rows, h1, by rw [h2, hds], fun row hr => ?_⟩, by unfold Corr.values; rw [hds],
    by unfold Corr.normalisedTimeseries; rw [hds]⟩
  rw [h3 row hr]; exact hg.ts_len.symm

theorem store_same {c s : Corr F} (h : c.Same s) (L : List (F × List (F × Nat))) : s.store L = c.store L := by
  rw [h.form]
  rfl

/-- with a name that is no string the body of the loop never gets to the end -/
theorem nameStep_not_str {a : AbsFn} {sel wt : PyName} (h : ¬ ∃ x y, sel = .str x ∧ wt = .str y) (c s : Corr F) (k : F)
    (i : Nat) : nameStep a sel wt c k i ≠ .ok s := by
  intro hs
  unfold nameStep at hs
  simp only [Res.bind_eq_ok] at hs
  obtain ⟨f, hf, _, _, _, _, w, hw, _⟩ := hs
  apply h
  cases sel with
  | str x =>
    cases wt with
    | str y => exact ⟨x, y, rfl, rfl⟩
    | obj r => simp [PyName.lookup] at hw
    | unhashable => simp [PyName.lookup] at hw
  | obj r => simp [PyName.lookup] at hf
  | unhashable => simp [PyName.lookup] at hf

theorem lagLoop_stuck {f : Corr F → F → Nat → Res (Corr F)} (hf : ∀ c k i s, f c k i ≠ .ok s) {hi res : F} {fuel : Nat}
    {c s : Corr F} {k : F} {p : Bool} {i n : Nat} (h : lagLoop f hi res fuel c k p i = .ok n s) : n = i := by
  cases fuel with
  | zero => simp [lagLoop] at h
  | succ m =>
    unfold lagLoop at h
    split at h
    · simp only at h
      revert h
      generalize (if eq k zero then true else p) = q
      intro h
      split at h
      · cases h1 : f c zero i with
        | ok u => exact absurd h1 (hf _ _ _ _)
        | exn e => rw [h1] at h; simp [Out.step, Out.bind] at h
        | ub => rw [h1] at h; simp [Out.step, Out.bind] at h
        | diverge => rw [h1] at h; simp [Out.step, Out.bind] at h
      · cases h1 : f c k i with
        | ok u => exact absurd h1 (hf _ _ _ _)
        | exn e => rw [h1] at h; simp [Out.step, Out.bind] at h
        | ub => rw [h1] at h; simp [Out.step, Out.bind] at h
        | diverge => rw [h1] at h; simp [Out.step, Out.bind] at h
    · simp only [Out.ok.injEq] at h; exact h.1.symm

theorem findOn_not_str {a : AbsFn} {sel wt : PyName} (h : ¬ ∃ x y, sel = .str x ∧ wt = .str y) (c s : Corr F) :
    findOn a sel wt c ≠ .ok () s := by
  intro hs
  unfold findOn at hs
  cases hl : lagLoop (nameStep a sel wt) c.maxLag c.lagRes (c.tsBuf.length + 1) c c.minLag false 0 with
  | ok n u =>
    have := lagLoop_stuck (fun c k i s => nameStep_not_str h c s k i) hl
    subst this
    rw [hl] at hs
    simp [Out.bind] at hs
  | exn e u => rw [hl] at hs; simp [Out.bind] at hs
  | ub => rw [hl] at hs; simp [Out.bind] at hs
  | diverge => rw [hl] at hs; simp [Out.bind] at hs

theorem same_res {c s : Corr F} (hg : c.Good) (h : c.Same s) (a : AbsFn) :
    (calculateOn a s).res = (calculateOn a c).res ∧
      ∀ sel wt, (findOn a sel wt s).res = (findOn a sel wt c).res := by
  refine ⟨?_, fun sel wt => ?_⟩
  · rw [calculateOn_res, calculateOn_res, calculateStandard_eq a hg, calculateStandard_eq a (h.good hg), h.ds, h.alpha, h.minLag,
      h.maxLag, h.lagRes, h.steps]
    simp only [store_same h]
  · by_cases hn : ∃ x y, sel = .str x ∧ wt = .str y
    · obtain ⟨x, y, rfl, rfl⟩ := hn
      rw [findOn_res, findOn_res, pyFind_eq a hg, pyFind_eq a (h.good hg), h.ds, h.alpha, h.minLag, h.maxLag, h.lagRes, h.steps]
      simp only [store_same h]
    · have h1 := findOn_not_str (a := a) hn c
      have h2 := findOn_not_str (a := a) hn s
      have hr := findOn_rel a sel wt h
      cases hc : findOn a sel wt c <;> cases hs : findOn a sel wt s <;> rw [hc, hs] at hr <;> simp only [Out.Rel] at hr <;>
        try rfl
      · exact absurd hc (h1 _)
      · rw [hr.1]; rfl

/-- **C65**: a call that raises – any of them, with any arguments – leaves the data, the parameters and the number of lags as they were, and
every later computation on the object returns what it would have returned without the failed call: the same correlator, the same
exception, or undefined behaviour in both cases. -/
theorem C65_failed_call (a : AbsFn) (d : DS F) (hd : Constructed d) (c : Corr F) (h : Reached a d c) (x : SCall F) (e : Exc)
    (s : Corr F) (hx : x.run a c = .exn e s) :
    (s.values = c.values ∧ s.getMaxLag = c.getMaxLag ∧ s.getMinLag = c.getMinLag ∧ s.getLagResolution = c.getLagResolution ∧
      s.getAlpha = c.getAlpha ∧ s.lagTimeseries.length = c.lagTimeseries.length) ∧
    (calculateOn a s).res = (calculateOn a c).res ∧ ∀ sel wt, (findOn a sel wt s).res = (findOn a sel wt c).res := by
  have hs := scall_exn hx
  obtain ⟨hg, _, _⟩ := h.good hd
  exact ⟨⟨by unfold Corr.values; rw [hs.ds], hs.maxLag, hs.minLag, hs.lagRes, hs.alpha, hs.ts_len⟩, same_res hg hs a⟩

/-- **C65**: more generally, whatever calls follow – also those that look at the buffers by index, and `clearCorrelation` – raise the same
exceptions at the same places (or run into undefined behaviour) with and without the failed call. -/
theorem C65_same_exceptions (a : AbsFn) (c s : Corr F) (x : SCall F) (e : Exc) (hx : x.run a c = .exn e s)
    (later : List (SCall F)) :
    (∃ u v log, runSession a c later = .ok (u, log) ∧ runSession a s later = .ok (v, log)) ∨
      (runSession a c later = .ub ∧ runSession a s later = .ub) ∨
      (runSession a c later = .diverge ∧ runSession a s later = .diverge) := by
  have hr := runSession_rel a later (scall_exn hx)
  have hne : ∀ (xs : List (SCall F)) (c : Corr F) (e : Exc), runSession a c xs ≠ .exn e := by
    intro xs
    induction xs with
    | nil => intro c e; simp [runSession]
    | cons y ys ih =>
      intro c e h
      unfold runSession at h
      cases hy : y.run a c with
      | ok _ u =>
        rw [hy] at h
        simp only at h
        cases hu : runSession a u ys <;> rw [hu] at h <;> simp [Res.bind] at h
        exact ih _ _ hu
      | exn e' u =>
        rw [hy] at h
        simp only at h
        cases hu : runSession a u ys <;> rw [hu] at h <;> simp [Res.bind] at h
        exact ih _ _ hu
      | ub => rw [hy] at h; simp at h
      | diverge => rw [hy] at h; simp at h
  cases hc : runSession a c later with
  | ok p =>
    cases hs : runSession a s later with
    | ok p' =>
      rw [hc, hs] at hr
      left
      refine ⟨p.1, p'.1, p.2, rfl, ?_⟩
      rw [hr.2]
    | exn e' => rw [hc, hs] at hr; exact hr.elim
    | ub => rw [hc, hs] at hr; exact hr.elim
    | diverge => rw [hc, hs] at hr; exact hr.elim
  | exn e' => exact absurd hc (hne _ _ _)
  | ub =>
    cases hs : runSession a s later with
    | ub => right; left; exact ⟨rfl, rfl⟩
    | ok p' => rw [hc, hs] at hr; exact hr.elim
    | exn e' => rw [hc, hs] at hr; exact hr.elim
    | diverge => rw [hc, hs] at hr; exact hr.elim
  | diverge =>
    cases hs : runSession a s later with
    | diverge => right; right; exact ⟨rfl, rfl⟩
    | ok p' => rw [hc, hs] at hr; exact hr.elim
    | exn e' => rw [hc, hs] at hr; exact hr.elim
    | ub => rw [hc, hs] at hr; exact hr.elim

/-- Times 0, 1, 3, lags 0, 5/4, 5/2: fast selection raises at lag 5/4; by then the value 5/14 of lag 0 has been written into the buffers.
Then two wrong names, a text as `max_lag` and a negative `cleanCorrelationData`. -/
example : (((mkFlat (q [0, 1, 3]) (q [1, 2, 6])).bind Corr.new).bind fun c =>
    (runSession .fabs c [.setMinLag (.float (.fin 0)), .setLagResolution (.float (.fin (5/4))), .find (.str "fast") (.str "fractional"),
      .find (.str "nearest") (.str "gaussian"), .find (.obj "None") (.str "gaussian"), .setMaxLag (.str "all"), .clean (some (-1)),
      .clean (some 4)]).bind fun p =>
      .ok (p.2, p.1.lagTimeseries, p.1.correlations))
    = .ok ([none, none, some .indexError, some (.keyError "nearest"), some (.keyError "None"), some .typeError, some .lengthError,
        none], q [0, 0, 0, 0], .ok [q [5/14, 0, 0, 0]]) := by decide +kernel
/-- the computation at the end is not affected -/
example : (((mkFlat (q [0, 1, 3]) (q [1, 2, 6])).bind Corr.new).bind fun c =>
    (runSession .fabs c [.setMinLag (.float (.fin 0)), .setLagResolution (.float (.fin (5/4))), .find (.str "fast") (.str "fractional"),
      .setMaxLag (.str "all"), .clean (some (-1)), .calculate]).bind fun p => .ok (p.1.lagTimeseries, p.1.correlations))
    = .ok (q [0, 5/4, 5/2], .ok [q [1, -2/245, -2/7]]) := by decide +kernel

/-! ## C66 -/

theorem zipIdx_steps (a : AbsFn) (sel wt : String) (ks : List F) (c : Corr F) (i : Nat) :
    Res.foldL (fun c (p : F × Nat) => pyStep a sel wt c p.1 p.2) c (ks.zipIdx i)
      = (Res.foldL (stepPair a sel wt) (c, i) ks).bind fun s => .ok s.1 := by
  induction ks generalizing c i with
  | nil => rfl
  | cons k ks ih =>
    rw [List.zipIdx_cons, Res.foldL_cons, Res.foldL_cons]
    simp only [stepPair, Res.bind_assoc, Res.ok_bind]
    apply Res.bind_congr
    intro c1 _
    exact ih c1 (i + 1)

theorem chosenLags_eq (a : AbsFn) (sel wt : String) {c : Corr F} (hg : c.Good) (ks : List F) :
    chosenLags a sel wt c ks
      = (Res.mapL (lagPlan' a sel wt c.ds.normT c.alpha) (ks.take (c.numLagSteps + 1))).bind fun L =>
        if ks.length ≤ c.numLagSteps then .ok (c.store L) else .ub := by
  have hf := fold_steps a sel wt hg ks [] (by simp)
  rw [Corr.fill_nil hg] at hf
  simp only [List.length_nil, Nat.sub_zero, Nat.zero_add, List.nil_append] at hf
  unfold chosenLags
  rw [zipIdx_steps, hf]
  simp only [Res.bind_assoc]
  apply Res.bind_congr
  intro L hL
  split
  · rename_i hle
    have hlen : L.length = ks.length := by rw [Res.mapL_length hL, List.length_take]; omega
    simp only [Res.ok_bind]
    rw [← hlen, clean_fill hg L (by omega)]
  · rfl

/-- **C66**: a loop of the caller over any list of lags, in any order and with repetitions, that returns, leaves exactly these lags, and at
each of them, for each dataset, the very value that `autocorrelation` with the same functions and the same `alpha` reports at that lag. -/
theorem C66_chosen_lags (a : AbsFn) (d : DS F) (hd : Constructed d) (c : Corr F) (h : Reached a d c) (sel wt : String)
    (ks : List F) (c' : Corr F) (hc : chosenLags a sel wt c ks = .ok c') :
    c'.lagTimeseries = ks ∧
    (∀ j < d.N, ∀ n < ks.length, ∃ v, c'.EntryIs j n v) ∧
    ∀ (g : LagArgs F) (r : AcResult F), autocorrelation a d g sel wt = .ok r → r.corr.getAlpha = c.getAlpha →
      ∀ j n m k v v', ks[n]? = some k → c'.EntryIs j n v → r.At j m k v' → v = v' := by
  obtain ⟨hg, hds, n0, h0, hnorm⟩ := h.good hd
  rw [chosenLags_eq a sel wt hg, Res.bind_eq_ok] at hc
  obtain ⟨L, hL, hc⟩ := hc
  split at hc
  · rename_i hle
    simp only [Res.ok.injEq] at hc
    subst hc
    rw [List.take_of_length_le (by omega)] at hL
    have hget := Res.mapL_eq_ok_getElem hL
    have hlen := Res.mapL_length hL
    have hfst : L.map Prod.fst = ks := by
      apply List.ext_getElem
      · simp [hlen]
      · intro i h1 h2
        obtain ⟨y, hy, h3⟩ := hget i ks[i] (List.getElem?_eq_getElem h2)
        unfold lagPlan' at h3
        rw [Res.bind_eq_ok] at h3
        obtain ⟨ps, _, h3⟩ := h3
        simp only [Res.ok.injEq] at h3
        rw [List.getElem?_eq_getElem (by omega), Option.some.injEq] at hy
        rw [List.getElem_map, hy, ← h3]
    have hcor := correlations_store c L
    have hval : ∀ j < d.N, ∀ ps, c.val j ps = corrValue (d.nrow j) (normOfRow (d.drow j) (d.dataMean.getD j zero)) ps := by
      intro j hj ps
      unfold Corr.val
      rw [hds, hnorm]
      simp [Corr.fresh, DS.norms, hj]
    refine ⟨hfst, ?_, ?_⟩
    · intro j hj n hn
      refine ⟨c.val j (L[n]'(by omega)).2, _, L.map fun p => c.val j p.2, hcor, ?_, ?_⟩
      · rw [List.getElem?_map, List.getElem?_range (by rw [hds]; exact hj)]; rfl
      · rw [List.getElem?_map, List.getElem?_eq_getElem (by omega)]; rfl
    · intro g r hr hα j n m k v v' hk ⟨rows, row, e1, e2, e3⟩ ⟨hm, row', hrow', hv'⟩
      rw [hcor] at e1
      simp only [Res.ok.injEq] at e1
      subst e1
      rw [List.getElem?_map, Option.map_eq_some_iff] at e2
      obtain ⟨j0, hj0, rfl⟩ := e2
      have hj : j0 = j ∧ j < d.N := by
        have := List.getElem?_eq_some_iff.1 hj0
        obtain ⟨hlt, h⟩ := this
        simp only [List.length_range, hds] at hlt
        simp at h
        omega
      obtain ⟨rfl, hjN⟩ := hj
      rw [List.getElem?_map, Option.map_eq_some_iff] at e3
      obtain ⟨p, hp, rfl⟩ := e3
      have hpk : p.1 = k := by
        have : (L.map Prod.fst)[n]? = some p.1 := by rw [List.getElem?_map, hp]; rfl
        rw [hfst, hk] at this
        simpa using this.symm
      have hplan : lagPlan a sel wt d.normT c.alpha k = .ok p.2 := by
        obtain ⟨y, hy, h3⟩ := hget n k hk
        rw [hp, Option.some.injEq] at hy
        subst hy
        unfold lagPlan' at h3
        rw [Res.bind_eq_ok] at h3
        obtain ⟨ps, h3, h4⟩ := h3
        simp only [Res.ok.injEq] at h4
        rw [← h4, ← hds]
        exact h3
      obtain ⟨n1, L', hL', hlags, hcr, hcorr⟩ := autocorrelation_ok hd.wf hr
      rw [hlags, List.getElem?_map, Option.map_eq_some_iff] at hm
      obtain ⟨p', hp', rfl⟩ := hm
      rw [corrOut_rows hcr, List.getElem?_map, Option.map_eq_some_iff] at hrow'
      obtain ⟨j', hj', rfl⟩ := hrow'
      have hj : j' = j0 := by
        obtain ⟨_, h⟩ := List.getElem?_eq_some_iff.1 hj'
        simpa using h.symm
      subst hj
      unfold DS.acRow at hv'
      rw [List.getElem?_map, hp', Option.map_some, Option.some.injEq] at hv'
      have hplan' := acPlan_ok hL' p' (List.mem_iff_getElem?.2 ⟨m, hp'⟩)
      have hα' : g.alpha.getD d.tMedian = c.alpha := by
        have : r.corr.alpha = g.alpha.getD d.tMedian := by rw [hcorr, setUp_fields]; rfl
        rw [← this]; exact hα
      rw [hα', hplan] at hplan'
      simp only [Res.ok.injEq] at hplan'
      rw [← hv', hval _ hjN, hplan']
  · simp at hc

/-- **C66**: with natural selection, any of the weight functions and a floating-point `abs` the loop returns if and only if there are no
more lags than the correlator has slots; otherwise it writes outside its buffers. -/
theorem C66_slots (d : DS F) (hd : Constructed d) (c : Corr F) (h : Reached .fabs d c) (wt : String) (hwt : KnownWeight wt)
    (ks : List F) :
    (ks.length ≤ c.lagTimeseries.length → ∃ c', chosenLags .fabs "natural" wt c ks = .ok c') ∧
    (c.lagTimeseries.length < ks.length → chosenLags .fabs "natural" wt c ks = .ub) := by
  obtain ⟨hg, hds, _⟩ := h.good hd
  have hts : c.lagTimeseries.length = c.numLagSteps := hg.ts_len
  rw [chosenLags_eq .fabs "natural" wt hg]
  have hw : ∃ w : F → F → F, planWt wt = .ok w := by
    unfold planWt
    rcases hwt with rfl | rfl | rfl
    · exact ⟨_, rfl⟩
    · exact ⟨_, rfl⟩
    · exact ⟨_, rfl⟩
  obtain ⟨w, hw⟩ := hw
  have hpl : ∀ k, ∃ p, lagPlan' .fabs "natural" wt c.ds.normT c.alpha k = .ok p := by
    intro k
    obtain ⟨s, _, _, _, h⟩ := lagPlan_natural (nt := c.ds.normT) hg.wf.ne hw c.alpha k
    unfold lagPlan'
    rw [h]
    exact ⟨_, rfl⟩
  have hm : ∀ l : List F, ∃ L, Res.mapL (lagPlan' .fabs "natural" wt c.ds.normT c.alpha) l = .ok L := by
    intro l
    induction l with
    | nil => exact ⟨[], rfl⟩
    | cons k l ih =>
      obtain ⟨L, hL⟩ := ih
      obtain ⟨p, hp⟩ := hpl k
      exact ⟨p :: L, by rw [Res.mapL_cons, hp, hL]; rfl⟩
  obtain ⟨L, hL⟩ := hm (ks.take (c.numLagSteps + 1))
  rw [hL, hts]
  refine ⟨fun hle => ⟨c.store L, ?_⟩, fun hlt => ?_⟩
  · rw [Res.ok_bind, if_pos hle]
  · rw [Res.ok_bind, if_neg (by omega)]

/-- three lags out of order, one of them twice; the default call reports 1/28 at lag 1 and -3/7 at lag 3 -/
example : (((mkFlat (q [0, 1, 3]) (q [1, 2, 6])).bind Corr.new).bind fun c =>
    (chosenLags .fabs "natural" "fractional" c (q [3, 0, 1, 3])).bind fun c' => .ok (c'.lagTimeseries, c'.correlations))
    = .ok (q [3, 0, 1, 3], .ok [q [-3/7, 1, 1/28, -3/7]]) := by decide +kernel
/-- nine slots: `2 * 3 / 1 + 3` -/
example : (((mkFlat (q [0, 1, 3]) (q [1, 2, 6])).bind Corr.new).bind fun c =>
    chosenLags .fabs "natural" "gaussian" c (q [0, 0, 0, 0, 0, 0, 0, 0, 0, 0])) = .ub := by decide +kernel

end Sacf
