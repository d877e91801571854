import Verif.Props.Work

/-!
# C86: using a `Correlator` again

The buffers of a `Correlator` are cut to the number of lags of the last computation and never grow.
-/

namespace Sacf

open Arith

variable {F : Type} [Arith F]

/-- what a caller assigns before a computation -/
structure Use (F : Type) where
  minLag : F
  maxLag : F
  lagRes : F
  alpha : F

/-- `corr.min_lag = ..; corr.max_lag = ..; corr.lag_resolution = ..; corr.alpha = ..` -/
def Use.assign (u : Use F) (c : Corr F) : Corr F := (((c.setMinLag u.minLag).setMaxLag u.maxLag).setLagResolution u.lagRes).setAlpha u.alpha

/-- the same as arguments of `autocorrelation` -/
def Use.args (u : Use F) : LagArgs F := ⟨some u.minLag, some u.maxLag, some u.lagRes, some u.alpha⟩

/-- the number of lags of the range -/
def Use.Count (u : Use F) (n : ℕ) : Prop := ∃ m, GridCount u.minLag u.maxLag u.lagRes m ∧ lagTotal u.minLag u.lagRes m = n

/-- For each use: assign, `corr.calculateStandardCorrelation()`, read `corr.lag_timeseries()` and `corr.correlations()`. -/
def reuse (a : AbsFn) : Corr F → List (Use F) → Res (List (List F × List (List F)))
  | _, [] => .ok []
  | c, u :: us =>
    ((u.assign c).calculateStandardCorrelation a).bind fun c =>
    c.correlations.bind fun rows =>
    (reuse a c us).bind fun out => .ok ((c.lagTimeseries, rows) :: out)

/-! ## The buffers never grow -/

theorem clean_le {c s : Corr F} (hg : c.Good) {i : Nat} (h : c.cleanCorrelationData i = .ok s) : s.tsBuf.length ≤ c.tsBuf.length := by
  obtain ⟨h1, _⟩ := clean_lengths h
  rw [h1, hg.ts_len]
  unfold Corr.cleanCorrelationData at h
  simp only [Res.bind_eq_ok] at h
  obtain ⟨buf, hb, _⟩ := h
  have hN := hg.wf.npos
  have hmem : c.ds.N - 1 ∈ List.range c.ds.N := by simp; omega
  by_contra hlt
  have : ∀ (l : List ℕ) (s : List F) (s' : List F), c.ds.N - 1 ∈ l → Res.foldL (fun out j =>
      (slice c.corrBuf (j * c.numLagSteps) (j * c.numLagSteps + i)).bind fun row => writeAt out (j * i) row) s l ≠ .ok s' := by
    intro l
    induction l with
    | nil => intro s s' h; simp at h
    | cons j l ih =>
      intro s s' hj hs
      rw [Res.foldL_cons, Res.bind_eq_ok] at hs
      obtain ⟨s1, h1, h2⟩ := hs
      rcases List.mem_cons.1 hj with rfl | hj
      · rw [Res.bind_eq_ok] at h1
        obtain ⟨row, h1, _⟩ := h1
        unfold slice at h1
        split at h1
        · rename_i hle
          rw [hg.corr_len] at hle
          have : (c.ds.N - 1) * c.numLagSteps + c.numLagSteps = c.ds.N * c.numLagSteps := by
            conv_rhs => rw [show c.ds.N = c.ds.N - 1 + 1 by omega, Nat.add_mul, Nat.one_mul]
          omega
        · simp at h1
      · exact ih _ _ hj h2
  exact this _ _ _ hmem hb

theorem scall_le {a : AbsFn} {c s : Corr F} (hg : c.Good) {x : SCall F} (h : x.run a c = .ok () s) : s.tsBuf.length ≤ c.tsBuf.length := by
  have hset : ∀ (set : Corr F → F → Corr F) (v : PyVal F), (∀ c v, (set c v).tsBuf = c.tsBuf) → Out.step c (assignOn set v c) = .ok () s →
      s.tsBuf.length ≤ c.tsBuf.length := by
    intro set v hs h
    unfold assignOn at h
    split at h
    · simp only [Out.step, Out.ok.injEq, true_and] at h
      rw [← h, hs]
    · simp [Out.step] at h
  have hdrv : ∀ {y : Out (Corr F) Nat} (b : Bool), Out.All c.Same y → (y.bind fun i s =>
      if b && i == 0 then .exn .unboundLocal s else Out.step s (s.cleanCorrelationData i)) = .ok () s → s.tsBuf.length ≤ c.tsBuf.length := by
    intro y b hy h
    cases y with
    | ok i u =>
      simp only [Out.bind] at h
      have hu : c.Same u := hy
      split at h
      · simp at h
      · cases hcl : u.cleanCorrelationData i <;> rw [hcl] at h <;> simp [Out.step] at h
        subst h
        exact (clean_le (hu.good hg) hcl).trans hu.ts_len.le
    | exn e' u => simp [Out.bind] at h
    | ub => simp [Out.bind] at h
    | diverge => simp [Out.bind] at h
  have hstep : ∀ {r : Res (Corr F)}, Out.step c r = .ok () s → r = .ok s := by
    intro r h
    cases r <;> simp [Out.step] at h
    rw [h]
  cases x with
  | setMaxLag v => exact hset Corr.setMaxLag v (fun _ _ => rfl) h
  | setMinLag v => exact hset Corr.setMinLag v (fun _ _ => rfl) h
  | setLagResolution v => exact hset Corr.setLagResolution v (fun _ _ => rfl) h
  | setAlpha v => exact hset Corr.setAlpha v (fun _ _ => rfl) h
  | calculate =>
    refine hdrv false (lagLoop_same (f := Corr.standardStep a) (fun _ _ _ _ h => standardStep_same h) c.maxLag c.lagRes
      (c.tsBuf.length + 1) c c.minLag false 0) ?_
    simpa [SCall.run, calculateOn] using h
  | find sel wt =>
    refine hdrv true (lagLoop_same (f := nameStep a sel wt) (fun _ _ _ _ h => nameStep_same h) c.maxLag c.lagRes
      (c.tsBuf.length + 1) c c.minLag false 0) ?_
    simpa [SCall.run, findOn] using h
  | add it step => exact (addOn_ok (hstep h)).ts_len.le
  | clean i =>
    obtain ⟨n, h⟩ := cleanOn_ok (hstep h)
    exact clean_le hg h
  | clear =>
    simp only [SCall.run, Out.ok.injEq, true_and] at h
    rw [← h]
    simp [Corr.clearCorrelation]

theorem session_le {a : AbsFn} {c c' : Corr F} (hg : c.Good) {calls : List (SCall F)} (hcl : ∀ x ∈ calls, x ≠ .clear) {log : List (Option Exc)}
    (h : runSession a c calls = .ok (c', log)) : c'.tsBuf.length ≤ c.tsBuf.length := by
  induction calls generalizing c log with
  | nil => simp [runSession] at h; rw [h.1]
  | cons x xs ih =>
    have hx := scall_good (a := a) (c := c) (hcl x (by simp))
    unfold runSession at h
    cases hr : x.run a c with
    | ok _ s =>
      rw [hr] at h hx
      simp only [Res.bind_eq_ok, Res.ok.injEq, Prod.mk.injEq] at h
      obtain ⟨⟨s', l⟩, h1, h2, _⟩ := h
      simp only at h2; subst h2
      exact (ih (hx.1 hg) (fun y hy => hcl y (by simp [hy])) h1).trans (scall_le hg hr)
    | exn e s =>
      have hsame := scall_exn hr
      rw [hr] at h
      simp only [Res.bind_eq_ok, Res.ok.injEq, Prod.mk.injEq] at h
      obtain ⟨⟨s', l⟩, h1, h2, _⟩ := h
      simp only at h2; subst h2
      exact (ih (hsame.good hg) (fun y hy => hcl y (by simp [hy])) h1).trans hsame.ts_len.le
    | ub => rw [hr] at h; simp at h
    | diverge => rw [hr] at h; simp at h

/-- **C86**: over every history of calls with any arguments, exceptions caught, without `clearCorrelation`, the number of slots of a
correlator never grows. -/
theorem C86_slots (a : AbsFn) (d : DS F) (hd : Constructed d) (c c' : Corr F) (h : Reached a d c) (calls : List (SCall F))
    (hcl : ∀ x ∈ calls, x ≠ .clear) (log : List (Option Exc)) (hr : runSession a c calls = .ok (c', log)) :
    c'.lagTimeseries.length ≤ c.lagTimeseries.length := session_le (h.good hd).1 hcl hr

/-! ## One more use -/

theorem planRun_mono {a : AbsFn} {sel wt : String} {nt : List F} {alpha lo hi res : F} {n n' : ℕ} {L : List (F × List (F × ℕ))}
    (h : planRun a sel wt nt alpha lo hi res n = .ok L) (hle : n ≤ n') : planRun a sel wt nt alpha lo hi res n' = .ok L := by
  unfold planRun at h ⊢
  rw [Res.bind_eq_ok] at h
  obtain ⟨L', h1, h2⟩ := h
  split at h2
  · rename_i hlen
    have hd := lagsDone_of_length (Nat.lt_succ_of_le hlen)
    have e : lagsUpTo hi res (n' + 1) lo false = lagsUpTo hi res (n + 1) lo false := (lagsUpTo_of_done hd (by omega)).1
    rw [e, List.take_of_length_le (by omega)]
    rw [List.take_of_length_le (by omega)] at h1
    rw [h1]
    simpa [show (lagsUpTo hi res (n + 1) lo false).length ≤ n' by omega] using h2
  · simp at h2

/-- what a computation on a correlator with a history stores is what `autocorrelation` with the same parameters returns -/
theorem store_fresh_eq {a : AbsFn} {d : DS F} (hd : Constructed d) {c : Corr F} (h : Reached a d c) {sel wt : String} {L : List (F × List (F × ℕ))}
    (hL : planRun a sel wt c.ds.normT c.alpha c.minLag c.maxLag c.lagRes c.numLagSteps = .ok L) (hne : L ≠ [] ∨ sel = "natural" ∧ wt = "fractional") :
    ∃ r, autocorrelation a d ⟨some c.minLag, some c.maxLag, some c.lagRes, some c.alpha⟩ sel wt = .ok r ∧
      (c.store L).lagTimeseries = r.lags ∧ (c.store L).correlations = .ok r.corrs.rows := by
  have hle : ∀ n, Corr.new d = .ok (Corr.fresh d n) → c.numLagSteps ≤ n := by
    intro n hn
    obtain ⟨c0, xs, log, h0, hcl, h1⟩ := h
    rw [hn, Res.ok.injEq] at h0
    subst h0
    have hg := Corr.Good.fresh hd.wf n
    have h2 := session_le hg hcl h1
    rw [((runSession_good hcl h1).1 hg).ts_len] at h2
    simpa [Corr.fresh] using h2
  obtain ⟨hg, hds, n, hn, hnorm⟩ := h.good hd
  have hle := hle n hn
  have hs : slotsOf d.normT = .ok n := by
    have := hn
    rw [corrNew_eq hd.wf, Res.bind_eq_ok] at this
    obtain ⟨n', h1, h2⟩ := this
    have : n' = n := by simpa [Corr.fresh] using congrArg (fun z => match z with | .ok c => c.numLagSteps | _ => 0) h2
    rw [h1, this]
  rw [hds] at hL
  have hplan : acPlan a d.normT d.tMedian ⟨some c.minLag, some c.maxLag, some c.lagRes, some c.alpha⟩ sel wt = .ok L := by
    unfold acPlan
    rw [hs, Res.ok_bind]
    simp only [Option.getD_some]
    rw [planRun_mono hL hle, Res.ok_bind, if_neg]
    rcases hne with hne | ⟨rfl, rfl⟩
    · simp [List.isEmpty_iff, hne]
    · simp
  have hN : 0 < ((List.range d.N).map (d.acRow L)).length := by simpa using hd.wf.npos
  obtain ⟨out, ho, hrows⟩ := corrOut_ok hN
  refine ⟨_, by rw [autocorrelation_plan a hd.wf, hplan, Res.ok_bind, ho, Res.ok_bind], rfl, ?_⟩
  rw [correlations_store, hrows, hds]
  congr 1
  apply List.map_congr_left
  intro j hj
  unfold DS.acRow Corr.val
  rw [hnorm, hds]
  have hj := List.mem_range.1 hj
  simp [Corr.fresh, DS.norms, hj]

/-- **C86**: a computation on a `Correlator`, after any history of calls, that returns leaves the lags and correlations that a new call of
`autocorrelation` with the parameters of the object returns. -/
theorem C86_as_fresh (a : AbsFn) (d : DS F) (hd : Constructed d) (c c' : Corr F) (h : Reached a d c) :
    (c.calculateStandardCorrelation a = .ok c' →
      ∃ r, autocorrelation a d ⟨some c.getMinLag, some c.getMaxLag, some c.getLagResolution, some c.getAlpha⟩ "natural" "fractional" = .ok r ∧
        c'.lagTimeseries = r.lags ∧ c'.correlations = .ok r.corrs.rows) ∧
    ∀ sel wt, pyFindCorrelation a c sel wt = .ok c' →
      ∃ r, autocorrelation a d ⟨some c.getMinLag, some c.getMaxLag, some c.getLagResolution, some c.getAlpha⟩ sel wt = .ok r ∧
        c'.lagTimeseries = r.lags ∧ c'.correlations = .ok r.corrs.rows := by
  have hg := (h.good hd).1
  constructor
  · intro hc
    rw [calculateStandard_eq a hg, Res.bind_eq_ok] at hc
    obtain ⟨L, hL, hc⟩ := hc
    rw [Res.ok.injEq] at hc
    subst hc
    exact store_fresh_eq hd h hL (.inr ⟨rfl, rfl⟩)
  · intro sel wt hc
    rw [pyFind_eq a hg, Res.bind_eq_ok] at hc
    obtain ⟨L, hL, hc⟩ := hc
    split at hc
    · simp at hc
    · rename_i hne
      rw [Res.ok.injEq] at hc
      subst hc
      exact store_fresh_eq hd h hL (.inl fun e => hne (by rw [e]; rfl))

theorem Reached.assign {a : AbsFn} {d : DS F} {c : Corr F} (h : Reached a d c) (u : Use F) : Reached a d (u.assign c) := by
  have h1 : Reached a d (c.setMinLag u.minLag) := h.snoc (x := .setMinLag (.float u.minLag)) (by simp)
  have h2 : Reached a d ((c.setMinLag u.minLag).setMaxLag u.maxLag) := h1.snoc (x := .setMaxLag (.float u.maxLag)) (by simp)
  have h3 : Reached a d (((c.setMinLag u.minLag).setMaxLag u.maxLag).setLagResolution u.lagRes) :=
    h2.snoc (x := .setLagResolution (.float u.lagRes)) (by simp)
  exact h3.snoc (x := .setAlpha (.float u.alpha)) (by simp)

theorem Reached.calculate {a : AbsFn} {d : DS F} {c c' : Corr F} (h : Reached a d c) (hc : c.calculateStandardCorrelation a = .ok c') : Reached a d c' := by
  have h1 := h.snoc (x := .calculate) (by simp)
  have h2 := calculateOn_res a c
  rw [hc] at h2
  simp only [SCall.run] at h1
  cases hr : calculateOn a c with
  | ok u s =>
    rw [hr] at h1 h2
    simp only [Out.res, Res.ok.injEq] at h2
    exact h2 ▸ h1
  | exn e s => rw [hr] at h2; simp [Out.res] at h2
  | ub => rw [hr] at h2; simp [Out.res] at h2
  | diverge => rw [hr] at h2; simp [Out.res] at h2

/-- **C86**, exact condition for one more use: `calculateStandardCorrelation` with new parameters on a correlator with any history works if
there are no more lags than slots, and then the result is that of a new call of `autocorrelation`; otherwise it writes outside the buffers. -/
theorem C86_one_use_partial (d : DS F) (hd : Constructed d) (c : Corr F) (h : Reached .fabs d c) (u : Use F) :
    (∀ n, u.Count n → n ≤ c.lagTimeseries.length → ∃ c' r, (u.assign c).calculateStandardCorrelation .fabs = .ok c' ∧ Reached .fabs d c' ∧
      autocorrelation .fabs d u.args "natural" "fractional" = .ok r ∧ c'.lagTimeseries = r.lags ∧ c'.correlations = .ok r.corrs.rows ∧
      c'.lagTimeseries.length = n) ∧
    ((∀ n, u.Count n → c.lagTimeseries.length < n) → (u.assign c).calculateStandardCorrelation .fabs = .ub) := by
  have hu := h.assign u
  have hg := (hu.good hd).1
  have hts : c.lagTimeseries.length = (u.assign c).numLagSteps := hg.ts_len
  have hfit := @lags_fit_iff F _ u.minLag u.maxLag u.lagRes (u.assign c).numLagSteps
  have hrun := planRun_natural (nt := (u.assign c).ds.normT) hg.wf.ne (wt := "fractional") (.inr (.inl rfl)) u.alpha u.minLag u.maxLag u.lagRes
    (u.assign c).numLagSteps
  refine ⟨fun n hn hle => ?_, fun hall => ?_⟩
  · obtain ⟨m, hm, rfl⟩ := hn
    rcases hrun with ⟨hlen, L, hL, hLm⟩ | ⟨hgt, _⟩
    · have hc : (u.assign c).calculateStandardCorrelation .fabs = .ok ((u.assign c).store L) := by
        rw [calculateStandard_eq .fabs hg]
        exact (congrArg (fun z => Res.bind z _) hL).trans rfl
      obtain ⟨r, h1, h2, h3⟩ := (C86_as_fresh .fabs d hd _ _ hu).1 hc
      refine ⟨_, r, hc, hu.calculate hc, h1, h2, h3, ?_⟩
      show (L.map Prod.fst).length = _
      rw [hLm]
      have hm' : m < (u.assign c).numLagSteps + 1 := by
        rw [hts] at hle
        unfold lagTotal at hle
        omega
      classical
      rw [lagsUpTo_length hm false hm']
      unfold lagTotal
      simp
    · have := hfit.2 ⟨m, hm, by rw [← hts]; exact hle⟩
      omega
  · rw [calculateStandard_eq .fabs hg]
    rcases hrun with ⟨hlen, _⟩ | ⟨_, hL⟩
    · obtain ⟨m, hm, hle⟩ := hfit.1 hlen
      have := hall _ ⟨m, hm, rfl⟩
      omega
    · exact (congrArg (fun z => Res.bind z _) hL).trans rfl

theorem Use.Count.unique {u : Use F} {n n' : ℕ} (h : u.Count n) (h' : u.Count n') : n = n' := by
  obtain ⟨m, h1, rfl⟩ := h
  obtain ⟨m', h2, rfl⟩ := h'
  rw [h1.unique h2]

/-- **C86**, exact condition for any sequence of uses, after any history: it works if and only if no range has more lags than the one before it,
and the first no more than the correlator has slots.  The results are then those of new calls of `autocorrelation`; otherwise some computation
writes outside the buffers. -/
theorem C86_sequence_partial (d : DS F) (hd : Constructed d) (c : Corr F) (h : Reached .fabs d c) (us : List (Use F)) (ns : List ℕ)
    (hn : List.Forall₂ Use.Count us ns) :
    ((c.lagTimeseries.length :: ns).Pairwise (· ≥ ·) → ∃ out, reuse .fabs c us = .ok out ∧
      List.Forall₂ (fun (u : Use F) (o : List F × List (List F)) =>
        ∃ r, autocorrelation .fabs d u.args "natural" "fractional" = .ok r ∧ o.1 = r.lags ∧ o.2 = r.corrs.rows) us out) ∧
    (¬ (c.lagTimeseries.length :: ns).Pairwise (· ≥ ·) → reuse .fabs c us = .ub) := by
  induction hn generalizing c with
  | nil => exact ⟨fun _ => ⟨[], rfl, .nil⟩, fun hp => absurd (by simp) hp⟩
  | @cons u n us ns hu _ ih =>
    by_cases hle : n ≤ c.lagTimeseries.length
    · obtain ⟨c', r, h1, h2, h3, h4, h5, h6⟩ := (C86_one_use_partial d hd c h u).1 n hu hle
      obtain ⟨i1, i2⟩ := ih c' h2
      have hiff : (c.lagTimeseries.length :: n :: ns).Pairwise (· ≥ ·) ↔ (c'.lagTimeseries.length :: ns).Pairwise (· ≥ ·) := by
        rw [h6]
        constructor
        · intro hp; exact (List.pairwise_cons.1 hp).2
        · intro hp
          refine List.pairwise_cons.2 ⟨fun m hm => ?_, hp⟩
          rcases List.mem_cons.1 hm with rfl | hm
          · exact hle
          · exact ((List.pairwise_cons.1 hp).1 m hm).trans hle
      rw [hiff]
      refine ⟨fun hp => ?_, fun hp => ?_⟩
      · obtain ⟨out, o1, o2⟩ := i1 hp
        refine ⟨(c'.lagTimeseries, r.corrs.rows) :: out, ?_, .cons ⟨r, h3, h4, rfl⟩ o2⟩
        simp only [reuse, h1, h5, o1, Res.ok_bind]
      · simp only [reuse, h1, h5, i2 hp, Res.ok_bind]
        rfl
    · refine ⟨fun hp => absurd ((List.pairwise_cons.1 hp).1 n (by simp)) hle, fun _ => ?_⟩
      have := (C86_one_use_partial d hd c h u).2 (fun n' hn' => by rw [hn'.unique hu]; omega)
      simp only [reuse, this]
      rfl

/-- **C86**, scanning `alpha`: on one correlator, any number of values of `alpha` for one range works as soon as the range fits once. -/
theorem C86_alpha_scan (d : DS F) (hd : Constructed d) (c : Corr F) (h : Reached .fabs d c) (lo hi res : F) (n : ℕ)
    (hn : ∀ α, Use.Count ⟨lo, hi, res, α⟩ n) (hle : n ≤ c.lagTimeseries.length) (αs : List F) :
    ∃ out, reuse .fabs c (αs.map fun α => ⟨lo, hi, res, α⟩) = .ok out ∧
      List.Forall₂ (fun (α : F) (o : List F × List (List F)) =>
        ∃ r, autocorrelation .fabs d ⟨some lo, some hi, some res, some α⟩ "natural" "fractional" = .ok r ∧ o.1 = r.lags ∧ o.2 = r.corrs.rows) αs out := by
  have hc : List.Forall₂ Use.Count (αs.map fun α => (⟨lo, hi, res, α⟩ : Use F)) (αs.map fun _ => n) := by
    induction αs with
    | nil => exact .nil
    | cons α αs ih => exact .cons (hn α) ih
  obtain ⟨out, h1, h2⟩ := (C86_sequence_partial d hd c h _ _ hc).1 (by
    refine List.pairwise_cons.2 ⟨fun m hm => ?_, ?_⟩
    · simp at hm; omega
    · simp)
  exact ⟨out, h1, List.forall₂_map_left_iff.1 h2⟩

/-- **C86** is false as one would wish it: after a computation over the lags 0 and 1, the default range does not fit any more, although
it is fine for a new call, and for the same correlator before. -/
theorem C86_false : ((mkTable (q [0, 1, 3]) [q [1, 2, 6]]).bind fun d => (Corr.new d).bind fun c =>
      reuse .fabs c [⟨.fin 0, .fin 1, .fin 1, .fin 1⟩, ⟨.fin (-3), .fin 3, .fin 1, .fin 1⟩]) = .ub ∧
    ((mkTable (q [0, 1, 3]) [q [1, 2, 6]]).bind fun d => (Corr.new d).bind fun c =>
      (reuse .fabs c [⟨.fin (-3), .fin 3, .fin 1, .fin 1⟩, ⟨.fin 0, .fin 1, .fin 1, .fin 1⟩]).bind fun out => .ok (out.map Prod.fst))
      = .ok [q [-3, -2, -1, 0, 1, 2, 3], q [0, 1]] := by decide +kernel

end Sacf
