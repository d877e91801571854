import Verif.Lemmas.Shared
import Verif.Props.Threads

/-!
# C92: several threads on one `Correlator`
-/

set_option linter.unusedSectionVars false
set_option linter.unusedSimpArgs false

namespace Sacf

open Arith Res

variable {F : Type} [Arith F]

/-! ## The invariant -/

/-- The correlator `x` is used by threads in `find_correlation` only; `c` were its contents at the start.  Thread `t` has made `used t`
steps. -/
structure World.Shared (a : AbsFn) (c : Corr F) (src : PyName → PyName → List (CorrIt F) → Option Exc → Prop) (x : Nat) (w : World F)
    (used : Nat → Nat) : Prop where
  valid : ∀ th ∈ w.threads, ∀ x, th.obj = some x → x < w.heap.length
  state : ∃ s W cut, w.heap[x]? = some s ∧ Holds c src W cut s ∧ ∀ t th, w.threads[t]? = some th → th.obj = some x →
    ∃ sel wt V e, th.task = .on (.find sel wt) ∧ src sel wt V e ∧ PcOK a sel wt c V e W.length cut th.pc ∧
      (th.pc.Ended ∨ th.pc.rank V.length + used t ≤ 8 * V.length + 14)

section
variable {a : AbsFn} {c : Corr F} {src : PyName → PyName → List (CorrIt F) → Option Exc → Prop} {x : Nat} {w w' : World F} {used : Nat → Nat}

/-- one more step of thread `u` -/
def bump (used : Nat → Nat) (u : Nat) (v : Nat) : Nat := used v + if v = u then 1 else 0

theorem bump_ne (used : Nat → Nat) {u v : Nat} (h : v ≠ u) : bump used u v = used v := by simp [bump, h]

theorem bump_self (used : Nat → Nat) (u : Nat) : bump used u u = used u + 1 := by simp [bump]

/-- threads on the correlator do not fail -/
theorem World.Shared.defined (h : w.Shared a c src x used) (hs : Src a c src) {u : Nat} {th : Thread F} (hth : w.threads[u]? = some th)
    (hx : th.obj = some x) : ∃ w', w.step a u = .ok w' := by
  obtain ⟨s, W, cut, h1, h2, h3⟩ := h.state
  obtain ⟨sel, wt, V, e, e1, e2, e3, _⟩ := h3 u th hth hx
  obtain ⟨pc', s', W', cut', f1, _⟩ := stepOK h2 hs e2 th.pc e3
  have hl : w.look th = some s := by simp [World.look, hx, h1]
  unfold World.step
  rw [hth]
  simp only [hl, e1, f1, Res.ok_bind]
  exact ⟨_, rfl⟩

theorem World.Shared.step (h : w.Shared a c src x used) (hs : Src a c src) {u : Nat} (hw : w.step a u = .ok w') :
    w'.Shared a c src x (bump used u) := by
  have hv' := (World.step_length h.valid hw).2
  refine ⟨hv', ?_⟩
  obtain ⟨s, W, cut, h1, h2, h3⟩ := h.state
  have hxl : x < w.heap.length := (List.getElem?_eq_some_iff.1 h1).1
  rcases World.step_cases h.valid hw with ⟨hn, rfl⟩ | ⟨th, pc, o, hth, hst, hc⟩
  · refine ⟨s, W, cut, h1, h2, fun t y hy hyx => ?_⟩
    have : t ≠ u := by rintro rfl; rw [hn] at hy; simp at hy
    rw [bump_ne _ this]
    exact h3 t y hy hyx
  have hlt : u < w.threads.length := (List.getElem?_eq_some_iff.1 hth).1
  by_cases hx : th.obj = some x
  · -- a thread on the correlator
    obtain ⟨sel, wt, V, e, e1, e2, e3, e4⟩ := h3 u th hth hx
    obtain ⟨pc', s', W', cut', f1, f2, f3, f4, f5, f6⟩ := stepOK h2 hs e2 th.pc e3
    have hl : w.look th = some s := by simp [World.look, hx, h1]
    rw [hl, e1, f1] at hst
    simp only [Res.ok.injEq, Prod.mk.injEq] at hst
    obtain ⟨rfl, rfl⟩ := hst
    rcases hc with ⟨y, c', hy, _, hc', rfl⟩ | ⟨hy, _⟩ | ⟨c', hy, _⟩
    · rw [hx] at hy
      simp only [Option.some.injEq] at hy hc'
      subst hy hc'
      refine ⟨s', W', cut', List.getElem?_set_self hxl, f2, fun t y hy hyx => ?_⟩
      by_cases htu : t = u
      · subst htu
        rw [List.getElem?_set_self hlt, Option.some.injEq] at hy
        subst hy
        refine ⟨sel, wt, V, e, e1, e2, f5, ?_⟩
        rw [bump_self]
        rcases f6 with f6 | f6
        · exact .inl f6
        · rcases e4 with e4 | e4
          · have : pc' = th.pc := by
              have := Task.step_ended a (.on (.find sel wt)) e4 (some s)
              rw [f1] at this
              simp only [Res.ok.injEq, Prod.mk.injEq] at this
              exact this.1
            exact .inl (by simp only [this]; exact e4)
          · exact .inr (by simp only; omega)
      · rw [bump_ne _ htu]
        rw [List.getElem?_set_ne (Ne.symm htu)] at hy
        obtain ⟨sel', wt', V', e', g1, g2, g3, g4⟩ := h3 t y hy hyx
        exact ⟨sel', wt', V', e', g1, g2, g3.mono f3 f4, g4⟩
    · rw [hx] at hy; simp at hy
    · rw [hx] at hy; simp at hy
  · -- another one
    have hheap : w'.heap[x]? = some s := by
      rcases hc with ⟨y, c', hy, _, _, rfl⟩ | ⟨hy, _, rfl⟩ | ⟨c', hy, _, rfl⟩
      · rw [List.getElem?_set_ne (by rintro rfl; exact hx hy)]; exact h1
      · exact h1
      · rw [List.getElem?_append_left hxl]; exact h1
    refine ⟨s, W, cut, hheap, h2, fun t y hy hyx => ?_⟩
    have key : ∀ z : Thread F, (z.obj = th.obj ∨ z.obj = some w.heap.length) → (w.threads.set u z)[t]? = some y → t ≠ u ∧ w.threads[t]? = some y := by
      intro z hz hy
      have : t ≠ u := by
        rintro rfl
        rw [List.getElem?_set_self hlt, Option.some.injEq] at hy
        subst hy
        rcases hz with hz | hz
        · exact hx (hz ▸ hyx)
        · rw [hz] at hyx
          simp only [Option.some.injEq] at hyx
          omega
      exact ⟨this, by rwa [List.getElem?_set_ne (Ne.symm this)] at hy⟩
    have : t ≠ u ∧ w.threads[t]? = some y := by
      rcases hc with ⟨z, c', hz, _, _, rfl⟩ | ⟨hz, _, rfl⟩ | ⟨c', hz, _, rfl⟩
      · exact key { th with pc := pc } (.inl rfl) hy
      · exact key { th with pc := pc } (.inl rfl) hy
      · exact key _ (.inr rfl) hy
    rw [bump_ne _ this.1]
    exact h3 t y this.2 hyx

theorem World.Shared.run (h : w.Shared a c src x used) (hs : Src a c src) {sched : List Nat} (hw : w.run a sched = .ok w') :
    w'.Shared a c src x (fun t => used t + sched.count t) := by
  induction sched generalizing w used with
  | nil =>
    simp only [World.run, Res.foldL, Res.ok.injEq] at hw
    subst hw
    simpa using h
  | cons u sched ih =>
    simp only [World.run, Res.foldL_cons, Res.bind_eq_ok] at hw
    obtain ⟨w1, h1, h2⟩ := hw
    have := ih (h.step hs h1) h2
    have e : (fun t => bump used u t + sched.count t) = fun t => used t + (u :: sched).count t := by
      funext t
      rw [List.count_cons, bump]
      by_cases ht : t = u
      · subst ht; simp; omega
      · have : (u == t) = false := by simp; exact fun e => ht e.symm
        simp [ht, this]
    rwa [e] at this

theorem shared_init {heap : List (Corr F)} {tasks : List (Task F × Option Nat)} (hv : ValidRefs heap tasks) (hs : Src a c src)
    (hc : heap[x]? = some c) (ht : ∀ (t : Nat) (task : Task F), tasks[t]? = some (task, some x) → ∃ sel wt V e, task = .on (.find sel wt) ∧ src sel wt V e) :
    (World.init heap tasks).Shared a c src x (fun _ => 0) := by
  refine ⟨init_valid hv, c, [], false, hc, ⟨by simp, (Corr.filled_nil hs.good).symm, by simp⟩, fun t th hth hx => ?_⟩
  cases hp : tasks[t]? with
  | none => simp [World.init, hp] at hth
  | some p =>
    obtain ⟨task, o⟩ := p
    rw [init_get hp, Option.some.injEq] at hth
    subst hth
    simp only at hx
    subst hx
    obtain ⟨sel, wt, V, e, h1, h2⟩ := ht t task hp
    exact ⟨sel, wt, V, e, h1, h2, trivial, .inr (by simp [Pc.rank])⟩

end

/-! ## What a call comes to alone -/

/-- what `find_correlation` leaves behind, seen from its course -/
def Comes (c : Corr F) (V : List (CorrIt F)) : Option Exc → Out (Corr F) Unit
  | some e => .exn e (c.filled V)
  | Option.none => if V = [] then .exn .unboundLocal c else .ok () (c.stored V)

/-- the courses of the calls with defined behaviour -/
def Runs (a : AbsFn) (c : Corr F) (sel wt : PyName) (V : List (CorrIt F)) (e : Option Exc) : Prop :=
  Course a sel wt c (.test c.maxLag c.lagRes c.minLag false 0) V e ∧ V.length ≤ c.numLagSteps ∧ findOn a sel wt c = Comes c V e

theorem runs_exists {a : AbsFn} {c : Corr F} (hg : c.Good) {sel wt : PyName} (hu : findOn a sel wt c ≠ .ub) :
    ∃ V e, Runs a c sel wt V e := by
  have hd := findOn_ne_diverge a sel wt c
  have h0 := Corr.filled_nil hg
  unfold findOn at hu hd
  obtain ⟨V, e, h1, h2, h3⟩ := course_exists (a := a) (sel := sel) (wt := wt) hg c.maxLag c.lagRes (c.tsBuf.length + 1) [] (Nat.zero_le _) c.minLag false
    (lagLoop (nameStep a sel wt) c.maxLag c.lagRes (c.tsBuf.length + 1) c c.minLag false 0) (by rw [h0]; rfl)
    (fun h => hu (by rw [h]; rfl)) (fun h => hd (by rw [h]; rfl))
  refine ⟨V, e, h1, h2, ?_⟩
  unfold findOn
  rw [h3]
  cases e with
  | some e => rfl
  | none =>
    simp only [List.nil_append, Out.ok_bind, Comes]
    by_cases hV : V = []
    · subst hV
      simp [h0]
    · have : V.length ≠ 0 := fun h => hV (List.eq_nil_of_length_eq_zero h)
      rw [if_neg this, if_neg hV, clean_filled hg V h2]
      rfl

theorem runs_src {a : AbsFn} {c : Corr F} (hg : c.Good) {P : PyName → PyName → Prop} :
    Src a c (fun sel wt V e => P sel wt ∧ Runs a c sel wt V e) := ⟨hg, fun h => h.2.1, fun h => h.2.2.1⟩

/-! ## Tables -/

theorem Corr.filled_good {c : Corr F} (h : c.Good) {V : List (CorrIt F)} (hV : V.length ≤ c.numLagSteps) : (c.filled V).Good :=
  ⟨h.wf, h.norm_len, by simp [Corr.filled, h.ts_len]; omega, blocks_length (filled_row h V hV)⟩

theorem good_rows {c : Corr F} (hg : c.Good) : c.correlations = .ok ((List.range c.ds.N).map fun j => rowOf c.corrBuf c.numLagSteps j) := by
  have := unflatten_ok (v := c.corrBuf) (N := c.ds.N) (M := c.numLagSteps) (by rw [hg.corr_len])
  unfold unflatten vecIdx at this
  exact this

theorem good_entry {c : Corr F} (hg : c.Good) (j n : Nat) (v : F) :
    c.EntryIs j n v ↔ j < c.ds.N ∧ (rowOf c.corrBuf c.numLagSteps j)[n]? = some v := by
  unfold Corr.EntryIs
  rw [good_rows hg]
  constructor
  · rintro ⟨rows, row, h1, h2, h3⟩
    simp only [Res.ok.injEq] at h1
    subst h1
    rw [List.getElem?_map, Option.map_eq_some_iff] at h2
    obtain ⟨j', h4, rfl⟩ := h2
    obtain ⟨h5, h6⟩ := List.getElem?_eq_some_iff.1 h4
    simp only [List.length_range, List.getElem_range] at h5 h6
    subst h6
    exact ⟨h5, h3⟩
  · rintro ⟨h1, h2⟩
    exact ⟨_, _, rfl, by rw [List.getElem?_map, List.getElem?_range h1]; rfl, h2⟩

/-- the written columns -/
theorem filled_entry {c : Corr F} (hg : c.Good) {V : List (CorrIt F)} (hV : V.length ≤ c.numLagSteps) {n : Nat} {it : CorrIt F}
    (hn : V[n]? = some it) (j : Nat) (v : F) : (c.filled V).EntryIs j n v ↔ j < c.ds.N ∧ it.correlation.getD j zero = v := by
  rw [good_entry (Corr.filled_good hg hV)]
  apply and_congr_right
  intro hj
  have hr : rowOf (c.filled V).corrBuf (c.filled V).numLagSteps j = _ := rowOf_blocks (filled_row hg V hV) hj
  have hlt := (List.getElem?_eq_some_iff.1 hn).1
  rw [hr, List.getElem?_append_left (by simpa using hlt), List.getElem?_map, hn]
  simp

theorem stored_entry {c : Corr F} (hg : c.Good) {V : List (CorrIt F)} {n : Nat} {it : CorrIt F}
    (hn : V[n]? = some it) (j : Nat) (v : F) : (c.stored V).EntryIs j n v ↔ j < c.ds.N ∧ it.correlation.getD j zero = v := by
  have := filled_entry (Corr.stored_good hg V) (V := V) (Nat.le_refl _) hn j v
  rw [Corr.stored_filled c rfl] at this
  exact this

/-! ## C92 -/

/-- `c'` is the correlator as the loop with these names leaves it: at its end, or when it was ended by an exception -/
def Leaves (a : AbsFn) (c : Corr F) (sel wt : PyName) (c' : Corr F) : Prop :=
  findOn a sel wt c = .ok () c' ∨ ∃ e, findOn a sel wt c = .exn e c'

/-- Every thread that uses the correlator `x` runs `find_correlation` on it, with names of its own; alone none of the calls has undefined
behaviour. -/
def LoopsOn (a : AbsFn) (c : Corr F) (x : Nat) (tasks : List (Task F × Option Nat)) : Prop :=
  ∀ (t : Nat) (task : Task F), tasks[t]? = some (task, some x) → ∃ sel wt, task = .on (.find sel wt) ∧ findOn a sel wt c ≠ .ub

/-- names used on the correlator -/
def NamesOn (x : Nat) (tasks : List (Task F × Option Nat)) (sel wt : PyName) : Prop :=
  ∃ t : Nat, tasks[t]? = some (.on (.find sel wt), some x)

theorem loops_shared {a : AbsFn} {c : Corr F} (hg : c.Good) {heap : List (Corr F)} {tasks : List (Task F × Option Nat)}
    (hv : ValidRefs heap tasks) {x : Nat} (hc : heap[x]? = some c) (hl : LoopsOn a c x tasks) :
    (World.init heap tasks).Shared a c (fun sel wt V e => NamesOn x tasks sel wt ∧ Runs a c sel wt V e) x (fun _ => 0) := by
  refine shared_init hv (runs_src hg) hc fun t task ht => ?_
  obtain ⟨sel, wt, rfl, hu⟩ := hl t task ht
  obtain ⟨V, e, hr⟩ := runs_exists hg hu
  exact ⟨sel, wt, V, e, rfl, ⟨t, ht⟩, hr⟩

/-- the thread in the present world -/
theorem run_thread {a : AbsFn} {heap : List (Corr F)} {tasks : List (Task F × Option Nat)} (hv : ValidRefs heap tasks) {sched : List Nat}
    {w : World F} (hw : (World.init heap tasks).run a sched = .ok w) {t x : Nat} {task : Task F} (ht : tasks[t]? = some (task, some x)) :
    ∃ pc, w.threads[t]? = some ⟨task, pc, some x⟩ := by
  have key : ∀ (sched : List Nat) (w0 w : World F), (∀ th ∈ w0.threads, ∀ x, th.obj = some x → x < w0.heap.length) → w0.run a sched = .ok w →
      ∀ pc, w0.threads[t]? = some ⟨task, pc, some x⟩ → ∃ pc, w.threads[t]? = some ⟨task, pc, some x⟩ := by
    intro sched
    induction sched with
    | nil =>
      intro w0 w _ h pc hpc
      simp only [World.run, Res.foldL, Res.ok.injEq] at h
      subst h
      exact ⟨pc, hpc⟩
    | cons u sched ih =>
      intro w0 w hv h pc hpc
      simp only [World.run, Res.foldL_cons, Res.bind_eq_ok] at h
      obtain ⟨w1, h1, h2⟩ := h
      have hlt : t < w0.threads.length := (List.getElem?_eq_some_iff.1 hpc).1
      have : ∃ pc, w1.threads[t]? = some ⟨task, pc, some x⟩ := by
        rcases World.step_cases hv h1 with ⟨_, rfl⟩ | ⟨th, pc', o, hth, _, hc⟩
        · exact ⟨pc, hpc⟩
        · by_cases htu : u = t
          · subst htu
            rw [hpc, Option.some.injEq] at hth
            subst hth
            rcases hc with ⟨y, c', hy, _, _, rfl⟩ | ⟨hy, _⟩ | ⟨c', hy, _⟩
            · exact ⟨pc', by simp [List.getElem?_set_self hlt]⟩
            · simp at hy
            · simp at hy
          · rcases hc with ⟨y, c', _, _, _, rfl⟩ | ⟨_, _, rfl⟩ | ⟨c', _, _, rfl⟩ <;>
              exact ⟨pc, by simp only [List.getElem?_set_ne htu]; exact hpc⟩
      obtain ⟨pc1, hpc1⟩ := this
      exact ih w1 w (World.step_length hv h1).2 h2 pc1 hpc1
  exact key sched _ w (init_valid hv) hw .start (init_get ht)

/-- **C92** (partial: which call a column comes from depends on the switching): threads that run `find_correlation` on one correlator, each
with names of its own, while other threads do anything to other objects.  A call that has returned would have returned alone.  The lags
are then, and remain, those it leaves behind alone, and each column of the table is a column left behind by one of the calls alone. -/
theorem C92_columns_partial (a : AbsFn) (d : DS F) (hd : Constructed d) (c : Corr F) (hr : Reached a d c) (heap : List (Corr F))
    (tasks : List (Task F × Option Nat)) (hv : ValidRefs heap tasks) (x : Nat) (hc : heap[x]? = some c) (hl : LoopsOn a c x tasks)
    (sched : List Nat) (w : World F) (hw : (World.init heap tasks).run a sched = .ok w) (t : Nat) (sel wt : PyName)
    (ht : tasks[t]? = some (.on (.find sel wt), some x)) (c' : Corr F) (hres : w.result t = some (.ok () c')) :
    ∃ s, findOn a sel wt c = .ok () s ∧ c'.lagTimeseries = s.lagTimeseries ∧
      ∀ n < c'.lagTimeseries.length, ∃ sel' wt' s', NamesOn x tasks sel' wt' ∧ Leaves a c sel' wt' s' ∧
        ∀ j v, c'.EntryIs j n v ↔ s'.EntryIs j n v := by
  have hg := (hr.good hd).1
  have hs : Src a c (fun sel wt V e => NamesOn x tasks sel wt ∧ Runs a c sel wt V e) := runs_src hg
  have hsh := (loops_shared hg hv hc hl).run hs hw
  obtain ⟨pc, hth⟩ := run_thread hv hw ht
  obtain ⟨s, W, cut, h1, h2, h3⟩ := hsh.state
  obtain ⟨sel0, wt0, V, e, e1, e2, e3, _⟩ := h3 t _ hth rfl
  simp only [Task.on.injEq, SCall.find.injEq] at e1
  obtain ⟨rfl, rfl⟩ := e1
  rw [result_read hth rfl (s := (pc, some s)) (by simp [World.view, hth, World.look, h1])] at hres
  cases pc <;> simp at hres
  subst hres
  obtain ⟨rfl, rfl, hne⟩ := e3
  have hrun := e2.2.2.2
  simp only [Comes, if_neg hne] at hrun
  have hform : s = c.stored W := h2.form
  subst hform
  obtain ⟨_, _, V0, hV0, hl0, _⟩ := h2.full rfl
  have hlen : V.length = W.length := by
    have := (course_compare (hs.course hV0) (hs.course e2)).1 rfl
    have := (course_compare (hs.course e2) (hs.course hV0)).1 rfl
    omega
  refine ⟨c.stored V, hrun, ?_, fun n hn => ?_⟩
  · show W.map CorrIt.k = V.map CorrIt.k
    apply List.ext_getElem?
    intro i
    rw [List.getElem?_map, List.getElem?_map]
    by_cases hi : i < W.length
    · have hW := List.getElem?_eq_getElem hi
      have hVi := List.getElem?_eq_getElem (by omega : i < V.length)
      obtain ⟨_, _, V1, e1', g1, g2⟩ := h2.each i _ hW
      rw [hW, hVi, Option.map_some, Option.map_some, (course_compare (hs.course g1) (hs.course e2)).2 i _ _ g2 hVi]
    · rw [List.getElem?_eq_none (by omega), List.getElem?_eq_none (by omega)]
  · have hn : n < W.length := by
      have : (c.stored W).lagTimeseries.length = W.length := by simp [Corr.lagTimeseries, Corr.stored]
      omega
    obtain ⟨sel1, wt1, V1, e1', ⟨g1, g2⟩, g3⟩ := h2.each n _ (List.getElem?_eq_getElem hn)
    have hL := g2.2.2
    have hne1 : V1 ≠ [] := by rintro rfl; simp at g3
    have hst := fun j v => stored_entry hg (List.getElem?_eq_getElem hn) j v
    cases e1' with
    | none =>
      simp only [Comes, if_neg hne1] at hL
      exact ⟨sel1, wt1, _, g1, .inl hL, fun j v => (hst j v).trans (stored_entry hg g3 j v).symm⟩
    | some e => exact ⟨sel1, wt1, _, g1, .inr ⟨e, hL⟩, fun j v => (hst j v).trans (filled_entry hg g2.2.1 g3 j v).symm⟩

/-- **C92**: a call that has been ended by an exception would have been ended by it alone. -/
theorem C92_exceptions (a : AbsFn) (d : DS F) (hd : Constructed d) (c : Corr F) (hr : Reached a d c) (heap : List (Corr F))
    (tasks : List (Task F × Option Nat)) (hv : ValidRefs heap tasks) (x : Nat) (hc : heap[x]? = some c) (hl : LoopsOn a c x tasks)
    (sched : List Nat) (w : World F) (hw : (World.init heap tasks).run a sched = .ok w) (t : Nat) (sel wt : PyName)
    (ht : tasks[t]? = some (.on (.find sel wt), some x)) (e : Exc) (c' : Corr F) (hres : w.result t = some (.exn e c')) :
    ∃ s, findOn a sel wt c = .exn e s := by
  have hg := (hr.good hd).1
  have hs : Src a c (fun sel wt V e => NamesOn x tasks sel wt ∧ Runs a c sel wt V e) := runs_src hg
  have hsh := (loops_shared hg hv hc hl).run hs hw
  obtain ⟨pc, hth⟩ := run_thread hv hw ht
  obtain ⟨s, W, cut, h1, h2, h3⟩ := hsh.state
  obtain ⟨sel0, wt0, V, e0, e1, e2, e3, _⟩ := h3 t _ hth rfl
  simp only [Task.on.injEq, SCall.find.injEq] at e1
  obtain ⟨rfl, rfl⟩ := e1
  rw [result_read hth rfl (s := (pc, some s)) (by simp [World.view, hth, World.look, h1])] at hres
  cases pc <;> simp at hres
  obtain ⟨rfl, rfl⟩ := hres
  have hrun := e2.2.2.2
  rcases e3.2 with rfl | ⟨rfl, rfl, rfl⟩
  · exact ⟨_, hrun⟩
  · exact ⟨_, by simpa [Comes] using hrun⟩

/-- **C92**: calls with the same names, however they are interleaved: whenever one of them has ended, it has come to what it comes to alone,
and the contents of the correlator are, and remain, those it leaves behind alone. -/
theorem C92_same_names (a : AbsFn) (d : DS F) (hd : Constructed d) (c : Corr F) (hr : Reached a d c) (heap : List (Corr F))
    (tasks : List (Task F × Option Nat)) (hv : ValidRefs heap tasks) (x : Nat) (hc : heap[x]? = some c) (sel wt : PyName)
    (hu : findOn a sel wt c ≠ .ub) (hall : ∀ (t : Nat) (task : Task F), tasks[t]? = some (task, some x) → task = .on (.find sel wt))
    (sched : List Nat) (w : World F) (hw : (World.init heap tasks).run a sched = .ok w) (t : Nat)
    (ht : tasks[t]? = some (.on (.find sel wt), some x)) (r : Out (Corr F) Unit) (hres : w.result t = some r) : r = findOn a sel wt c := by
  have hg := (hr.good hd).1
  obtain ⟨V, e, hR⟩ := runs_exists hg hu
  have hs : Src a c (fun sel' wt' V' e' => (sel' = sel ∧ wt' = wt) ∧ V' = V ∧ e' = e) :=
    ⟨hg, by rintro sel' wt' V' e' ⟨⟨rfl, rfl⟩, rfl, rfl⟩; exact hR.1, by rintro sel' wt' V' e' ⟨_, rfl, rfl⟩; exact hR.2.1⟩
  have hsh := (shared_init hv hs hc fun t task h => ⟨sel, wt, V, e, hall t task h, ⟨rfl, rfl⟩, rfl, rfl⟩).run hs hw
  obtain ⟨pc, hth⟩ := run_thread hv hw ht
  obtain ⟨s, W, cut, h1, h2, h3⟩ := hsh.state
  obtain ⟨sel0, wt0, V0, e0, _, ⟨⟨rfl, rfl⟩, rfl, rfl⟩, e3, _⟩ := h3 t _ hth rfl
  rw [result_read hth rfl (s := (pc, some s)) (by simp [World.view, hth, World.look, h1])] at hres
  have hrun := hR.2.2
  have hpre : ∀ (i : Nat) (it : CorrIt F), W[i]? = some it → V0[i]? = some it := by
    intro i it hi
    obtain ⟨_, _, V', e', ⟨_, rfl, _⟩, h⟩ := h2.each i it hi
    exact h
  have hle : W.length ≤ V0.length := by
    by_contra hn
    have := hpre V0.length _ (List.getElem?_eq_getElem (by omega))
    simp at this
  have hWV : V0.length ≤ W.length → W = V0 := by
    intro h
    apply List.ext_getElem?
    intro i
    by_cases hi : i < W.length
    · rw [hpre i _ (List.getElem?_eq_getElem hi), List.getElem?_eq_getElem hi]
    · rw [List.getElem?_eq_none (by omega), List.getElem?_eq_none (by omega)]
  cases pc <;> simp at hres
  · subst hres
    obtain ⟨rfl, rfl, hne⟩ := e3
    obtain ⟨_, _, V', ⟨_, rfl, _⟩, hl, _⟩ := h2.full rfl
    have := hWV (by omega)
    subst this
    rw [hrun, h2.form]
    simp [Comes, hne]
  · subst hres
    rename_i y
    obtain ⟨hl, he⟩ := e3
    have := hWV hl
    subst this
    rcases he with rfl | ⟨rfl, rfl, rfl⟩
    · cases cut with
      | true => obtain ⟨_, _, _, ⟨_, _, h⟩, _⟩ := h2.full rfl; simp at h
      | false => rw [hrun, h2.form]; rfl
    · cases cut with
      | true =>
        obtain ⟨_, _, V', ⟨_, rfl, _⟩, _, hne⟩ := h2.full rfl
        exact absurd rfl hne
      | false => rw [hrun, h2.form]; simp [Comes, Corr.filled_nil hg]

/-- **C92**: no call waits for another one: it has ended after `8 n + 14` of its own steps, with `n` the number of slots of the
correlator at the start. -/
theorem C92_ends (a : AbsFn) (d : DS F) (hd : Constructed d) (c : Corr F) (hr : Reached a d c) (heap : List (Corr F))
    (tasks : List (Task F × Option Nat)) (hv : ValidRefs heap tasks) (x : Nat) (hc : heap[x]? = some c) (hl : LoopsOn a c x tasks)
    (sched : List Nat) (w : World F) (hw : (World.init heap tasks).run a sched = .ok w) (t : Nat) (sel wt : PyName)
    (ht : tasks[t]? = some (.on (.find sel wt), some x)) (hn : 8 * c.lagTimeseries.length + 14 ≤ sched.count t) : (w.result t).isSome := by
  have hg := (hr.good hd).1
  have hs : Src a c (fun sel wt V e => NamesOn x tasks sel wt ∧ Runs a c sel wt V e) := runs_src hg
  have hsh := (loops_shared hg hv hc hl).run hs hw
  obtain ⟨pc, hth⟩ := run_thread hv hw ht
  obtain ⟨s, W, cut, h1, h2, h3⟩ := hsh.state
  obtain ⟨sel0, wt0, V, e0, _, e2, e3, e4⟩ := h3 t _ hth rfl
  rw [result_read hth rfl (s := (pc, some s)) (by simp [World.view, hth, World.look, h1])]
  have hlen : c.lagTimeseries.length = c.numLagSteps := hg.ts_len
  have hV := e2.2.2.1
  rcases e4 with e4 | e4
  · cases pc <;> first | rfl | exact e4.elim | exact e3.elim
  · simp only [Nat.zero_add] at e4
    have h0 : pc.rank V.length = 0 := by omega
    cases pc with
    | find f => cases f <;> simp [Pc.rank] at h0
    | start => simp [Pc.rank] at h0
    | finished => rfl
    | raised _ => rfl
    | _ => exact e3.elim

/-- **C92**: threads that run `find_correlation` on one correlator, each with names of its own, have undefined behaviour in no schedule,
if none of the calls has it alone. -/
theorem C92_defined (a : AbsFn) (d : DS F) (hd : Constructed d) (c : Corr F) (hr : Reached a d c) (names : List (PyName × PyName))
    (hu : ∀ p ∈ names, findOn a p.1 p.2 c ≠ .ub) (sched : List Nat) :
    ∃ w, (World.init [c] (names.map fun p => (.on (.find p.1 p.2), some 0))).run a sched = .ok w := by
  have hg := (hr.good hd).1
  have hget : ∀ (t : Nat) (task : Task F) (o : Option Nat),
      (names.map fun p => ((.on (.find p.1 p.2), some 0) : Task F × Option Nat))[t]? = some (task, o) →
      o = some 0 ∧ ∃ sel wt, task = .on (.find sel wt) ∧ findOn a sel wt c ≠ .ub := by
    intro t task o h
    rw [List.getElem?_map, Option.map_eq_some_iff] at h
    obtain ⟨p, h1, h2⟩ := h
    simp only [Prod.mk.injEq] at h2
    exact ⟨h2.2.symm, p.1, p.2, h2.1.symm, hu p (List.mem_of_getElem? h1)⟩
  have hv : ValidRefs [c] (names.map fun p => ((.on (.find p.1 p.2), some 0) : Task F × Option Nat)) := by
    intro p hp x hx
    obtain ⟨t, ht⟩ := List.mem_iff_getElem?.1 hp
    have := (hget t p.1 p.2 ht).1
    rw [this] at hx
    simp only [Option.some.injEq] at hx
    subst hx
    simp
  have hl : LoopsOn a c 0 (names.map fun p => ((.on (.find p.1 p.2), some 0) : Task F × Option Nat)) := fun t task h => (hget t task _ h).2
  have hs : Src a c (fun sel wt V e => NamesOn 0 (names.map fun p => ((.on (.find p.1 p.2), some 0) : Task F × Option Nat)) sel wt ∧
    Runs a c sel wt V e) := runs_src hg
  have h0 := loops_shared hg hv (x := 0) rfl hl
  by_contra hno
  obtain ⟨pre, t, post, w1, _, h1, h2⟩ := World.run_fails
    (r := (World.init [c] (names.map fun p => (.on (.find p.1 p.2), some 0))).run a sched) (fun w' h => hno ⟨w', h⟩) rfl
  have hsh := h0.run hs h1
  cases hp : (names.map fun p => ((.on (.find p.1 p.2), some 0) : Task F × Option Nat))[t]? with
  | none =>
    have hlen := World.run_length (init_valid hv) h1
    have : w1.threads[t]? = Option.none := by
      rw [List.getElem?_eq_none_iff, hlen]
      simpa [World.init] using hp
    simp only [World.step, this] at h2
    exact hno ⟨_, h2.symm⟩
  | some p =>
    obtain ⟨task, o⟩ := p
    obtain ⟨rfl, _⟩ := hget t task o hp
    obtain ⟨pc, hth⟩ := run_thread hv h1 hp
    obtain ⟨w', hw'⟩ := hsh.defined hs hth rfl
    rw [hw'] at h2
    exact hno ⟨_, h2.symm⟩

/-! ### any calls -/

theorem next_good {α : Type} {x : Out (Corr F) α} {k : α → Pc F} {c : Corr F} {pc : Pc F} {o : Option (Corr F)} (hg : c.Good)
    (hx : Out.All (fun s => c.Good → s.Good) x) (h : x.next k = .ok (pc, o)) : ∀ s ∈ o, s.Good := by
  cases x with
  | ok y s =>
    simp only [Out.next, Res.ok.injEq, Prod.mk.injEq] at h
    intro s' hs'
    rw [← h.2] at hs'
    simp only [Option.mem_def, Option.some.injEq] at hs'
    subst hs'
    exact hx hg
  | exn e s =>
    simp only [Out.next, Res.ok.injEq, Prod.mk.injEq] at h
    intro s' hs'
    rw [← h.2] at hs'
    simp only [Option.mem_def, Option.some.injEq] at hs'
    subst hs'
    exact hx hg
  | ub => simp [Out.next] at h
  | diverge => simp [Out.next] at h

theorem findStep_good {a : AbsFn} {sel wt : PyName} (f : FindPc F) (c : Corr F) :
    Out.All (fun s => c.Good → s.Good) (f.step a sel wt c) := by
  have hp : ∀ {α : Type} (x : Res α), Out.All (fun s : Corr F => c.Good → s.Good) (Out.pure c x) := by
    intro α x
    cases x <;> simp [Out.pure, Out.All]
  cases f with
  | readMin => exact id
  | readMax lo => exact id
  | readRes lo hi => exact id
  | test hi res k p i =>
    simp only [FindPc.step]
    generalize (if eq k zero then true else p) = q
    cases le k hi <;> cases (lt zero k && !q) <;> by_cases h0 : i = 0 <;> simp [h0, Out.All]
  | create g => exact id
  | select g it => exact hp _
  | delta g it => exact hp _
  | weigh g it => exact hp _
  | sum g it => exact hp _
  | put g it =>
    simp only [FindPc.step]
    cases h : Corr.addCorrelationData c it g.i with
    | ok s => exact (addCorrelationData_same h).good
    | exn e => exact id
    | ub => trivial
    | diverge => trivial
  | clean n =>
    simp only [FindPc.step]
    cases h : c.cleanCorrelationData n with
    | ok s => exact fun hg => (clean_good hg h).1
    | exn e => exact id
    | ub => trivial
    | diverge => trivial
  | finished => exact id

/-- calls a thread may make: not `clearCorrelation`, and `autocorrelation` on objects that have been constructed -/
def Task.Usual : Task F → Prop
  | .ac j => Constructed j.ds
  | .on m => m ≠ .clear

theorem setArg_good {set : Corr F → F → Corr F} (hset : ∀ c v, Corr.Good c → (set c v).Good) (v : PyVal F) (c : Corr F) :
    Out.All (fun s => c.Good → s.Good) (Out.step c (setArg set v c)) := by
  unfold setArg
  split
  · exact id
  · split
    · exact hset c _
    · exact id

theorem taskStep_good {a : AbsFn} {task : Task F} (ht : task.Usual) {pc pc' : Pc F} {c o : Option (Corr F)} (hc : ∀ s ∈ c, s.Good)
    (h : task.step a pc c = .ok (pc', o)) : ∀ s ∈ o, s.Good := by
  have hset : ∀ (set : Corr F → F → Corr F), (∀ c v, set c v = { c with maxLag := v } ∨ set c v = { c with minLag := v } ∨
      set c v = { c with lagRes := v } ∨ set c v = { c with alpha := v }) → ∀ c v, Corr.Good c → (set c v).Good := by
    intro set hs c v hg
    rcases hs c v with h | h | h | h <;> rw [h] <;> exact ⟨hg.1, hg.2, hg.3, hg.4⟩
  have hp : ∀ {α : Type} (c : Corr F) (x : Res α), Out.All (fun s : Corr F => c.Good → s.Good) (Out.pure c x) := by
    intro α c x
    cases x <;> simp [Out.pure, Out.All]
  have hk : ∀ {α : Type} {c : Corr F} {Q : Corr F → Prop} {x : Out (Corr F) α}, Out.All (fun s => (c.Good → s.Good) ∧ Q s) x →
      Out.All (fun s => c.Good → s.Good) x := by
    intro α c Q x h
    cases x <;> simp_all [Out.All]
  have same : ∀ {q : Pc F} {s : Corr F}, s.Good → (Res.ok (q, some s) : Res (Pc F × Option (Corr F))) = .ok (pc', o) → ∀ s ∈ o, s.Good := by
    intro q s hg h s' hs'
    simp only [Res.ok.injEq, Prod.mk.injEq] at h
    rw [← h.2] at hs'
    simp only [Option.mem_def, Option.some.injEq] at hs'
    exact hs' ▸ hg
  cases c with
  | none =>
    cases task with
    | on m =>
      have : (Task.on m).step a pc Option.none = .ok (pc, Option.none) := by
        cases m <;> cases pc <;> first | rfl | (rename_i f; cases f <;> rfl)
      rw [this] at h
      simp only [Res.ok.injEq, Prod.mk.injEq] at h
      rw [← h.2]
      simp
    | ac j =>
      cases pc with
      | start =>
        simp only [Task.step] at h
        cases hn : Corr.new j.ds with
        | ok c =>
          rw [hn] at h
          obtain ⟨n, _, _, hg⟩ := corrNew_good (show j.ds.WF from Constructed.wf ht) hn
          exact same hg h
        | exn e =>
          rw [hn] at h
          simp only [Res.ok.injEq, Prod.mk.injEq] at h
          rw [← h.2]
          simp
        | ub => rw [hn] at h; simp at h
        | diverge => rw [hn] at h; simp at h
      | _ =>
        simp only [Task.step, Res.ok.injEq, Prod.mk.injEq] at h
        rw [← h.2]
        simp
  | some c =>
    have hg : c.Good := hc c rfl
    cases task with
    | on m =>
      cases m with
      | find sel wt =>
        cases pc with
        | find f =>
          by_cases hf : f = .finished
          · subst hf; exact same hg h
          · rw [finds_on a sel wt f c hf] at h
            exact next_good hg (findStep_good f c) h
        | _ => exact same hg h
      | clear => exact absurd rfl ht
      | _ =>
        cases pc with
        | start => exact next_good hg (hk (scall_good ht)) h
        | _ => exact same hg h
    | ac j =>
      cases pc with
      | start => exact same hg h
      | setMax => exact next_good hg (setArg_good (hset _ fun _ _ => .inl rfl) _ _) h
      | setMin => exact next_good hg (setArg_good (hset _ fun _ _ => .inr (.inl rfl)) _ _) h
      | setRes => exact next_good hg (setArg_good (hset _ fun _ _ => .inr (.inr (.inl rfl))) _ _) h
      | setAlpha => exact next_good hg (setArg_good (hset _ fun _ _ => .inr (.inr (.inr rfl))) _ _) h
      | branch =>
        simp only [Task.step] at h
        split at h
        · exact next_good hg (hk (calculateOn_kept a c)) h
        · exact same hg h
      | find f =>
        by_cases hf : f = .finished
        · subst hf; exact same hg h
        · rw [finds_ac a j f c hf] at h
          exact next_good hg (findStep_good f c) h
      | readLags => exact same hg h
      | readLen lags => exact next_good hg (hp _ _) h
      | readCorr lags big => exact next_good hg (hp _ _) h
      | returned _ _ => exact same hg h
      | finished => exact same hg h
      | raised _ => exact same hg h

/-- **C92**: any threads that make any calls, except `clearCorrelation`, on any objects, shared or not, in any interleaving: as long as there has
been no undefined behaviour, the buffers of every correlator are consistent.  `correlations()` stays in bounds and has one row for each
dataset, as long as `lag_timeseries()`. -/
theorem C92_consistent (a : AbsFn) (heap : List (Corr F)) (hh : ∀ c ∈ heap, ∃ d, Constructed d ∧ Reached a d c)
    (tasks : List (Task F × Option Nat)) (hv : ValidRefs heap tasks) (ht : ∀ p ∈ tasks, p.1.Usual) (sched : List Nat) (w : World F)
    (hw : (World.init heap tasks).run a sched = .ok w) (c : Corr F) (hc : c ∈ w.heap) :
    ∃ rows, c.correlations = .ok rows ∧ rows.length = c.ds.N ∧ ∀ row ∈ rows, row.length = c.lagTimeseries.length := by
  have key : ∀ (sched : List Nat) (w0 w : World F), (∀ th ∈ w0.threads, ∀ x, th.obj = some x → x < w0.heap.length) →
      (∀ th ∈ w0.threads, th.task.Usual) → (∀ c ∈ w0.heap, c.Good) → w0.run a sched = .ok w → ∀ c ∈ w.heap, c.Good := by
    intro sched
    induction sched with
    | nil =>
      intro w0 w _ _ hg h
      simp only [World.run, Res.foldL, Res.ok.injEq] at h
      subst h
      exact hg
    | cons u sched ih =>
      intro w0 w hv hu hg h
      simp only [World.run, Res.foldL_cons, Res.bind_eq_ok] at h
      obtain ⟨w1, h1, h2⟩ := h
      refine ih w1 w (World.step_length hv h1).2 ?_ ?_ h2
      · rcases World.step_cases hv h1 with ⟨_, rfl⟩ | ⟨th, pc, o, hth, _, hc⟩
        · exact hu
        · have hm := hu th (List.mem_of_getElem? hth)
          rcases hc with ⟨x, c', _, _, _, rfl⟩ | ⟨_, _, rfl⟩ | ⟨c', _, _, rfl⟩ <;> intro y hy <;>
            rcases List.mem_or_eq_of_mem_set hy with hy | rfl <;> first | exact hu y hy | exact hm
      · rcases World.step_cases hv h1 with ⟨_, rfl⟩ | ⟨th, pc, o, hth, hst, hc⟩
        · exact hg
        · have hgood := taskStep_good (hu th (List.mem_of_getElem? hth)) (fun s hs => by
            unfold World.look at hs
            cases ho : th.obj with
            | none => rw [ho] at hs; simp at hs
            | some x =>
              rw [ho] at hs
              exact hg s (List.mem_of_getElem? hs)) hst
          rcases hc with ⟨x, c', _, _, rfl, rfl⟩ | ⟨_, _, rfl⟩ | ⟨c', _, rfl, rfl⟩
          · intro y hy
            rcases List.mem_or_eq_of_mem_set hy with hy | rfl
            · exact hg y hy
            · exact hgood _ rfl
          · exact hg
          · intro y hy
            simp only [List.mem_append, List.mem_singleton] at hy
            rcases hy with hy | rfl
            · exact hg y hy
            · exact hgood _ rfl
  have hg := key sched _ w (init_valid hv) (fun th hth => by
    simp only [World.init, List.mem_map] at hth
    obtain ⟨p, hp, rfl⟩ := hth
    exact ht p hp) (fun c hc => by
    obtain ⟨d, hd, hr⟩ := hh c hc
    exact (hr.good hd).1) hw c hc
  obtain ⟨rows, h1, h2, h3⟩ := correlations_good hg
  exact ⟨rows, h1, h2, fun row hr => (h3 row hr).trans hg.ts_len.symm⟩

end Sacf
