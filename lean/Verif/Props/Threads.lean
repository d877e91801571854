import Verif.Lemmas.Threads

/-!
# C91: `autocorrelation` in several threads

Threads that call `autocorrelation` do not disturb each other, whatever the objects they share and however the interpreter switches
between them.
-/

set_option linter.unusedSectionVars false
set_option linter.unusedSimpArgs false

namespace Sacf

open Arith Res

variable {F : Type} [Arith F]

/-- what the call comes to with nothing else going on -/
def Job.alone (a : AbsFn) (j : Job F) : Res (PyResult F) :=
  anyAutocorrelation a j.ds j.minLag j.maxLag j.lagRes j.alpha j.sel j.wt j.ret

/-- the references of the tasks are to existing correlators -/
def ValidRefs (heap : List (Corr F)) (tasks : List (Task F × Option Nat)) : Prop :=
  ∀ p ∈ tasks, ∀ x, p.2 = some x → x < heap.length

/-! ## The steps of a call together are the call -/

theorem lands_final {a : AbsFn} {task : Task F} {s s' : Pc F × Option (Corr F)} {r : Res (Pc F × Option (Corr F))} {k : Nat}
    (h : Lands a task s r) (hk : task.steps a k s = .ok s') (he : s'.1.Ended) : r = .ok s' := by
  obtain ⟨n, hn, hr⟩ := h
  have h1 : task.steps a (k + n) s = .ok s' := by rw [Task.steps_add, hk, Res.ok_bind, Task.steps_ended a task he]
  rw [Nat.add_comm, Task.steps_add, hn] at h1
  cases r with
  | ok s1 => rwa [Res.ok_bind, Task.steps_ended a task (hr s1 rfl)] at h1
  | _ => exact h1

theorem lands_enough {a : AbsFn} {task : Task F} {s : Pc F × Option (Corr F)} {r : Res (Pc F × Option (Corr F))}
    (h : Lands a task s r) : ∃ n, ∀ k, n ≤ k → task.steps a k s = r := by
  obtain ⟨n, hn, he⟩ := h
  refine ⟨n, fun k hk => ?_⟩
  obtain ⟨m, rfl⟩ := Nat.exists_eq_add_of_le hk
  rw [Task.steps_add, hn]
  cases r with
  | ok s' => rw [Res.ok_bind, Task.steps_ended a task (he s' rfl)]
  | exn e => rfl
  | ub => rfl
  | diverge => rfl

/-- the last state of the thread -/
def Job.final (a : AbsFn) (j : Job F) : Res (Pc F × Option (Corr F)) :=
  match Corr.new j.ds with
  | .ok c => (j.whole a c).next fun p => .returned p.1 p.2
  | .exn e => .ok (.raised e, Option.none)
  | .ub => .ub
  | .diverge => .diverge

theorem lands_start (a : AbsFn) (j : Job F) : Lands a (.ac j) (.start, Option.none) (j.final a) := by
  unfold Job.final
  cases h : Corr.new j.ds with
  | ok c => exact lands_step (s' := (.setMax, some c)) (by simp only [Task.step, h]) (lands_ac a j c)
  | exn e => exact lands_step (s' := (.raised e, Option.none)) (by simp only [Task.step, h]) (lands_ended trivial)
  | ub => exact ⟨1, by simp [Task.steps, Task.step, h], by simp⟩
  | diverge => exact ⟨1, by simp [Task.steps, Task.step, h], by simp⟩

/-- what the caller sees -/
def Job.read (j : Job F) (s : Pc F × Option (Corr F)) : Option (Res (PyResult F)) :=
  match s.1 with
  | .returned lags out => if j.ret.truthy then s.2.map fun c => .ok (.triple lags out c) else some (.ok (.pair lags out))
  | .raised e => some (.exn e)
  | _ => Option.none

/-- the last state shows the outcome of the whole call -/
def Job.Shows (j : Job F) (r : Res (PyResult F)) : Res (Pc F × Option (Corr F)) → Prop
  | .ok s => j.read s = some r
  | .ub => r = .ub
  | .diverge => r = .diverge
  | .exn _ => False

theorem shows_step {j : Job F} {α : Type} {k : α → Pc F} {c : Corr F} {x : Res (Corr F)} {f : Corr F → Out (Corr F) α}
    {g : Corr F → Res (PyResult F)} (h : ∀ c', x = .ok c' → j.Shows (g c') ((f c').next k)) :
    j.Shows (x.bind g) (((Out.step c x).bind fun _ c => f c).next k) := by
  cases x with
  | ok c' => exact h c' rfl
  | exn e => simp [Out.step, Out.bind, Out.next, Job.Shows, Job.read, Res.bind]
  | ub => rfl
  | diverge => rfl

theorem shows_run {j : Job F} {α : Type} {k : α → Pc F} {x : Out (Corr F) Unit} {f : Corr F → Out (Corr F) α}
    {g : Corr F → Res (PyResult F)} (h : ∀ c', j.Shows (g c') ((f c').next k)) :
    j.Shows (x.res.bind g) ((x.bind fun _ c => f c).next k) := by
  cases x with
  | ok u c' => exact h c'
  | exn e c' => simp [Out.res, Out.bind, Out.next, Job.Shows, Job.read, Res.bind]
  | ub => rfl
  | diverge => rfl

theorem shows_pure {j : Job F} {α β : Type} {k : α → Pc F} {c : Corr F} {x : Res β} {f : β → Out (Corr F) α}
    {g : β → Res (PyResult F)} (h : ∀ y, j.Shows (g y) ((f y).next k)) :
    j.Shows (x.bind g) (((Out.pure c x).bind fun y _ => f y).next k) := by
  cases x with
  | ok y => exact h y
  | exn e => simp [Out.pure, Out.bind, Out.next, Job.Shows, Job.read, Res.bind]
  | ub => rfl
  | diverge => rfl

theorem Out.pure_bind_same {σ α β : Type} (s : σ) (x : Res α) (f : α → σ → Out σ β) :
    (Out.pure s x).bind f = (Out.pure s x).bind fun y _ => f y s := by
  cases x <;> rfl

theorem final_shows (a : AbsFn) (j : Job F) : j.Shows (j.alone a) (j.final a) := by
  unfold Job.final Job.alone anyAutocorrelation
  cases h : Corr.new j.ds with
  | ok c =>
    simp only [Res.ok_bind, pySetUpCorrelation, Res.bind_assoc, Job.whole]
    refine shows_step fun c _ => shows_step fun c _ => shows_step fun c _ => shows_step fun c _ => shows_run fun c => ?_
    rw [Out.pure_bind_same]
    refine shows_pure fun rows => ?_
    rw [Out.pure_bind_same]
    refine shows_pure fun out => ?_
    simp only [Out.next, Job.Shows, Job.read]
    split <;> simp_all
  | exn e => rfl
  | ub => rfl
  | diverge => rfl

/-! ## Threads -/

theorem outcome_read {w : World F} {t : Nat} {th : Thread F} {j : Job F} {s : Pc F × Option (Corr F)} (hth : w.threads[t]? = some th)
    (hj : th.task = .ac j) (hv : w.view t = some s) : w.outcome t = j.read s := by
  obtain ⟨task, pc, obj⟩ := th
  simp only at hj
  subst hj
  simp only [World.view, hth, Option.map_some, Option.some.injEq, World.look] at hv
  subst hv
  unfold World.outcome Job.read
  rw [hth]
  cases pc <;> rfl

theorem result_read {w : World F} {t : Nat} {th : Thread F} {m : SCall F} {s : Pc F × Option (Corr F)} (hth : w.threads[t]? = some th)
    (hj : th.task = .on m) (hv : w.view t = some s) : w.result t = match s.1 with
      | .finished => s.2.map fun c => .ok () c
      | .raised e => s.2.map fun c => .exn e c
      | _ => Option.none := by
  obtain ⟨task, pc, obj⟩ := th
  simp only at hj
  subst hj
  simp only [World.view, hth, Option.map_some, Option.some.injEq, World.look] at hv
  subst hv
  unfold World.result
  rw [hth]
  cases pc <;> rfl

theorem read_ended {j : Job F} {s : Pc F × Option (Corr F)} {r : Res (PyResult F)} (h : j.read s = some r) : s.1.Ended := by
  obtain ⟨pc, c⟩ := s
  cases pc <;> simp [Job.read] at h <;> trivial

theorem init_get {heap : List (Corr F)} {tasks : List (Task F × Option Nat)} {t : Nat} {task : Task F} {x : Option Nat}
    (h : tasks[t]? = some (task, x)) : (World.init heap tasks).threads[t]? = some ⟨task, .start, x⟩ := by
  simp [World.init, h]

theorem init_valid {heap : List (Corr F)} {tasks : List (Task F × Option Nat)} (h : ValidRefs heap tasks) :
    ∀ th ∈ (World.init heap tasks).threads, ∀ x, th.obj = some x → x < (World.init heap tasks).heap.length := by
  intro th hth x hx
  simp only [World.init, List.mem_map] at hth
  obtain ⟨p, hp, rfl⟩ := hth
  exact h p hp x hx

theorem init_alone {heap : List (Corr F)} {tasks : List (Task F × Option Nat)} {t : Nat} {task : Task F} {o : Option Nat}
    (hv : ValidRefs heap tasks) (h : tasks[t]? = some (task, o))
    (hown : ∀ x, o = some x → ∀ u task', u ≠ t → tasks[u]? ≠ some (task', some x)) : (World.init heap tasks).Alone t := by
  refine ⟨init_valid hv, fun u th th' x hu hth hth' hx hx' => ?_⟩
  rw [init_get h, Option.some.injEq] at hth
  subst hth
  cases hp : tasks[u]? with
  | none => simp [World.init, hp] at hth'
  | some p =>
    obtain ⟨task', o'⟩ := p
    rw [init_get hp, Option.some.injEq] at hth'
    subst hth'
    simp only at hx hx'
    exact hown x hx u task' hu (by rw [hp, hx'])

/-- **C91**: any number of threads, any of which may call `autocorrelation` with any arguments on any objects, shared or not, or work on
`Correlator`s that exist already; any switching.  Whenever a call of `autocorrelation` has ended, its outcome, result or exception, is the
one it has with nothing else going on; with `return_correlator` also the contents of the returned correlator, now and later. -/
theorem C91_outcome (a : AbsFn) (heap : List (Corr F)) (tasks : List (Task F × Option Nat)) (hv : ValidRefs heap tasks) (sched : List Nat)
    (w : World F) (hw : (World.init heap tasks).run a sched = .ok w) (t : Nat) (j : Job F) (ht : tasks[t]? = some (.ac j, Option.none))
    (r : Res (PyResult F)) (hr : w.outcome t = some r) : r = j.alone a := by
  obtain ⟨_, th, s, h1, h2, h3, h4⟩ := (init_alone hv ht (by simp)).run (init_get ht) hw
  rw [outcome_read h1 h2 h4] at hr
  have hf := lands_final (lands_start a j) h3 (read_ended hr)
  have hs := final_shows a j
  rw [hf] at hs
  simp only [Job.Shows] at hs
  rw [hr, Option.some.injEq] at hs
  exact hs

/-- **C91**: no call waits for another one: there is a number of its own steps, which depends on the call only, after which it has ended,
however the other threads are scheduled. -/
theorem C91_ends (a : AbsFn) (j : Job F) : ∃ n, ∀ (heap : List (Corr F)) (tasks : List (Task F × Option Nat)), ValidRefs heap tasks →
    ∀ (sched : List Nat) (w : World F), (World.init heap tasks).run a sched = .ok w → ∀ t, tasks[t]? = some (.ac j, Option.none) →
    n ≤ sched.count t → w.outcome t = some (j.alone a) := by
  obtain ⟨n, hn⟩ := lands_enough (lands_start a j)
  refine ⟨n, fun heap tasks hv sched w hw t ht hc => ?_⟩
  obtain ⟨_, th, s, h1, h2, h3, h4⟩ := (init_alone hv ht (by simp)).run (init_get ht) hw
  have hs := final_shows a j
  rw [← hn _ hc] at hs
  have h3' : (Task.ac j).steps a (sched.count t) (.start, Option.none) = .ok s := h3
  rw [h3'] at hs
  rw [outcome_read h1 h2 h4]
  exact hs

theorem World.step_length {a : AbsFn} {w w' : World F} {t : Nat}
    (hv : ∀ th ∈ w.threads, ∀ x, th.obj = some x → x < w.heap.length) (h : w.step a t = .ok w') :
    w'.threads.length = w.threads.length ∧ ∀ th ∈ w'.threads, ∀ x, th.obj = some x → x < w'.heap.length := by
  have hal : w.Alone w.threads.length := ⟨hv, by intro u th th' x _ hth; simp at hth⟩
  rcases World.step_cases hv h with ⟨_, rfl⟩ | ⟨th, pc, o, hth, _, hc⟩
  · exact ⟨rfl, hv⟩
  · have hne : t ≠ w.threads.length := by have := (List.getElem?_eq_some_iff.1 hth).1; omega
    refine ⟨?_, (hal.other hne h).1.valid⟩
    rcases hc with ⟨x, c', _, _, _, rfl⟩ | ⟨_, _, rfl⟩ | ⟨c', _, _, rfl⟩ <;> simp

theorem World.run_length {a : AbsFn} {w w' : World F} {sched : List Nat}
    (hv : ∀ th ∈ w.threads, ∀ x, th.obj = some x → x < w.heap.length) (h : w.run a sched = .ok w') :
    w'.threads.length = w.threads.length := by
  induction sched generalizing w with
  | nil => simp only [World.run, Res.foldL, Res.ok.injEq] at h; rw [h]
  | cons u sched ih =>
    simp only [World.run, Res.foldL_cons, Res.bind_eq_ok] at h
    obtain ⟨w1, h1, h2⟩ := h
    obtain ⟨e1, e2⟩ := World.step_length hv h1
    rw [ih e2 h2, e1]

/-- a step that fails shows what the thread comes to -/
theorem World.Alone.fails {a : AbsFn} {w w1 : World F} {t : Nat} (hal : w.Alone t) {th : Thread F} (hth : w.threads[t]? = some th)
    {R : Res (Pc F × Option (Corr F))} (hR : Lands a th.task (th.pc, w.look th) R) {pre : List Nat} (h : w.run a pre = .ok w1)
    {r : Res (World F)} (hr : ∀ w', r ≠ .ok w') (h2 : w1.step a t = r) :
    (∃ e, r = .exn e ∧ R = .exn e) ∨ (r = .ub ∧ R = .ub) ∨ (r = .diverge ∧ R = .diverge) := by
  obtain ⟨_, th1, s, e1, e2, e3, e4⟩ := hal.run hth h
  simp only [World.view, e1, Option.map_some, Option.some.injEq] at e4
  obtain ⟨n, hn⟩ := lands_enough hR
  have h3 := hn (pre.count t + 1 + n) (by omega)
  rw [Task.steps_add, Task.steps_succ, e3, Res.ok_bind, ← e2, ← e4] at h3
  unfold World.step at h2
  rw [e1] at h2
  simp only at h2 h3
  cases hx : th1.task.step a th1.pc (w1.look th1) with
  | ok s' => rw [hx] at h2; exact absurd h2.symm (hr _)
  | exn e => rw [hx] at h2 h3; exact .inl ⟨e, h2.symm, h3.symm⟩
  | ub => rw [hx] at h2 h3; exact .inr (.inl ⟨h2.symm, h3.symm⟩)
  | diverge => rw [hx] at h2 h3; exact .inr (.inr ⟨h2.symm, h3.symm⟩)

theorem findOn_ne_diverge (a : AbsFn) (sel wt : PyName) (c : Corr F) : findOn a sel wt c ≠ .diverge := by
  refine Out.bind_ne_diverge (lagLoop_ne_diverge _ _ _ _ _ _ _ _ _ _ (by omega) (by omega)) fun i c _ => ?_
  split
  · simp
  · exact Out.step_ne_diverge (cleanCorrelationData_ne_diverge _ _)

theorem res_ne_diverge {σ : Type} {x : Out σ Unit} (h : x ≠ .diverge) : x.res ≠ .diverge := by
  cases x <;> simp_all [Out.res]

theorem setArg_ne_diverge (set : Corr F → F → Corr F) (x : PyVal F) (c : Corr F) : setArg set x c ≠ .diverge := by
  unfold setArg; repeat' split
  all_goals simp

theorem alone_ne_diverge (a : AbsFn) (j : Job F) : j.alone a ≠ .diverge := by
  refine bind_ne_diverge (corrNew_ne_diverge _) fun c0 _ => bind_ne_diverge ?_ fun c _ => bind_ne_diverge ?_ fun c _ =>
    bind_ne_diverge (correlations_ne_diverge _) fun rows _ => bind_ne_diverge ?_ fun _ _ => by simp
  · exact bind_ne_diverge (setArg_ne_diverge _ _ _) fun _ _ => bind_ne_diverge (setArg_ne_diverge _ _ _) fun _ _ =>
      bind_ne_diverge (setArg_ne_diverge _ _ _) fun _ _ => setArg_ne_diverge _ _ _
  · split
    · rw [calculateOn_res]; exact calculate_ne_diverge _ _
    · exact res_ne_diverge (findOn_ne_diverge _ _ _ _)
  · unfold corrOut
    repeat' split
    all_goals simp

/-- **C91**: threads that call `autocorrelation` bring undefined behaviour upon the process only if one of the calls does so with nothing
else going on. -/
theorem C91_undefined (a : AbsFn) (jobs : List (Job F)) (hj : ∀ j ∈ jobs, j.alone a ≠ .ub) (sched : List Nat) :
    ∃ w, (World.init [] (jobs.map fun j => (.ac j, Option.none))).run a sched = .ok w := by
  have hv : ValidRefs ([] : List (Corr F)) (jobs.map fun j => (.ac j, Option.none)) := by
    intro p hp x hx
    simp only [List.mem_map] at hp
    obtain ⟨j, _, rfl⟩ := hp
    simp at hx
  by_contra hno
  obtain ⟨pre, t, post, w1, _, h1, h2⟩ := World.run_fails (r := (World.init [] (jobs.map fun j => (.ac j, Option.none))).run a sched)
    (fun w' h => hno ⟨w', h⟩) rfl
  cases hjt : jobs[t]? with
  | none =>
    have hl := World.run_length (init_valid hv) h1
    have : w1.threads[t]? = Option.none := by
      rw [List.getElem?_eq_none_iff, hl]
      simpa [World.init] using hjt
    simp only [World.step, this] at h2
    exact hno ⟨_, h2.symm⟩
  | some j =>
    have ht : (jobs.map fun j => ((Task.ac j, Option.none) : Task F × Option Nat))[t]? = some (.ac j, Option.none) := by simp [hjt]
    have hs := final_shows a j
    rcases (init_alone hv ht (by simp)).fails (init_get ht) (R := j.final a) (lands_start a j) h1 (fun w' h => hno ⟨w', h⟩) h2 with
      ⟨e, _, hR⟩ | ⟨_, hR⟩ | ⟨_, hR⟩ <;> rw [hR] at hs
    · exact hs
    · exact hj j (List.mem_of_getElem? hjt) hs
    · exact alone_ne_diverge a j hs

/-- **C91**, for correlators: a call on a `Correlator` that no other thread uses comes to what it comes to with nothing else going on, and
leaves the correlator in the same state; also `find_correlation`, which the interpreter may interrupt. -/
theorem C91_own_correlator (a : AbsFn) (heap : List (Corr F)) (tasks : List (Task F × Option Nat)) (hv : ValidRefs heap tasks)
    (sched : List Nat) (w : World F) (hw : (World.init heap tasks).run a sched = .ok w) (t x : Nat) (m : SCall F) (c : Corr F)
    (ht : tasks[t]? = some (.on m, some x)) (hc : heap[x]? = some c) (hown : ∀ u task, u ≠ t → tasks[u]? ≠ some (task, some x))
    (r : Out (Corr F) Unit) (hr : w.result t = some r) : r = m.run a c := by
  obtain ⟨_, th, s, h1, h2, h3, h4⟩ := (init_alone hv ht (fun y hy => by
    simp only [Option.some.injEq] at hy; subst hy; exact hown)).run (init_get ht) hw
  rw [result_read h1 h2 h4] at hr
  have h3 : (Task.on m).steps a (sched.count t) (.start, some c) = .ok s := by
    simpa [World.look, World.init, hc] using h3
  obtain ⟨pc, o⟩ := s
  have he : pc.Ended := by
    cases pc <;> simp at hr <;> trivial
  have hf := lands_final (lands_on a m c) h3 he
  cases hm : m.run a c with
  | ok u c' =>
    rw [hm] at hf
    simp only [Out.next, Res.ok.injEq, Prod.mk.injEq] at hf
    rw [← hf.1, ← hf.2] at hr
    simp at hr
    exact hr.symm
  | exn e c' =>
    rw [hm] at hf
    simp only [Out.next, Res.ok.injEq, Prod.mk.injEq] at hf
    rw [← hf.1, ← hf.2] at hr
    simp at hr
    exact hr.symm
  | ub => rw [hm] at hf; simp [Out.next] at hf
  | diverge => rw [hm] at hf; simp [Out.next] at hf

end Sacf
