import Verif.Model.Threads
import Verif.Lemmas.Session
import Verif.Props.Total

/-! Threads: what one thread does step by step, and the world as seen by one thread. -/

set_option linter.unusedSectionVars false
set_option linter.unusedSimpArgs false

namespace Sacf

open Arith Res

variable {F : Type} [Arith F]

/-! ### one thread alone -/

/-- `n` steps of one thread, its correlator touched by nobody else -/
def Task.steps (a : AbsFn) (task : Task F) : Nat → Pc F × Option (Corr F) → Res (Pc F × Option (Corr F))
  | 0, s => .ok s
  | n + 1, s => (task.step a s.1 s.2).bind (Task.steps a task n)

theorem Task.steps_add (a : AbsFn) (task : Task F) (m n : Nat) (s : Pc F × Option (Corr F)) :
    task.steps a (m + n) s = (task.steps a m s).bind (task.steps a n) := by
  induction m generalizing s with
  | zero => simp [Task.steps]
  | succ m ih =>
    rw [Nat.add_right_comm]
    simp only [Task.steps, Res.bind_assoc]
    exact Res.bind_congr fun s' _ => ih s'

theorem Task.steps_succ (a : AbsFn) (task : Task F) (n : Nat) (s : Pc F × Option (Corr F)) :
    task.steps a (n + 1) s = (task.steps a n s).bind fun s => task.step a s.1 s.2 := by
  rw [Task.steps_add]
  apply Res.bind_congr
  intro s' _
  simp only [Task.steps]
  cases task.step a s'.1 s'.2 <;> rfl

/-- the thread has ended -/
def Pc.Ended : Pc F → Prop
  | .returned _ _ => True
  | .finished => True
  | .raised _ => True
  | _ => False

theorem Task.step_ended (a : AbsFn) (task : Task F) {pc : Pc F} (h : pc.Ended) (c : Option (Corr F)) :
    task.step a pc c = .ok (pc, c) := by
  cases pc <;> simp only [Pc.Ended] at h <;> cases task with
  | ac j => cases c <;> rfl
  | on m => cases m <;> cases c <;> rfl

theorem Task.steps_ended (a : AbsFn) (task : Task F) {s : Pc F × Option (Corr F)} (h : s.1.Ended) (n : Nat) :
    task.steps a n s = .ok s := by
  induction n with
  | zero => rfl
  | succ n ih => simp only [Task.steps, Task.step_ended a task h, Res.ok_bind, ih]

/-- run alone, the thread comes to `r`: it ends, or meets undefined behaviour -/
def Lands (a : AbsFn) (task : Task F) (s : Pc F × Option (Corr F)) (r : Res (Pc F × Option (Corr F))) : Prop :=
  ∃ n, task.steps a n s = r ∧ ∀ s', r = .ok s' → s'.1.Ended

theorem lands_ended {a : AbsFn} {task : Task F} {s : Pc F × Option (Corr F)} (h : s.1.Ended) : Lands a task s (.ok s) :=
  ⟨0, rfl, fun s' hs => by simp only [Res.ok.injEq] at hs; rwa [← hs]⟩

theorem lands_step {a : AbsFn} {task : Task F} {s s' : Pc F × Option (Corr F)} {r : Res (Pc F × Option (Corr F))}
    (h : task.step a s.1 s.2 = .ok s') (h' : Lands a task s' r) : Lands a task s r := by
  obtain ⟨n, hn, he⟩ := h'
  exact ⟨n + 1, by simp [Task.steps, h, hn], he⟩

theorem lands_bind {a : AbsFn} {task : Task F} {pc : Pc F} {c : Option (Corr F)} {α β : Type} {x : Out (Corr F) α}
    {k : α → Pc F} {k' : β → Pc F} {f : α → Corr F → Out (Corr F) β} (h : task.step a pc c = x.next k)
    (hf : ∀ y c', x = .ok y c' → Lands a task (k y, some c') ((f y c').next k')) :
    Lands a task (pc, c) ((x.bind f).next k') := by
  cases x with
  | ok y c' => exact lands_step h (hf y c' rfl)
  | exn e c' => exact lands_step h (lands_ended trivial)
  | ub => exact ⟨1, by simp [Task.steps, h, Out.next, Out.bind], by simp [Out.bind, Out.next]⟩
  | diverge => exact ⟨1, by simp [Task.steps, h, Out.next, Out.bind], by simp [Out.bind, Out.next]⟩

@[simp] theorem Out.ok_bind {σ α β : Type} (x : α) (s : σ) (f : α → σ → Out σ β) : (Out.ok x s).bind f = f x s := rfl

@[simp] theorem Out.pure_ok {σ α : Type} (x : α) (s : σ) : Out.pure s (.ok x) = .ok x s := rfl

theorem Out.bind_assoc {σ α β γ : Type} (x : Out σ α) (f : α → σ → Out σ β) (g : β → σ → Out σ γ) :
    (x.bind f).bind g = x.bind fun y s => (f y s).bind g := by
  cases x <;> rfl

theorem Out.step_bind {σ α : Type} (s : σ) (x : Res α) (f : α → Res σ) :
    Out.step s (x.bind f) = (Out.pure s x).bind fun y s => Out.step s (f y) := by
  cases x <;> rfl

theorem Out.pure_bind {σ α β : Type} (s : σ) (x : Res α) (f : α → Res β) :
    Out.pure s (x.bind f) = (Out.pure s x).bind fun y s => Out.pure s (f y) := by
  cases x <;> rfl

/-- the steps of `find_correlation` are steps of the task -/
def Finds (a : AbsFn) (task : Task F) (sel wt : PyName) : Prop :=
  ∀ (f : FindPc F) (c : Corr F), f ≠ .finished → task.step a (.find f) (some c) = (f.step a sel wt c).next .find

theorem finds_ac (a : AbsFn) (j : Job F) : Finds a (.ac j) j.sel j.wt := by
  intro f c h
  cases f <;> first | rfl | exact absurd rfl h

theorem finds_on (a : AbsFn) (sel wt : PyName) : Finds a (.on (.find sel wt) : Task F) sel wt := by
  intro f c h
  cases f <;> first | rfl | exact absurd rfl h

section
variable {a : AbsFn} {task : Task F} {sel wt : PyName} {β : Type} {k' : β → Pc F}

/-- where the generator goes on after the lag has been dealt with -/
def Gen.after (g : Gen F) : FindPc F :=
  if g.atZero then .create { g with atZero := false, i := g.i + 1 }
  else .test g.maxLag g.lagRes (add g.k g.lagRes) g.isPos (g.i + 1)

/-- the body of the loop -/
theorem lands_body (ht : Finds a task sel wt) (g : Gen F) (c : Corr F) {f : Corr F → Out (Corr F) β}
    (hf : ∀ c', nameStep a sel wt c g.lag g.i = .ok c' → Lands a task (.find g.after, some c') ((f c').next k')) :
    Lands a task (.find (.create g), some c)
      (((Out.step c (nameStep a sel wt c g.lag g.i)).bind fun _ c => f c).next k') := by
  refine lands_step (ht (.create g) c (by simp)) ?_
  unfold nameStep at hf ⊢
  rw [Out.step_bind, Out.bind_assoc]
  -- line 86
  cases hs : sel.lookup (selectionFunction (F := F) a) with
  | exn e => exact lands_step (by rw [ht _ _ (by simp)]; simp only [FindPc.step, hs]; rfl) (lands_ended trivial)
  | ub => exact ⟨1, by simp [Task.steps, ht _ _, FindPc.step, hs, Out.pure, Out.next, Out.bind, Res.bind], by simp [Out.pure, Out.bind, Out.next]⟩
  | diverge => exact ⟨1, by simp [Task.steps, ht _ _, FindPc.step, hs, Out.pure, Out.next, Out.bind, Res.bind], by simp [Out.pure, Out.bind, Out.next]⟩
  | ok sf =>
  simp only [hs, Res.ok_bind] at hf
  rw [Out.pure_ok, Out.ok_bind, Out.step_bind, Out.bind_assoc]
  refine lands_bind (x := Out.pure c (sf c (CorrIt.new g.lag c.ds.N))) (k := fun it => .find (.delta g it)) ?_ fun it c' h1 => ?_
  · rw [ht _ _ (by simp)]
    simp only [FindPc.step, hs, Res.ok_bind]
    cases sf c (CorrIt.new g.lag c.ds.N) <;> rfl
  cases h1' : sf c (CorrIt.new g.lag c.ds.N) <;> rw [h1'] at h1 <;> simp only [Out.pure, Out.ok.injEq, reduceCtorEq] at h1
  obtain ⟨rfl, rfl⟩ := h1
  simp only [h1', Res.ok_bind] at hf
  -- line 87
  rw [Out.step_bind, Out.bind_assoc]
  refine lands_bind (x := Out.pure c (Corr.deltaT a c _)) (k := fun it => .find (.weigh g it)) ?_ fun it c' h2 => ?_
  · rw [ht _ _ (by simp)]
    simp only [FindPc.step]
    cases Corr.deltaT a c _ <;> rfl
  cases h2' : Corr.deltaT a c _ <;> rw [h2'] at h2 <;> simp only [Out.pure, Out.ok.injEq, reduceCtorEq] at h2
  obtain ⟨rfl, rfl⟩ := h2
  simp only [h2', Res.ok_bind] at hf
  rename_i it
  -- line 88
  rw [Out.step_bind, Out.bind_assoc]
  refine lands_bind (x := Out.pure c (wt.lookup weightFunction)) (k := fun w => .find (.sum g (w c it))) ?_ fun w c' h3 => ?_
  · rw [ht _ _ (by simp)]
    simp only [FindPc.step]
    cases wt.lookup (weightFunction (F := F)) <;> rfl
  cases h3' : wt.lookup (weightFunction (F := F)) <;> rw [h3'] at h3 <;> simp only [Out.pure, Out.ok.injEq, reduceCtorEq] at h3
  obtain ⟨rfl, rfl⟩ := h3
  simp only [h3', Res.ok_bind] at hf
  -- line 89
  rw [Out.step_bind, Out.bind_assoc]
  refine lands_bind (x := Out.pure c (Corr.findCorrelation c _)) (k := fun it => .find (.put g it)) ?_ fun it c' h4 => ?_
  · rw [ht _ _ (by simp)]
    simp only [FindPc.step]
    cases Corr.findCorrelation c _ <;> rfl
  cases h4' : Corr.findCorrelation c _ <;> rw [h4'] at h4 <;> simp only [Out.pure, Out.ok.injEq, reduceCtorEq] at h4
  obtain ⟨rfl, rfl⟩ := h4
  simp only [h4', Res.ok_bind] at hf
  -- line 90
  refine lands_bind (x := Out.step c (Corr.addCorrelationData c _ g.i)) (k := fun _ => .find g.after) ?_ fun _ c' h5 => ?_
  · rw [ht _ _ (by simp)]
    simp only [FindPc.step, Gen.after]
    cases Corr.addCorrelationData c _ g.i <;> rfl
  cases h5' : Corr.addCorrelationData c _ g.i <;> rw [h5'] at h5 <;> simp only [Out.step, Out.ok.injEq, reduceCtorEq] at h5
  obtain ⟨_, rfl⟩ := h5
  exact hf _ h5'

/-- the loop -/
theorem lands_loop (ht : Finds a task sel wt) {f : Corr F → Out (Corr F) β}
    (hf : ∀ c, Lands a task (.find .finished, some c) ((f c).next k')) (hi res : F) (fuel : Nat) (c : Corr F) (k : F) (p : Bool)
    (i : Nat) (hd : lagLoop (nameStep a sel wt) hi res fuel c k p i ≠ .diverge) :
    Lands a task (.find (.test hi res k p i), some c)
      (((lagLoop (nameStep a sel wt) hi res fuel c k p i).bind fun i c =>
        (if i = 0 then .exn .unboundLocal c else Out.step c (c.cleanCorrelationData i)).bind fun _ c => f c).next k') := by
  induction fuel generalizing c k p i with
  | zero => exact absurd rfl hd
  | succ n ih =>
    unfold lagLoop at hd ⊢
    cases hk : le k hi with
    | false =>
      simp only [hk, Bool.false_eq_true, if_false, Out.bind]
      by_cases h0 : i = 0
      · exact lands_step (s' := (.raised .unboundLocal, some c)) (by rw [ht _ _ (by simp)]; simp [FindPc.step, hk, h0, Out.next])
          (by rw [if_pos h0]; exact lands_ended trivial)
      · rw [if_neg h0]
        refine lands_step (s' := (.find (.clean i), some c)) (by rw [ht _ _ (by simp)]; simp [FindPc.step, hk, h0, Out.next]) ?_
        refine lands_bind (x := Out.step c (c.cleanCorrelationData i)) (k := fun _ => .find .finished) ?_ fun _ c' _ => hf c'
        rw [ht _ _ (by simp)]
        simp only [FindPc.step]
        cases c.cleanCorrelationData i <;> rfl
    | true =>
      simp only [hk, if_true] at hd ⊢
      generalize hq : (if eq k zero then true else p) = q at hd ⊢
      cases hz : (lt zero k && !q) with
      | true =>
        simp only [hz, if_true] at hd ⊢
        refine lands_step (s' := (.find (.create ⟨hi, res, k, true, true, i⟩), some c))
          (by rw [ht _ _ (by simp)]; simp only [FindPc.step, hk, if_true, hq, hz]; rfl) ?_
        rw [Out.bind_assoc]
        refine lands_body ht ⟨hi, res, k, true, true, i⟩ c
          (f := fun c => ((Out.step c (nameStep a sel wt c k (i + 1))).bind fun _ c =>
            lagLoop (nameStep a sel wt) hi res n c (add k res) true (i + 2)).bind fun i c =>
              (if i = 0 then .exn .unboundLocal c else Out.step c (c.cleanCorrelationData i)).bind fun _ c => f c) fun c1 h1 => ?_
        have h1 : nameStep a sel wt c zero i = .ok c1 := h1
        rw [Out.bind_assoc]
        refine lands_body ht ⟨hi, res, k, true, false, i + 1⟩ c1
          (f := fun c => (lagLoop (nameStep a sel wt) hi res n c (add k res) true (i + 2)).bind fun i c =>
              (if i = 0 then .exn .unboundLocal c else Out.step c (c.cleanCorrelationData i)).bind fun _ c => f c) fun c2 h2 => ?_
        have h2 : nameStep a sel wt c1 k (i + 1) = .ok c2 := h2
        refine ih c2 (add k res) true (i + 2) fun h => hd ?_
        simp only [h1, h2, Out.step, Out.bind, h]
      | false =>
        simp only [hz, Bool.false_eq_true, if_false] at hd ⊢
        refine lands_step (s' := (.find (.create ⟨hi, res, k, q, false, i⟩), some c))
          (by rw [ht _ _ (by simp)]; simp only [FindPc.step, hk, if_true, hq, hz]; rfl) ?_
        rw [Out.bind_assoc]
        refine lands_body ht ⟨hi, res, k, q, false, i⟩ c
          (f := fun c => (lagLoop (nameStep a sel wt) hi res n c (add k res) q (i + 1)).bind fun i c =>
              (if i = 0 then .exn .unboundLocal c else Out.step c (c.cleanCorrelationData i)).bind fun _ c => f c) fun c1 h1 => ?_
        have h1 : nameStep a sel wt c k i = .ok c1 := h1
        refine ih c1 (add k res) q (i + 1) fun h => hd ?_
        simp only [h1, Out.step, Out.bind, h]

end

/-! ### the loop ends -/

theorem lookup_ne_diverge {α : Type} {table : String → Res α} (h : ∀ s, table s ≠ .diverge) (n : PyName) : n.lookup table ≠ .diverge := by
  cases n <;> simp [PyName.lookup, h]

theorem selection_ne_diverge (a : AbsFn) (s : String) : selectionFunction (F := F) a s ≠ .diverge := by
  unfold selectionFunction; repeat' split
  all_goals simp

theorem weight_ne_diverge (s : String) : weightFunction (F := F) s ≠ .diverge := by
  unfold weightFunction; repeat' split
  all_goals simp

theorem selected_ne_diverge {a : AbsFn} {sel : PyName} {f : Corr F → CorrIt F → Res (CorrIt F)}
    (h : sel.lookup (selectionFunction a) = .ok f) (c : Corr F) (it : CorrIt F) : f c it ≠ .diverge := by
  cases sel with
  | str s =>
    simp only [PyName.lookup, selectionFunction] at h
    split at h
    · simp only [Res.ok.injEq] at h; subst h; exact fastSelection_ne_diverge _ _ _
    · split at h
      · simp only [Res.ok.injEq] at h; subst h; exact naturalSelection_ne_diverge _ _ _
      · simp at h
  | obj r => simp [PyName.lookup] at h
  | unhashable => simp [PyName.lookup] at h

theorem nameStep_ne_diverge (a : AbsFn) (sel wt : PyName) (c : Corr F) (k : F) (i : Nat) : nameStep a sel wt c k i ≠ .diverge :=
  bind_ne_diverge (lookup_ne_diverge (selection_ne_diverge a) sel) fun _ hf =>
    bind_ne_diverge (selected_ne_diverge hf _ _) fun _ _ => bind_ne_diverge (deltaT_ne_diverge _ _ _) fun _ _ =>
    bind_ne_diverge (lookup_ne_diverge weight_ne_diverge wt) fun _ _ => bind_ne_diverge (findCorrelation_ne_diverge _ _) fun _ _ =>
    addCorrelationData_ne_diverge _ _ _

theorem nameStep_slot {a : AbsFn} {sel wt : PyName} {c c' : Corr F} {k : F} {i : Nat} (h : nameStep a sel wt c k i = .ok c') :
    i < c.tsBuf.length := by
  rw [nameStep_eq, Res.bind_eq_ok] at h
  obtain ⟨it, _, h⟩ := h
  unfold Corr.addCorrelationData at h
  simp only [Res.bind_eq_ok, Res.ok.injEq] at h
  obtain ⟨ts, h1, _⟩ := h
  exact (rawSet_eq_ok.1 h1).1

theorem Out.bind_ne_diverge {σ α β : Type} {x : Out σ α} {f : α → σ → Out σ β} (hx : x ≠ .diverge)
    (hf : ∀ y s, x = .ok y s → f y s ≠ .diverge) : x.bind f ≠ .diverge := by
  cases x <;> simp_all [Out.bind]

theorem Out.step_ne_diverge {σ : Type} {s : σ} {x : Res σ} (h : x ≠ .diverge) : Out.step s x ≠ .diverge := by
  cases x <;> simp_all [Out.step]

theorem Out.step_ok {σ : Type} {s s' : σ} {x : Res σ} {y : Unit} (h : Out.step s x = .ok y s') : x = .ok s' := by
  cases x <;> simp_all [Out.step]

theorem lagLoop_ne_diverge (a : AbsFn) (sel wt : PyName) (hi res : F) (fuel : Nat) (c : Corr F) (k : F) (p : Bool) (i : Nat)
    (h : c.tsBuf.length < fuel + i) (h0 : 0 < fuel) : lagLoop (nameStep a sel wt) hi res fuel c k p i ≠ .diverge := by
  induction fuel generalizing c k p i with
  | zero => omega
  | succ n ih =>
    unfold lagLoop
    split
    · simp only
      generalize (if eq k zero then true else p) = q
      split
      · refine Out.bind_ne_diverge (Out.step_ne_diverge (nameStep_ne_diverge _ _ _ _ _ _)) fun _ c1 h1 => ?_
        refine Out.bind_ne_diverge (Out.step_ne_diverge (nameStep_ne_diverge _ _ _ _ _ _)) fun _ c2 h2 => ?_
        have h1 := Out.step_ok h1
        have h2 := Out.step_ok h2
        have a1 := nameStep_slot h1
        have a2 := nameStep_slot h2
        have b1 := (nameStep_same h1).ts_len
        have b2 := (nameStep_same h2).ts_len
        exact ih _ _ _ _ (by omega) (by omega)
      · refine Out.bind_ne_diverge (Out.step_ne_diverge (nameStep_ne_diverge _ _ _ _ _ _)) fun _ c1 h1 => ?_
        have h1 := Out.step_ok h1
        have a1 := nameStep_slot h1
        have b1 := (nameStep_same h1).ts_len
        exact ih _ _ _ _ (by omega) (by omega)
    · simp

/-- `find_correlation`, step by step, does what the model of the whole call says -/
theorem lands_find {a : AbsFn} {task : Task F} {sel wt : PyName} (ht : Finds a task sel wt) {β : Type} {k' : β → Pc F}
    {f : Corr F → Out (Corr F) β} (hf : ∀ c, Lands a task (.find .finished, some c) ((f c).next k')) (c : Corr F) :
    Lands a task (.find .readMin, some c) (((findOn a sel wt c).bind fun _ c => f c).next k') := by
  refine lands_step (ht .readMin c (by simp)) (lands_step (ht (.readMax c.minLag) c (by simp))
    (lands_step (ht (.readRes c.minLag c.maxLag) c (by simp)) ?_))
  unfold findOn
  rw [Out.bind_assoc]
  exact lands_loop ht hf c.maxLag c.lagRes _ c c.minLag false 0 (lagLoop_ne_diverge _ _ _ _ _ _ _ _ _ _ (by omega) (by omega))

/-! ### a whole task -/

/-- The call of `autocorrelation` as one piece, with what it leaves behind; to be compared with `anyAutocorrelation`. -/
def Job.whole (a : AbsFn) (j : Job F) (c : Corr F) : Out (Corr F) (List F × CorrOut F) :=
  (Out.step c (setArg Corr.setMaxLag j.maxLag c)).bind fun _ c =>
  (Out.step c (setArg Corr.setMinLag j.minLag c)).bind fun _ c =>
  (Out.step c (setArg Corr.setLagResolution j.lagRes c)).bind fun _ c =>
  (Out.step c (setArg Corr.setAlpha j.alpha c)).bind fun _ c =>
  (if j.sel.is "natural" && j.wt.is "fractional" then calculateOn a c else findOn a j.sel j.wt c).bind fun _ c =>
  (Out.pure c c.correlations).bind fun rows c =>
  (Out.pure c (corrOut rows)).bind fun out c => .ok (c.lagTimeseries, out) c

theorem lands_read (a : AbsFn) (j : Job F) (c : Corr F) : Lands a (.ac j) (.readLags, some c)
    (((Out.pure c c.correlations).bind fun rows c =>
      (Out.pure c (corrOut rows)).bind fun out c => .ok (c.lagTimeseries, out) c).next fun p => .returned p.1 p.2) := by
  refine lands_step (s' := (.readLen c.lagTimeseries, some c)) rfl ?_
  refine lands_bind (x := Out.pure c c.correlations) (k := fun rows => .readCorr c.lagTimeseries (decide (rows.length > 1))) rfl
    fun rows c' h => ?_
  cases h' : c.correlations <;> rw [h'] at h <;> simp only [Out.pure, Out.ok.injEq, reduceCtorEq] at h
  obtain ⟨rfl, rfl⟩ := h
  rename_i rows
  refine lands_bind (x := Out.pure c (corrOut rows)) (k := .returned c.lagTimeseries) ?_ fun out c' h => ?_
  · simp only [Task.step, h', Res.ok_bind, corrOut, decide_eq_true_eq]
    congr 2
  · cases h'' : corrOut rows <;> rw [h''] at h <;> simp only [Out.pure, Out.ok.injEq, reduceCtorEq] at h
    obtain ⟨rfl, rfl⟩ := h
    exact lands_ended trivial

theorem lands_ac (a : AbsFn) (j : Job F) (c : Corr F) :
    Lands a (.ac j) (.setMax, some c) ((j.whole a c).next fun p => .returned p.1 p.2) := by
  unfold Job.whole
  refine lands_bind (k := fun _ => .setMin) rfl fun _ c _ => ?_
  refine lands_bind (k := fun _ => .setRes) rfl fun _ c _ => ?_
  refine lands_bind (k := fun _ => .setAlpha) rfl fun _ c _ => ?_
  refine lands_bind (k := fun _ => .branch) rfl fun _ c _ => ?_
  cases hb : (j.sel.is "natural" && j.wt.is "fractional") with
  | true =>
    simp only [if_true]
    refine lands_bind (k := fun _ => .readLags) (by simp only [Task.step, hb, if_true]) fun _ c _ => lands_read a j c
  | false =>
    simp only [Bool.false_eq_true, if_false]
    refine lands_step (s' := (.find .readMin, some c)) (by simp only [Task.step, hb, Bool.false_eq_true, if_false]) ?_
    exact lands_find (finds_ac a j) (fun c => lands_step (s' := (.readLags, some c)) rfl (lands_read a j c)) c

theorem lands_on (a : AbsFn) (m : SCall F) (c : Corr F) :
    Lands a (.on m) (.start, some c) ((m.run a c).next fun _ => .finished) := by
  have key : ∀ m : SCall F, (Task.on m).step a .start (some c) = (m.run a c).next (fun _ => .finished) →
      Lands a (.on m) (.start, some c) ((m.run a c).next fun _ => .finished) := by
    intro m h
    have := lands_bind (k' := fun _ : Unit => .finished) (f := fun _ c => .ok () c) h fun y c' _ => lands_ended trivial
    have e : ((m.run a c).bind fun _ c => .ok () c) = m.run a c := by cases m.run a c <;> rfl
    rwa [e] at this
  cases m with
  | find sel wt =>
    refine lands_step (s' := (.find .readMin, some c)) rfl ?_
    have := lands_find (finds_on (F := F) a sel wt) (k' := fun _ : Unit => .finished) (f := fun c => .ok () c)
      (fun c => lands_step (s' := (.finished, some c)) rfl (lands_ended trivial)) c
    have e : ((findOn a sel wt c).bind fun _ c => .ok () c) = findOn a sel wt c := by cases findOn a sel wt c <;> rfl
    rwa [e] at this
  | _ => exact key _ rfl

/-! ### the world as one thread sees it -/

/-- what a thread sees: where it is, and its correlator -/
def World.view (w : World F) (t : Nat) : Option (Pc F × Option (Corr F)) := (w.threads[t]?).map fun th => (th.pc, w.look th)

/-- Thread `t` shares its correlator with no other thread, and there are no dangling references. -/
structure World.Alone (w : World F) (t : Nat) : Prop where
  valid : ∀ th ∈ w.threads, ∀ x, th.obj = some x → x < w.heap.length
  own : ∀ u th th' x, u ≠ t → w.threads[t]? = some th → w.threads[u]? = some th' → th.obj = some x → th'.obj ≠ some x

theorem World.look_valid {w : World F} (h : ∀ th ∈ w.threads, ∀ x, th.obj = some x → x < w.heap.length) {th : Thread F}
    (ht : th ∈ w.threads) : (w.look th).isSome = th.obj.isSome := by
  unfold World.look
  cases ho : th.obj with
  | none => rfl
  | some x => simp [h th ht x ho]

/-- a task never loses its correlator -/
theorem Task.step_keeps {a : AbsFn} {task : Task F} {pc pc' : Pc F} {c : Corr F} {o : Option (Corr F)}
    (h : task.step a pc (some c) = .ok (pc', o)) : o.isSome := by
  have key : ∀ {α : Type} {x : Out (Corr F) α} {k : α → Pc F}, x.next k = .ok (pc', o) → o.isSome := by
    intro α x k h
    cases x <;> simp [Out.next] at h
    · rw [← h.2]; rfl
    · rw [← h.2]; rfl
  have same : ∀ {q : Pc F}, (Res.ok (q, some c) : Res (Pc F × Option (Corr F))) = .ok (pc', o) → o.isSome := by
    intro q h
    simp at h
    rw [← h.2]; rfl
  unfold Task.step at h
  split at h
  case h_6 =>
    rename_i heq
    simp only [Option.some.injEq] at heq
    subst heq
    split at h
    · exact key h
    · exact same h
  all_goals first
    | exact key h
    | exact same h
    | simp_all

/-- One step of the world: nothing happens, or thread `t` moves and its correlator is written or created. -/
theorem World.step_cases {a : AbsFn} {w w' : World F} {t : Nat}
    (hv : ∀ th ∈ w.threads, ∀ x, th.obj = some x → x < w.heap.length) (h : w.step a t = .ok w') :
    (w.threads[t]? = Option.none ∧ w' = w) ∨
    ∃ th pc o, w.threads[t]? = some th ∧ th.task.step a th.pc (w.look th) = .ok (pc, o) ∧
      ((∃ x c', th.obj = some x ∧ x < w.heap.length ∧ o = some c' ∧
          w' = ⟨w.heap.set x c', w.threads.set t { th with pc := pc }⟩) ∨
       (th.obj = Option.none ∧ o = Option.none ∧ w' = { w with threads := w.threads.set t { th with pc := pc } }) ∨
       (∃ c', th.obj = Option.none ∧ o = some c' ∧
          w' = ⟨w.heap ++ [c'], w.threads.set t { th with pc := pc, obj := some w.heap.length }⟩)) := by
  unfold World.step at h
  cases ht : w.threads[t]? with
  | none => rw [ht] at h; simp only [Res.ok.injEq] at h; exact .inl ⟨rfl, h.symm⟩
  | some th =>
    rw [ht] at h
    simp only [Res.bind_eq_ok, Res.ok.injEq] at h
    obtain ⟨⟨pc, o⟩, h1, h2⟩ := h
    refine .inr ⟨th, pc, o, rfl, h1, ?_⟩
    have hm : th ∈ w.threads := List.mem_of_getElem? ht
    cases ho : th.obj with
    | some x =>
      have hx := hv th hm x ho
      have hl : w.look th = some w.heap[x] := by simp [World.look, ho, hx]
      rw [hl] at h1
      obtain ⟨c', hc⟩ := Option.isSome_iff_exists.1 (Task.step_keeps h1)
      subst hc
      refine .inl ⟨x, c', rfl, hx, rfl, ?_⟩
      rw [← h2]
      simp only [World.store, ho]
    | none =>
      cases o with
      | none => exact .inr (.inl ⟨rfl, rfl, by rw [← h2]; simp [World.store, ho]⟩)
      | some c' => exact .inr (.inr ⟨c', rfl, rfl, by rw [← h2]; simp only [World.store, ho]⟩)

/-- thread `t` sees nothing of a step of another thread -/
theorem World.Alone.other {a : AbsFn} {w w' : World F} {t u : Nat} (hal : w.Alone t) (hut : u ≠ t) (h : w.step a u = .ok w') :
    w'.Alone t ∧ w'.threads[t]? = w.threads[t]? ∧ w'.view t = w.view t := by
  rcases World.step_cases hal.valid h with ⟨_, rfl⟩ | ⟨th, pc, o, hth, _, hc⟩
  · exact ⟨hal, rfl, rfl⟩
  have hget : ∀ y : Thread F, (w.threads.set u y)[t]? = w.threads[t]? := fun y => List.getElem?_set_ne hut
  rcases hc with ⟨x, c', ho, hx, rfl, rfl⟩ | ⟨ho, rfl, rfl⟩ | ⟨c', ho, rfl, rfl⟩
  · refine ⟨⟨fun y hy z hz => ?_, fun v y y' z hv hy hy' hz => ?_⟩, hget _, ?_⟩
    · rw [List.length_set]
      rcases List.mem_or_eq_of_mem_set hy with hy | rfl
      · exact hal.valid y hy z hz
      · exact hal.valid th (List.mem_of_getElem? hth) z hz
    · rw [hget] at hy
      by_cases huv : v = u
      · subst huv
        have hlt : v < w.threads.length := (List.getElem?_eq_some_iff.1 hth).1
        rw [List.getElem?_set_self hlt, Option.some.injEq] at hy'
        subst hy'
        exact hal.own v y th z hv hy hth hz
      · rw [List.getElem?_set_ne (Ne.symm huv)] at hy'
        exact hal.own v y y' z hv hy hy' hz
    · unfold World.view
      simp only [hget]
      cases ht : w.threads[t]? with
      | none => rfl
      | some y =>
        simp only [Option.map_some, World.look]
        cases hy : y.obj with
        | none => rfl
        | some z =>
          have : x ≠ z := fun e => hal.own u y th z hut ht hth hy (e ▸ ho)
          simp [List.getElem?_set_ne this]
  · refine ⟨⟨fun y hy z hz => ?_, fun v y y' z hv hy hy' hz => ?_⟩, hget _, ?_⟩
    · rcases List.mem_or_eq_of_mem_set hy with hy | rfl
      · exact hal.valid y hy z hz
      · exact hal.valid th (List.mem_of_getElem? hth) z hz
    · rw [hget] at hy
      by_cases huv : v = u
      · subst huv
        have hlt : v < w.threads.length := (List.getElem?_eq_some_iff.1 hth).1
        rw [List.getElem?_set_self hlt, Option.some.injEq] at hy'
        subst hy'
        exact hal.own v y th z hv hy hth hz
      · rw [List.getElem?_set_ne (Ne.symm huv)] at hy'
        exact hal.own v y y' z hv hy hy' hz
    · unfold World.view World.look
      simp only [hget]
  · refine ⟨⟨fun y hy z hz => ?_, fun v y y' z hv hy hy' hz => ?_⟩, hget _, ?_⟩
    · rw [List.length_append, List.length_singleton]
      rcases List.mem_or_eq_of_mem_set hy with hy | rfl
      · have := hal.valid y hy z hz; omega
      · simp only [Option.some.injEq] at hz; omega
    · rw [hget] at hy
      have hlz := hal.valid y (List.mem_of_getElem? hy) z hz
      by_cases huv : v = u
      · subst huv
        have hlt : v < w.threads.length := (List.getElem?_eq_some_iff.1 hth).1
        rw [List.getElem?_set_self hlt, Option.some.injEq] at hy'
        subst hy'
        simp only [ne_eq, Option.some.injEq]
        omega
      · rw [List.getElem?_set_ne (Ne.symm huv)] at hy'
        exact hal.own v y y' z hv hy hy' hz
    · unfold World.view
      simp only [hget]
      cases ht : w.threads[t]? with
      | none => rfl
      | some y =>
        simp only [Option.map_some, World.look]
        cases hy : y.obj with
        | none => rfl
        | some z =>
          have := hal.valid y (List.mem_of_getElem? ht) z hy
          simp [List.getElem?_append_left this]

/-- a step of thread `t` itself -/
theorem World.Alone.self {a : AbsFn} {w w' : World F} {t : Nat} (hal : w.Alone t) {th : Thread F} (hth : w.threads[t]? = some th)
    (h : w.step a t = .ok w') :
    w'.Alone t ∧ ∃ th' s, w'.threads[t]? = some th' ∧ th'.task = th.task ∧ th.task.step a th.pc (w.look th) = .ok s ∧ w'.view t = some s := by
  rcases World.step_cases hal.valid h with ⟨hn, _⟩ | ⟨th', pc, o, hth', hs, hc⟩
  · rw [hth] at hn; simp at hn
  rw [hth, Option.some.injEq] at hth'
  subst hth'
  have hlt : t < w.threads.length := (List.getElem?_eq_some_iff.1 hth).1
  have hm := List.mem_of_getElem? hth
  rcases hc with ⟨x, c', ho, hx, rfl, rfl⟩ | ⟨ho, rfl, rfl⟩ | ⟨c', ho, rfl, rfl⟩
  · refine ⟨⟨fun y hy z hz => ?_, fun v y y' z hv hy hy' hz => ?_⟩, _, _, List.getElem?_set_self hlt, rfl, hs, ?_⟩
    · rw [List.length_set]
      rcases List.mem_or_eq_of_mem_set hy with hy | rfl
      · exact hal.valid y hy z hz
      · exact hal.valid th hm z hz
    · rw [List.getElem?_set_self hlt, Option.some.injEq] at hy
      subst hy
      rw [List.getElem?_set_ne (Ne.symm hv)] at hy'
      exact hal.own v th y' z hv hth hy' hz
    · simp [World.view, World.look, List.getElem?_set_self hlt, ho, hx]
  · refine ⟨⟨fun y hy z hz => ?_, fun v y y' z hv hy hy' hz => ?_⟩, _, _, List.getElem?_set_self hlt, rfl, hs, ?_⟩
    · rcases List.mem_or_eq_of_mem_set hy with hy | rfl
      · exact hal.valid y hy z hz
      · exact hal.valid th hm z hz
    · rw [List.getElem?_set_self hlt, Option.some.injEq] at hy
      subst hy
      rw [List.getElem?_set_ne (Ne.symm hv)] at hy'
      exact hal.own v th y' z hv hth hy' hz
    · simp [World.view, World.look, List.getElem?_set_self hlt, ho]
  · refine ⟨⟨fun y hy z hz => ?_, fun v y y' z hv hy hy' hz => ?_⟩, _, _, List.getElem?_set_self hlt, rfl, hs, ?_⟩
    · rw [List.length_append, List.length_singleton]
      rcases List.mem_or_eq_of_mem_set hy with hy | rfl
      · have := hal.valid y hy z hz; omega
      · simp only [Option.some.injEq] at hz; omega
    · rw [List.getElem?_set_self hlt, Option.some.injEq] at hy
      subst hy
      simp only [Option.some.injEq] at hz
      rw [List.getElem?_set_ne (Ne.symm hv)] at hy'
      intro e
      have := hal.valid y' (List.mem_of_getElem? hy') z e
      omega
    · simp [World.view, World.look, List.getElem?_set_self hlt]

/-- **What a thread that shares its correlator with nobody sees**: the result of its own steps. -/
theorem World.Alone.run {a : AbsFn} {w w' : World F} {t : Nat} (hal : w.Alone t) {th : Thread F} (hth : w.threads[t]? = some th)
    {sched : List Nat} (h : w.run a sched = .ok w') :
    w'.Alone t ∧ ∃ th' s, w'.threads[t]? = some th' ∧ th'.task = th.task ∧
      th.task.steps a (sched.count t) (th.pc, w.look th) = .ok s ∧ w'.view t = some s := by
  induction sched generalizing w th with
  | nil =>
    simp only [World.run, Res.foldL, Res.ok.injEq] at h
    subst h
    exact ⟨hal, th, _, hth, rfl, rfl, by simp [World.view, hth]⟩
  | cons u sched ih =>
    simp only [World.run, Res.foldL_cons, Res.bind_eq_ok] at h
    obtain ⟨w1, h1, h2⟩ := h
    by_cases hut : u = t
    · subst hut
      obtain ⟨al1, th1, s1, e1, e2, e3, e4⟩ := hal.self hth h1
      obtain ⟨al2, th2, s2, f1, f2, f3, f4⟩ := ih al1 e1 h2
      refine ⟨al2, th2, s2, f1, f2.trans e2, ?_, f4⟩
      rw [List.count_cons_self]
      simp only [Task.steps, e3, Res.ok_bind]
      simp only [World.view, e1, Option.map_some, Option.some.injEq] at e4
      rw [← e4, ← e2]
      exact f3
    · obtain ⟨al1, e1, e2⟩ := hal.other hut h1
      obtain ⟨al2, th2, s2, f1, f2, f3, f4⟩ := ih al1 (e1.trans hth) h2
      refine ⟨al2, th2, s2, f1, f2, ?_, f4⟩
      rw [List.count_cons_of_ne hut]
      simp only [World.view, e1, hth, Option.map_some, Option.some.injEq, Prod.mk.injEq] at e2
      rw [← e2.2]
      exact f3

/-- If the process meets undefined behaviour, a thread does so at its own step. -/
theorem World.run_fails {a : AbsFn} {w : World F} {sched : List Nat} {r : Res (World F)} (hr : ∀ w', r ≠ .ok w')
    (h : w.run a sched = r) : ∃ pre t post w1, sched = pre ++ t :: post ∧ w.run a pre = .ok w1 ∧ w1.step a t = r := by
  induction sched generalizing w with
  | nil => exact absurd h.symm (hr w)
  | cons u sched ih =>
    simp only [World.run, Res.foldL_cons] at h
    cases h1 : w.step a u with
    | ok w1 =>
      rw [h1, Res.ok_bind] at h
      obtain ⟨pre, t, post, w2, e1, e2, e3⟩ := ih h
      refine ⟨u :: pre, t, post, w2, by simp [e1], ?_, e3⟩
      simp only [World.run, Res.foldL_cons, h1, Res.ok_bind]
      exact e2
    | exn e => rw [h1] at h; exact ⟨[], u, sched, w, rfl, rfl, h1.trans h⟩
    | ub => rw [h1] at h; exact ⟨[], u, sched, w, rfl, rfl, h1.trans h⟩
    | diverge => rw [h1] at h; exact ⟨[], u, sched, w, rfl, rfl, h1.trans h⟩

end Sacf
