import Verif.Model.Interrupt
import Verif.Props.Shared
import Verif.Props.Reuse

/-!
# C93: interrupted calls
-/

set_option linter.unusedSectionVars false
set_option linter.unusedSimpArgs false

namespace Sacf

open Arith Res

variable {F : Type} [Arith F]

/-! ## Steps -/

section
variable {a : AbsFn} {sel wt : PyName}

theorem pure_same {c s : Corr F} {α : Type} {x : Res α} {y : α} (h : Out.pure c x = .ok y s) : s = c := by
  cases x <;> simp [Out.pure] at h
  exact h.2.symm

/-- a step before line 92 changes the buffers only -/
theorem step_same {f f' : FindPc F} {c s : Corr F} (h : f.step a sel wt c = .ok f' s) (hf : f' ≠ .finished) : c.Same s := by
  have hp : ∀ {x : Res (FindPc F)}, Out.pure c x = .ok f' s → c.Same s := fun h => by rw [pure_same h]; exact Corr.Same.refl c
  cases f with
  | readMin => simp only [FindPc.step, Out.ok.injEq] at h; rw [← h.2]; exact Corr.Same.refl c
  | readMax lo => simp only [FindPc.step, Out.ok.injEq] at h; rw [← h.2]; exact Corr.Same.refl c
  | readRes lo hi => simp only [FindPc.step, Out.ok.injEq] at h; rw [← h.2]; exact Corr.Same.refl c
  | test hi res k p i =>
    have : s = c := by
      simp only [FindPc.step] at h
      revert h
      generalize (if eq k zero then true else p) = q
      cases le k hi <;> cases (lt zero k && !q) <;> by_cases h0 : i = 0 <;> simp [h0] <;> intro _ h <;> exact h.symm
    rw [this]; exact Corr.Same.refl c
  | create g => simp only [FindPc.step, Out.ok.injEq] at h; rw [← h.2]; exact Corr.Same.refl c
  | select g it => exact hp h
  | delta g it => exact hp h
  | weigh g it => exact hp h
  | sum g it => exact hp h
  | put g it =>
    simp only [FindPc.step] at h
    cases hx : Corr.addCorrelationData c it g.i <;> rw [hx] at h <;> simp only [Out.step, Out.bind, Out.ok.injEq, reduceCtorEq] at h
    obtain ⟨_, rfl⟩ := h
    exact addCorrelationData_same hx
  | clean n =>
    simp only [FindPc.step] at h
    cases hx : Corr.cleanCorrelationData c n <;> rw [hx] at h <;> simp only [Out.step, Out.bind, Out.ok.injEq, reduceCtorEq] at h
    exact absurd h.1.symm hf
  | finished => simp only [FindPc.step, Out.ok.injEq] at h; exact absurd h.1.symm hf

theorem steps_finished (n : Nat) (c : Corr F) : FindPc.steps a sel wt n .finished c = .ok .finished c := by
  induction n with
  | zero => rfl
  | succ n ih => simp only [FindPc.steps, FindPc.step, Out.ok_bind, ih]

theorem steps_same {n : Nat} {f f' : FindPc F} {c s : Corr F} (h : FindPc.steps a sel wt n f c = .ok f' s) (hf : f' ≠ .finished) :
    c.Same s := by
  induction n generalizing f c with
  | zero => simp only [FindPc.steps, Out.ok.injEq] at h; rw [← h.2]; exact Corr.Same.refl c
  | succ n ih =>
    simp only [FindPc.steps] at h
    cases hx : f.step a sel wt c with
    | ok f1 c1 =>
      rw [hx, Out.ok_bind] at h
      have : f1 ≠ .finished := by
        rintro rfl
        rw [steps_finished] at h
        simp only [Out.ok.injEq] at h
        exact hf h.1.symm
      exact (step_same hx this).trans (ih h)
    | exn e c1 => rw [hx] at h; simp [Out.bind] at h
    | ub => rw [hx] at h; simp [Out.bind] at h
    | diverge => rw [hx] at h; simp [Out.bind] at h

/-- the steps as steps of a thread -/
theorem steps_task {n : Nat} {f f' : FindPc F} {c s : Corr F} (h : FindPc.steps a sel wt n f c = .ok f' s) :
    ∃ m, Task.steps a (.on (.find sel wt)) m (.find f, some c) = .ok (.find f', some s) := by
  induction n generalizing f c with
  | zero => simp only [FindPc.steps, Out.ok.injEq] at h; exact ⟨0, by rw [h.1, h.2]; rfl⟩
  | succ n ih =>
    by_cases hf : f = .finished
    · subst hf
      rw [steps_finished] at h
      simp only [Out.ok.injEq] at h
      exact ⟨0, by rw [← h.1, h.2]; rfl⟩
    simp only [FindPc.steps] at h
    cases hx : f.step a sel wt c with
    | ok f1 c1 =>
      rw [hx, Out.ok_bind] at h
      obtain ⟨m, hm⟩ := ih h
      exact ⟨m + 1, by simp only [Task.steps, finds_on a sel wt f c hf, hx, Out.next, Res.ok_bind, hm]⟩
    | exn e c1 => rw [hx] at h; simp [Out.bind] at h
    | ub => rw [hx] at h; simp [Out.bind] at h
    | diverge => rw [hx] at h; simp [Out.bind] at h

/-- the same for a call that has raised -/
theorem steps_task_exn {n : Nat} {f : FindPc F} {e : Exc} {c s : Corr F} (h : FindPc.steps a sel wt n f c = .exn e s) :
    ∃ m, Task.steps a (.on (.find sel wt)) m (.find f, some c) = .ok (.raised e, some s) := by
  induction n generalizing f c with
  | zero => simp [FindPc.steps] at h
  | succ n ih =>
    by_cases hf : f = .finished
    · subst hf
      rw [steps_finished] at h
      simp at h
    simp only [FindPc.steps] at h
    cases hx : f.step a sel wt c with
    | ok f1 c1 =>
      rw [hx, Out.ok_bind] at h
      obtain ⟨m, hm⟩ := ih h
      exact ⟨m + 1, by simp only [Task.steps, finds_on a sel wt f c hf, hx, Out.next, Res.ok_bind, hm]⟩
    | exn e' c1 =>
      rw [hx] at h
      simp only [Out.bind, Out.exn.injEq] at h
      obtain ⟨rfl, rfl⟩ := h
      exact ⟨1, by simp only [Task.steps, finds_on a sel wt f c hf, hx, Out.next, Res.ok_bind]⟩
    | ub => rw [hx] at h; simp [Out.bind] at h
    | diverge => rw [hx] at h; simp [Out.bind] at h

/-- where a thread ends does not depend on the number of steps -/
theorem ended_unique {task : Task F} {s s1 : Pc F × Option (Corr F)} {m : Nat} (h : task.steps a m s = .ok s1) (h1 : s1.1.Ended)
    {r : Res (Pc F × Option (Corr F))} (hr : Lands a task s r) : r = .ok s1 := by
  obtain ⟨n, hn, he⟩ := hr
  rcases Nat.le_total n m with hle | hle
  · obtain ⟨k, rfl⟩ := Nat.exists_eq_add_of_le hle
    rw [Task.steps_add, hn] at h
    cases r with
    | ok s' => rw [Res.ok_bind, Task.steps_ended a task (he s' rfl)] at h; exact h
    | exn e => simp [Res.bind] at h
    | ub => simp [Res.bind] at h
    | diverge => simp [Res.bind] at h
  · obtain ⟨k, rfl⟩ := Nat.exists_eq_add_of_le hle
    rw [Task.steps_add, h, Res.ok_bind, Task.steps_ended a task h1] at hn
    exact hn.symm

/-- line 92 has been executed: the call is complete -/
theorem steps_complete {n : Nat} {c s : Corr F} (h : FindPc.steps a sel wt n .readMin c = .ok .finished s) :
    findOn a sel wt c = .ok () s := by
  obtain ⟨m, hm⟩ := steps_task h
  have h1 : Task.steps a (.on (.find sel wt)) (m + 1 + 1) (.start, some c) = .ok (.finished, some s) := by
    rw [Task.steps]
    show (Res.ok _).bind _ = _
    rw [Res.ok_bind, Task.steps_succ, hm]
    rfl
  have := ended_unique h1 trivial (lands_on a (.find sel wt) c)
  simp only [SCall.run] at this
  cases hf : findOn a sel wt c <;> rw [hf] at this <;> simp [Out.next] at this
  rw [this]

theorem steps_raised {n : Nat} {c s : Corr F} {e : Exc} (h : FindPc.steps a sel wt n .readMin c = .exn e s) :
    findOn a sel wt c = .exn e s := by
  obtain ⟨m, hm⟩ := steps_task_exn h
  have h1 : Task.steps a (.on (.find sel wt)) (m + 1) (.start, some c) = .ok (.raised e, some s) := by
    rw [Task.steps]
    show (Res.ok _).bind _ = _
    rw [Res.ok_bind, hm]
  have := ended_unique h1 trivial (lands_on a (.find sel wt) c)
  simp only [SCall.run] at this
  cases hf : findOn a sel wt c <;> rw [hf] at this <;> simp [Out.next] at this
  rw [this.1, this.2]

end

/-! ## Once more -/

theorem planRun_own {a : AbsFn} {sel wt : String} {nt : List F} {alpha lo hi res : F} {n : ℕ} {L : List (F × List (F × ℕ))}
    (hL : planRun a sel wt nt alpha lo hi res n = .ok L) : planRun a sel wt nt alpha lo hi res L.length = .ok L := by
  obtain ⟨hk, hle, _⟩ := planRun_lags hL
  have hks : (lagsUpTo hi res (n + 1) lo false).length = L.length := by rw [← hk]; simp
  have hsame := lagsUpTo_short (lo := lo) (hi := hi) (res := res) (n := n) (p := false) (by omega)
  rw [hks] at hsame
  unfold planRun at hL ⊢
  rw [hsame]
  rw [List.take_of_length_le (by omega)] at hL
  rw [List.take_of_length_le (by omega)]
  rw [Res.bind_eq_ok] at hL ⊢
  obtain ⟨L', h1, h2⟩ := hL
  refine ⟨L', h1, ?_⟩
  rw [if_pos (by omega)] at h2
  rw [if_pos (by omega)]
  exact h2

/-- a complete call, made again, changes nothing -/
theorem findOn_twice {a : AbsFn} {sel wt : PyName} {c s : Corr F} (hg : c.Good) (h : findOn a sel wt c = .ok () s) :
    (findOn a sel wt s).res = .ok s := by
  by_cases hn : ∃ x y, sel = .str x ∧ wt = .str y
  · obtain ⟨x, y, rfl, rfl⟩ := hn
    have h1 : pyFindCorrelation a c x y = .ok s := by rw [← findOn_res, h]; rfl
    rw [pyFind_eq a hg, Res.bind_eq_ok] at h1
    obtain ⟨L, hL, h1⟩ := h1
    split at h1
    · simp at h1
    · rename_i hne
      rw [Res.ok.injEq] at h1
      subst h1
      rw [findOn_res, pyFind_eq a (hg.store L)]
      have := planRun_own hL
      have : planRun a x y (c.store L).ds.normT (c.store L).alpha (c.store L).minLag (c.store L).maxLag (c.store L).lagRes
        (c.store L).numLagSteps = .ok L := this
      rw [this, Res.ok_bind, if_neg hne]
      rfl
  · exact absurd h (findOn_not_str hn c s)

/-! ## C93 -/

/-- `c'` is the correlator after any number of attempts to run `find_correlation` with these names, each of them interrupted -/
inductive Attempts (a : AbsFn) (sel wt : PyName) (c : Corr F) : Corr F → Prop
  | none : Attempts a sel wt c c
  | more {s s' : Corr F} {f : FindPc F} {n : Nat} (h : Attempts a sel wt c s) (hs : FindPc.steps a sel wt n .readMin s = .ok f s') :
      Attempts a sel wt c s'

/-- **C93**: `find_correlation` interrupted any number of times at any places and then run to its end does what it would have done at once: the
same contents, the same exception, or undefined behaviour in both cases. -/
theorem C93_retry (a : AbsFn) (d : DS F) (hd : Constructed d) (c : Corr F) (hr : Reached a d c) (sel wt : PyName) (c' : Corr F)
    (h : Attempts a sel wt c c') : (findOn a sel wt c').res = (findOn a sel wt c).res := by
  have hg := (hr.good hd).1
  suffices c'.Good ∧ (findOn a sel wt c').res = (findOn a sel wt c).res from this.2
  induction h with
  | none => exact ⟨hg, rfl⟩
  | @more s s' f n _ hs ih =>
    obtain ⟨hgs, ih⟩ := ih
    by_cases hf : f = .finished
    · subst hf
      have h1 := steps_complete hs
      have hk := scall_good (a := a) (c := s) (x := .find sel wt) (by simp)
      simp only [SCall.run, h1] at hk
      refine ⟨hk.1 hgs, ?_⟩
      rw [findOn_twice hgs h1, ← ih, h1]
      rfl
    · have hsame := steps_same hs hf
      exact ⟨hsame.good hgs, by rw [← ih]; exact (same_res hgs hsame a).2 sel wt⟩

/-- A history with interrupted calls (and the exceptions of the others) seen as a history without: each interrupted call is left out, or
replaced by the complete call.  (`failed`: it had raised an exception of its own before.) -/
inductive Resolves : List (Try F) → List (Option Exc) → List (SCall F) → List (Option Exc) → Prop
  | nil : Resolves [] [] [] []
  | call {xs : List (Try F)} {ys : List (SCall F)} {log log' : List (Option Exc)} (m : SCall F) (e : Option Exc)
      (h : Resolves xs log ys log') : Resolves (.call m :: xs) (e :: log) (m :: ys) (e :: log')
  | dropped {xs : List (Try F)} {ys : List (SCall F)} {log log' : List (Option Exc)} (sel wt : PyName) (n : Nat)
      (h : Resolves xs log ys log') : Resolves (.broken sel wt n :: xs) log ys log'
  | made {xs : List (Try F)} {ys : List (SCall F)} {log log' : List (Option Exc)} (sel wt : PyName) (n : Nat)
      (h : Resolves xs log ys log') : Resolves (.broken sel wt n :: xs) log (.find sel wt :: ys) (Option.none :: log')
  | failed {xs : List (Try F)} {ys : List (SCall F)} {log log' : List (Option Exc)} (sel wt : PyName) (n : Nat) (e : Exc)
      (h : Resolves xs log ys log') : Resolves (.broken sel wt n :: xs) log (.find sel wt :: ys) (some e :: log')

theorem resolve {a : AbsFn} {c c1 s : Corr F} (xs : List (Try F)) (hs : c1.Same c) {log : List (Option Exc)}
    (h : runTries a c xs = .ok (s, log)) : ∃ ys log' s1, Resolves xs log ys log' ∧ runSession a c1 ys = .ok (s1, log') ∧ s1.Same s ∧
      ∀ m : SCall F, m ∈ ys → .call m ∈ xs ∨ ∃ sel wt, m = .find sel wt := by
  induction xs generalizing c c1 log with
  | nil =>
    simp only [runTries, Res.ok.injEq, Prod.mk.injEq] at h
    obtain ⟨rfl, rfl⟩ := h
    exact ⟨[], [], c1, .nil, rfl, hs, by simp⟩
  | cons x xs ih =>
    cases x with
    | call m =>
      have hrel := scall_rel a hs m
      unfold runTries at h
      cases h1 : m.run a c with
      | ok y c' =>
        rw [h1] at h hrel
        simp only [Res.bind_eq_ok, Res.ok.injEq, Prod.mk.injEq] at h
        obtain ⟨⟨s', log0⟩, h2, rfl, rfl⟩ := h
        cases h3 : m.run a c1 <;> rw [h3] at hrel <;> simp only [Out.Rel] at hrel
        rename_i c1'
        obtain ⟨ys, log', s1, e1, e2, e3, e4⟩ := ih hrel.2 h2
        refine ⟨m :: ys, Option.none :: log', s1, .call m _ e1, ?_, e3, ?_⟩
        · simp only [runSession, h3, e2, Res.ok_bind]
        · simp only [List.mem_cons, forall_eq_or_imp, true_or, true_and]
          exact fun m' hm' => (e4 m' hm').imp (fun h => .inr h) id
      | exn e c' =>
        rw [h1] at h hrel
        simp only [Res.bind_eq_ok, Res.ok.injEq, Prod.mk.injEq] at h
        obtain ⟨⟨s', log0⟩, h2, rfl, rfl⟩ := h
        cases h3 : m.run a c1 <;> rw [h3] at hrel <;> simp only [Out.Rel] at hrel
        obtain ⟨rfl, hrel⟩ := hrel
        obtain ⟨ys, log', s1, e1, e2, e3, e4⟩ := ih hrel h2
        refine ⟨m :: ys, _ :: log', s1, .call m _ e1, ?_, e3, ?_⟩
        · simp only [runSession, h3, e2, Res.ok_bind]
        · simp only [List.mem_cons, forall_eq_or_imp, true_or, true_and]
          exact fun m' hm' => (e4 m' hm').imp (fun h => .inr h) id
      | ub => rw [h1] at h; simp at h
      | diverge => rw [h1] at h; simp at h
    | broken sel wt n =>
      unfold runTries at h
      cases h1 : FindPc.steps a sel wt n .readMin c with
      | ok f c' =>
        rw [h1] at h
        simp only at h
        by_cases hf : f = .finished
        · subst hf
          have hrel := findOn_rel a sel wt hs
          rw [steps_complete h1] at hrel
          cases h3 : findOn a sel wt c1 <;> rw [h3] at hrel <;> simp only [Out.Rel] at hrel
          obtain ⟨ys, log', s1, e1, e2, e3, e4⟩ := ih hrel.2 h
          refine ⟨.find sel wt :: ys, Option.none :: log', s1, .made sel wt n e1, ?_, e3, ?_⟩
          · simp only [runSession, SCall.run, h3, e2, Res.ok_bind]
          · simp only [List.mem_cons, forall_eq_or_imp]
            exact ⟨.inr ⟨sel, wt, rfl⟩, fun m' hm' => (e4 m' hm').imp (fun h => .inr h) id⟩
        · obtain ⟨ys, log', s1, e1, e2, e3, e4⟩ := ih (hs.trans (steps_same h1 hf)) h
          exact ⟨ys, log', s1, .dropped sel wt n e1, e2, e3, fun m' hm' => (e4 m' hm').imp (fun h => List.mem_cons_of_mem _ h) id⟩
      | exn e c' =>
        rw [h1] at h
        simp only at h
        have hrel := findOn_rel a sel wt hs
        rw [steps_raised h1] at hrel
        cases h3 : findOn a sel wt c1 <;> rw [h3] at hrel <;> simp only [Out.Rel] at hrel
        obtain ⟨rfl, hrel⟩ := hrel
        rename_i x _
        obtain ⟨ys, log', s1, e1, e2, e3, e4⟩ := ih hrel h
        refine ⟨.find sel wt :: ys, some x :: log', s1, .failed sel wt n x e1, ?_, e3, ?_⟩
        · simp only [runSession, SCall.run, h3, e2, Res.ok_bind]
        · simp only [List.mem_cons, forall_eq_or_imp]
          exact ⟨.inr ⟨sel, wt, rfl⟩, fun m' hm' => (e4 m' hm').imp (fun h => .inr h) id⟩
      | ub => rw [h1] at h; simp at h
      | diverge => rw [h1] at h; simp at h

/-- **C93**: an interrupted `find_correlation` counts as not made or as made completely.  Any history of calls, among them interrupted ones (all
places, all names, settings changed in between), is matched by a history without interruptions – the interrupted calls left out or made
completely – with the same exceptions, after which the object has the same settings and the same number of slots, and every computation
comes to the same. -/
theorem C93_atomic (a : AbsFn) (d : DS F) (hd : Constructed d) (c : Corr F) (hr : Reached a d c) (xs : List (Try F))
    (hcl : .call .clear ∉ xs) (s : Corr F) (log : List (Option Exc)) (h : runTries a c xs = .ok (s, log)) :
    ∃ ys log' s', Resolves xs log ys log' ∧ runSession a c ys = .ok (s', log') ∧
      (s.getMinLag = s'.getMinLag ∧ s.getMaxLag = s'.getMaxLag ∧ s.getLagResolution = s'.getLagResolution ∧ s.getAlpha = s'.getAlpha ∧
        s.values = s'.values ∧ s.lagTimeseries.length = s'.lagTimeseries.length) ∧
      (calculateOn a s).res = (calculateOn a s').res ∧ ∀ sel wt, (findOn a sel wt s).res = (findOn a sel wt s').res := by
  obtain ⟨ys, log', s', h1, h2, h3, h4⟩ := resolve xs (Corr.Same.refl c) h
  have hg := (hr.good hd).1
  have hcl' : ∀ m ∈ ys, m ≠ SCall.clear := by
    rintro m hm rfl
    rcases h4 _ hm with h | ⟨_, _, h⟩
    · exact hcl h
    · simp at h
  have hg' := (runSession_good hcl' h2).1 hg
  exact ⟨ys, log', s', h1, h2, ⟨h3.minLag, h3.maxLag, h3.lagRes, h3.alpha, by unfold Corr.values; rw [h3.ds], h3.ts_len⟩, same_res hg' h3 a⟩

/-! ## What can be seen after an interruption -/

/-- the course of a call that has been interrupted -/
theorem steps_holds {a : AbsFn} {sel wt : PyName} {c : Corr F} {src : PyName → PyName → List (CorrIt F) → Option Exc → Prop}
    (hs : Src a c src) {V : List (CorrIt F)} {e : Option Exc} (hV : src sel wt V e) (m : Nat) :
    ∃ pc s W cut, Task.steps a (.on (.find sel wt)) m (.start, some c) = .ok (pc, some s) ∧ Holds c src W cut s ∧
      PcOK a sel wt c V e W.length cut pc := by
  induction m with
  | zero => exact ⟨.start, c, [], false, rfl, ⟨by simp, (Corr.filled_nil hs.good).symm, by simp⟩, trivial⟩
  | succ m ih =>
    obtain ⟨pc, s, W, cut, h1, h2, h3⟩ := ih
    obtain ⟨pc', s', W', cut', f1, f2, _, _, f5, _⟩ := stepOK h2 hs hV pc h3
    exact ⟨pc', s', W', cut', by rw [Task.steps_succ, h1, Res.ok_bind]; exact f1, f2, f5⟩

/-- the columns that have not been written -/
theorem filled_rest {c : Corr F} (hg : c.Good) {V : List (CorrIt F)} (hV : V.length ≤ c.numLagSteps) {n : Nat} (hn : V.length ≤ n)
    (j : Nat) (v : F) : (c.filled V).EntryIs j n v ↔ c.EntryIs j n v := by
  rw [good_entry (Corr.filled_good hg hV), good_entry hg]
  apply and_congr_right
  intro hj
  have hr : rowOf (c.filled V).corrBuf (c.filled V).numLagSteps j = _ := rowOf_blocks (filled_row hg V hV) hj
  rw [hr, List.getElem?_append_right (by simpa using hn), List.getElem?_drop]
  simp only [List.length_map]
  rw [Nat.add_sub_cancel' hn]

/-- **C93**: an interruption before line 92 leaves a table of two parts: up to some lag the lags and correlations the complete call leaves behind,
from there on what was there before. -/
theorem C93_contents (a : AbsFn) (d : DS F) (hd : Constructed d) (c : Corr F) (hr : Reached a d c) (sel wt : PyName)
    (hu : findOn a sel wt c ≠ .ub) (n : Nat) (f : FindPc F) (hf : f ≠ .finished) (s : Corr F)
    (h : FindPc.steps a sel wt n .readMin c = .ok f s) :
    ∃ s' P, Leaves a c sel wt s' ∧ P ≤ s'.lagTimeseries.length ∧ s.lagTimeseries.length = c.lagTimeseries.length ∧
      (∀ i < P, s.lagTimeseries[i]? = s'.lagTimeseries[i]? ∧ ∀ j v, s.EntryIs j i v ↔ s'.EntryIs j i v) ∧
      ∀ i, P ≤ i → s.lagTimeseries[i]? = c.lagTimeseries[i]? ∧ ∀ j v, s.EntryIs j i v ↔ c.EntryIs j i v := by
  have hg := (hr.good hd).1
  obtain ⟨V, e, hrun⟩ := runs_exists hg hu
  have hs : Src a c (fun sel' wt' V' e' => (sel' = sel ∧ wt' = wt ∧ V' = V) ∧ Runs a c sel' wt' V' e') :=
    ⟨hg, fun h => h.2.1, fun h => h.2.2.1⟩
  obtain ⟨m, hm⟩ := steps_task h
  obtain ⟨pc, s1, W, cut, h1, h2, h3⟩ := steps_holds hs (sel := sel) (wt := wt) (V := V) (e := e) ⟨⟨rfl, rfl, rfl⟩, hrun⟩ (m + 1)
  have h4 : Task.steps a (.on (.find sel wt)) (m + 1) (.start, some c) = .ok (.find f, some s) := by
    rw [Task.steps]
    show (Res.ok _).bind _ = _
    rw [Res.ok_bind, hm]
  rw [h4] at h1
  simp only [Res.ok.injEq, Prod.mk.injEq, Option.some.injEq] at h1
  obtain ⟨rfl, rfl⟩ := h1
  have hsame := steps_same h hf
  have hWV : ∀ (i : Nat) (it : CorrIt F), W[i]? = some it → V[i]? = some it := by
    intro i it hi
    obtain ⟨_, _, _, _, ⟨⟨_, _, rfl⟩, _⟩, h5⟩ := h2.each i it hi
    exact h5
  have hVs := hrun.2.1
  have hWs := h2.slots hs
  have hWl : W.length ≤ V.length := by
    by_contra hn
    have := hWV V.length _ (List.getElem?_eq_getElem (by omega))
    simp at this
  -- the contents
  have hsf : s = c.filled W := by
    have := h2.form
    cases cut with
    | false => simpa using this
    | true =>
      -- cut: only after line 92
      simp only [if_true] at this
      obtain ⟨_, _, V', ⟨⟨_, _, rfl⟩, _⟩, hl, _⟩ := h2.full rfl
      have h6 : (c.stored W).numLagSteps = c.numLagSteps := by rw [← this]; exact hsame.steps
      have h7 : W.length = c.numLagSteps := h6
      rw [this]
      have e1 : c.filled W = (c.stored W) := by
        unfold Corr.filled Corr.stored
        have t1 : c.tsBuf.drop W.length = [] := by rw [h7, ← hg.ts_len]; simp
        rw [t1, List.append_nil, h7]
        congr 1
        apply blocks_congr
        intro j hj
        have : (rowOf c.corrBuf c.numLagSteps j).length = c.numLagSteps := rowOf_length (by rw [hg.corr_len]) hj
        rw [List.drop_eq_nil_iff.2 (by omega), List.append_nil]
      rw [e1]
  subst hsf
  have hcome := hrun.2.2
  have key : ∀ s' : Corr F, (∀ (i : Nat) (it : CorrIt F), V[i]? = some it → ∀ j v, s'.EntryIs j i v ↔ j < c.ds.N ∧ it.correlation.getD j zero = v) →
      (∀ (i : Nat) (it : CorrIt F), V[i]? = some it → s'.lagTimeseries[i]? = some it.k) → V.length ≤ s'.lagTimeseries.length →
      W.length ≤ s'.lagTimeseries.length ∧ (c.filled W).lagTimeseries.length = c.lagTimeseries.length ∧
      (∀ i < W.length, (c.filled W).lagTimeseries[i]? = s'.lagTimeseries[i]? ∧ ∀ j v, (c.filled W).EntryIs j i v ↔ s'.EntryIs j i v) ∧
      ∀ i, W.length ≤ i → (c.filled W).lagTimeseries[i]? = c.lagTimeseries[i]? ∧ ∀ j v, (c.filled W).EntryIs j i v ↔ c.EntryIs j i v := by
    intro s' k1 k2 k3
    refine ⟨by omega, hsame.ts_len, fun i hi => ?_, fun i hi => ?_⟩
    · have hit : W[i]? = some W[i] := List.getElem?_eq_getElem hi
      have hit' := hWV i _ hit
      refine ⟨?_, fun j v => ?_⟩
      · rw [k2 i _ hit']
        simp only [Corr.lagTimeseries, Corr.filled]
        rw [List.getElem?_append_left (by simpa using hi), List.getElem?_map, hit]
        rfl
      · rw [filled_entry hg hWs hit, k1 i _ hit']
    · refine ⟨?_, fun j v => filled_rest hg hWs hi j v⟩
      simp only [Corr.lagTimeseries, Corr.filled]
      rw [List.getElem?_append_right (by simpa using hi), List.getElem?_drop]
      simp only [List.length_map]
      rw [Nat.add_sub_cancel' hi]
  cases e with
  | some x =>
    refine ⟨c.filled V, W.length, .inr ⟨x, hcome⟩, key _ (fun i it hi j v => filled_entry hg hVs hi j v) (fun i it hi => ?_) ?_⟩
    · have hlt := (List.getElem?_eq_some_iff.1 hi).1
      simp only [Corr.lagTimeseries, Corr.filled]
      rw [List.getElem?_append_left (by simpa using hlt), List.getElem?_map, hi]
      rfl
    · simp [Corr.lagTimeseries, Corr.filled]
  | none =>
    by_cases hne : V = []
    · subst hne
      simp only [Comes, if_true] at hcome
      exact ⟨c, W.length, .inr ⟨_, hcome⟩, key _ (by simp) (by simp) (by simp)⟩
    · simp only [Comes, if_neg hne] at hcome
      refine ⟨c.stored V, W.length, .inl hcome, key _ (fun i it hi j v => stored_entry hg hi j v) (fun i it hi => ?_) ?_⟩
      · simp only [Corr.lagTimeseries, Corr.stored]
        rw [List.getElem?_map, hi]
        rfl
      · simp [Corr.lagTimeseries, Corr.stored]

end Sacf
