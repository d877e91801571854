import Verif.Model.Session
import Verif.Lemmas.Reach

/-! Sessions on one correlator: what depends on the contents of the buffers and what does not. -/

set_option linter.unusedSectionVars false
set_option linter.unusedSimpArgs false

namespace Sacf

open Arith

variable {F : Type} [Arith F]

/-! ### outcomes that agree up to a relation of the values -/

/-- both return, with related values, or both fail in the same way -/
def Res.Rel {α β : Type} (R : α → β → Prop) : Res α → Res β → Prop
  | .ok a, .ok b => R a b
  | .exn e, .exn e' => e = e'
  | .ub, .ub => True
  | .diverge, .diverge => True
  | _, _ => False

theorem Res.Rel.bind {α β α' β' : Type} {R : α → β → Prop} {S : α' → β' → Prop} {x : Res α} {y : Res β}
    (h : Res.Rel R x y) {f : α → Res α'} {g : β → Res β'} (hf : ∀ a b, R a b → Res.Rel S (f a) (g b)) :
    Res.Rel S (x.bind f) (y.bind g) := by
  cases x <;> cases y <;> simp_all [Res.Rel, Res.bind]

theorem Res.Rel.refl {α : Type} {R : α → α → Prop} (hR : ∀ a, R a a) (x : Res α) : Res.Rel R x x := by
  cases x <;> simp [Res.Rel, hR]

theorem Res.Rel.foldL {σ τ α : Type} {R : σ → τ → Prop} {f : σ → α → Res σ} {g : τ → α → Res τ}
    (h : ∀ s t x, R s t → Res.Rel R (f s x) (g t x)) (l : List α) (s : σ) (t : τ) (hst : R s t) :
    Res.Rel R (Res.foldL f s l) (Res.foldL g t l) := by
  induction l generalizing s t with
  | nil => exact hst
  | cons x l ih =>
    rw [Res.foldL_cons, Res.foldL_cons]
    exact (h s t x hst).bind fun a b hab => ih a b hab

/-- the same for outcomes with an object -/
def Out.Rel {σ τ α : Type} (R : σ → τ → Prop) : Out σ α → Out τ α → Prop
  | .ok a s, .ok b t => a = b ∧ R s t
  | .exn e s, .exn e' t => e = e' ∧ R s t
  | .ub, .ub => True
  | .diverge, .diverge => True
  | _, _ => False

theorem Out.Rel.bind {σ τ α β : Type} {R : σ → τ → Prop} {x : Out σ α} {y : Out τ α} (h : Out.Rel R x y)
    {f : α → σ → Out σ β} {g : α → τ → Out τ β} (hf : ∀ a s t, R s t → Out.Rel R (f a s) (g a t)) :
    Out.Rel R (x.bind f) (y.bind g) := by
  cases x <;> cases y <;> simp_all [Out.Rel, Out.bind]

theorem Out.Rel.step {σ τ : Type} {R : σ → τ → Prop} {s : σ} {t : τ} (hst : R s t) {x : Res σ} {y : Res τ}
    (h : Res.Rel R x y) : Out.Rel R (Out.step s x) (Out.step t y) := by
  cases x <;> cases y <;> simp_all [Out.Rel, Out.step, Res.Rel]

/-- every object left behind satisfies `P` -/
def Out.All {σ α : Type} (P : σ → Prop) : Out σ α → Prop
  | .ok _ s => P s
  | .exn _ s => P s
  | _ => True

theorem Out.All.bind {σ α β : Type} {P Q : σ → Prop} {x : Out σ α} (h : Out.All P x) (hPQ : ∀ s, P s → Q s)
    {f : α → σ → Out σ β} (hf : ∀ a s, P s → Out.All Q (f a s)) : Out.All Q (x.bind f) := by
  cases x <;> simp_all [Out.All, Out.bind]

theorem Out.All.step {σ : Type} {P : σ → Prop} {s : σ} (hs : P s) {x : Res σ} (h : ∀ s', x = .ok s' → P s') :
    Out.All P (Out.step s x) := by
  cases x <;> simp_all [Out.All, Out.step]

theorem Out.res_bind {σ α : Type} (x : Out σ α) (f : α → σ → Out σ Unit) :
    (x.bind f).res = match x with
      | .ok a s => (f a s).res
      | .exn e _ => .exn e
      | .ub => .ub
      | .diverge => .diverge := by
  cases x <;> rfl

@[simp] theorem Out.res_step {σ : Type} (s : σ) (x : Res σ) : (Out.step s x).res = x := by cases x <;> rfl

/-! ### the contents of the buffers -/

/-- equal except for the contents (not the sizes) of the buffers -/
structure Corr.Same (c s : Corr F) : Prop where
  ds : s.ds = c.ds
  norm : s.norm = c.norm
  maxLag : s.maxLag = c.maxLag
  minLag : s.minLag = c.minLag
  lagRes : s.lagRes = c.lagRes
  alpha : s.alpha = c.alpha
  steps : s.numLagSteps = c.numLagSteps
  ts_len : s.tsBuf.length = c.tsBuf.length
  corr_len : s.corrBuf.length = c.corrBuf.length

theorem Corr.Same.refl (c : Corr F) : c.Same c := ⟨rfl, rfl, rfl, rfl, rfl, rfl, rfl, rfl, rfl⟩

theorem Corr.Same.symm {c s : Corr F} (h : c.Same s) : s.Same c :=
  ⟨h.1.symm, h.2.symm, h.3.symm, h.4.symm, h.5.symm, h.6.symm, h.7.symm, h.8.symm, h.9.symm⟩

theorem Corr.Same.trans {c s u : Corr F} (h : c.Same s) (h' : s.Same u) : c.Same u :=
  ⟨h'.1.trans h.1, h'.2.trans h.2, h'.3.trans h.3, h'.4.trans h.4, h'.5.trans h.5, h'.6.trans h.6, h'.7.trans h.7,
    h'.8.trans h.8, h'.9.trans h.9⟩

theorem Corr.Same.good {c s : Corr F} (h : c.Same s) (hg : c.Good) : s.Good :=
  ⟨by rw [h.ds]; exact hg.wf, by rw [h.ds, h.norm]; exact hg.norm_len, by rw [h.ts_len, h.steps]; exact hg.ts_len,
    by rw [h.corr_len, h.ds, h.steps]; exact hg.corr_len⟩

theorem addCorrelationData_same {c s : Corr F} {it : CorrIt F} {i : Nat}
    (h : Corr.addCorrelationData c it i = .ok s) : c.Same s := by
  obtain ⟨h1, h2⟩ := addCorrelationData_lengths h
  obtain ⟨f1, f2, f3, f4, f5, f6, f7⟩ := addCorrelationData_frame h
  exact ⟨f1, f2, f3, f4, f5, f6, f7, h1, h2⟩

theorem nameStep_same {a : AbsFn} {sel wt : PyName} {c s : Corr F} {k : F} {i : Nat}
    (h : nameStep a sel wt c k i = .ok s) : c.Same s := by
  unfold nameStep at h
  simp only [Res.bind_eq_ok] at h
  obtain ⟨_, _, _, _, _, _, _, _, _, _, h⟩ := h
  exact addCorrelationData_same h

theorem standardStep_eq_nameStep (a : AbsFn) (c : Corr F) (k : F) (i : Nat) :
    Corr.standardStep a c k i = nameStep a (.str "natural") (.str "fractional") c k i :=
  standardStep_eq_pyStep a c k i

theorem standardStep_same {a : AbsFn} {c s : Corr F} {k : F} {i : Nat}
    (h : Corr.standardStep a c k i = .ok s) : c.Same s := by
  rw [standardStep_eq_nameStep] at h
  exact nameStep_same h

theorem lagLoop_same {f : Corr F → F → Nat → Res (Corr F)} (hf : ∀ c k i s, f c k i = .ok s → c.Same s)
    (hi res : F) (fuel : Nat) (c : Corr F) (k : F) (p : Bool) (i : Nat) :
    Out.All c.Same (lagLoop f hi res fuel c k p i) := by
  induction fuel generalizing c k p i with
  | zero => trivial
  | succ n ih =>
    have key : ∀ (s : Corr F) k i, Out.All s.Same (Out.step s (f s k i)) :=
      fun s k i => Out.All.step (Corr.Same.refl s) fun s' h => hf _ _ _ _ h
    have wk : ∀ {c s : Corr F}, c.Same s → ∀ {α} {x : Out (Corr F) α}, Out.All s.Same x → Out.All c.Same x := by
      intro c s hs α x h
      cases x <;> simp_all [Out.All]
      · exact hs.trans h
      · exact hs.trans h
    unfold lagLoop
    split
    · simp only
      generalize (if eq k zero then true else p) = q
      split
      · refine (key c zero i).bind (fun _ h => h) fun _ s hs => ?_
        refine wk hs ?_
        refine (key s k (i + 1)).bind (fun _ h => h) fun _ u hu => ?_
        exact wk hu (ih _ _ _ _)
      · refine (key c k i).bind (fun _ h => h) fun _ s hs => ?_
        exact wk hs (ih _ _ _ _)
    · exact Corr.Same.refl c

/-! ### the drivers agree with the model without states -/

/-- the stateful loop, the state forgotten -/
theorem lagLoop_py (a : AbsFn) (sel wt : String) (hi res : F) (fuel : Nat) (c : Corr F) (k : F) (p : Bool) (i : Nat) :
    pyLoop a sel wt hi res fuel c k p i = match lagLoop (nameStep a (.str sel) (.str wt)) hi res fuel c k p i with
      | .ok n s => .ok (s, n)
      | .exn e _ => .exn e
      | .ub => .ub
      | .diverge => .diverge := by
  have hs : ∀ (c : Corr F) k i, nameStep a (.str sel) (.str wt) c k i = pyStep a sel wt c k i := fun _ _ _ => rfl
  induction fuel generalizing c k p i with
  | zero => rfl
  | succ n ih =>
    unfold pyLoop lagLoop
    split
    · simp only
      generalize (if eq k zero then true else p) = q
      split
      · rw [hs]
        cases h1 : pyStep a sel wt c zero i with
        | ok c1 =>
          simp only [Res.ok_bind, Out.step, Out.bind]
          rw [hs]
          cases h2 : pyStep a sel wt c1 k (i + 1) with
          | ok c2 => simp only [Res.ok_bind, ih]
          | exn e => rfl
          | ub => rfl
          | diverge => rfl
        | exn e => rfl
        | ub => rfl
        | diverge => rfl
      · rw [hs]
        cases h1 : pyStep a sel wt c k i with
        | ok c1 => simp only [Res.ok_bind, Out.step, Out.bind, ih]
        | exn e => rfl
        | ub => rfl
        | diverge => rfl
    · rfl

theorem findOn_res (a : AbsFn) (sel wt : String) (c : Corr F) :
    (findOn a (.str sel) (.str wt) c).res = pyFindCorrelation a c sel wt := by
  unfold findOn pyFindCorrelation
  rw [lagLoop_py, Out.res_bind]
  cases lagLoop (nameStep a (.str sel) (.str wt)) c.maxLag c.lagRes (c.tsBuf.length + 1) c c.minLag false 0 with
  | ok n s =>
    simp only [Res.ok_bind]
    split
    · rfl
    · simp
  | exn e s => rfl
  | ub => rfl
  | diverge => rfl

theorem calculateOn_res (a : AbsFn) (c : Corr F) : (calculateOn a c).res = c.calculateStandardCorrelation a := by
  unfold calculateOn Corr.calculateStandardCorrelation
  rw [standardLoop_eq_pyLoop, lagLoop_py, Out.res_bind]
  have : (Corr.standardStep a : Corr F → F → Nat → Res (Corr F)) = nameStep a (.str "natural") (.str "fractional") := by
    funext c k i; exact standardStep_eq_nameStep a c k i
  rw [this]
  cases lagLoop (nameStep a (.str "natural") (.str "fractional")) c.maxLag c.lagRes (c.tsBuf.length + 1) c c.minLag false 0 with
  | ok n s => simp
  | exn e s => rfl
  | ub => rfl
  | diverge => rfl

/-! ### invariant -/

theorem clean_good {c s : Corr F} (hg : c.Good) {i : Nat} (h : c.cleanCorrelationData i = .ok s) :
    s.Good ∧ s.ds = c.ds ∧ s.norm = c.norm := by
  obtain ⟨h1, h2, h3, h4, h5⟩ := clean_lengths h
  exact ⟨⟨by rw [h4]; exact hg.wf, by rw [h4, h5]; exact hg.norm_len, by rw [h1, h3], by rw [h2, h3, h4]⟩, h4, h5⟩

theorem clean_settings {c s : Corr F} {i : Nat} (h : c.cleanCorrelationData i = .ok s) :
    s.maxLag = c.maxLag ∧ s.minLag = c.minLag ∧ s.lagRes = c.lagRes ∧ s.alpha = c.alpha := by
  unfold Corr.cleanCorrelationData at h
  simp only [Res.bind_eq_ok, Res.ok.injEq] at h
  obtain ⟨buf, h2, rfl⟩ := h
  exact ⟨rfl, rfl, rfl, rfl⟩

/-- what a run of a driver leaves unchanged -/
structure Corr.Kept (c s : Corr F) : Prop where
  ds : s.ds = c.ds
  norm : s.norm = c.norm
  maxLag : s.maxLag = c.maxLag
  minLag : s.minLag = c.minLag
  lagRes : s.lagRes = c.lagRes
  alpha : s.alpha = c.alpha

theorem Corr.Same.kept {c s : Corr F} (h : c.Same s) : c.Kept s := ⟨h.1, h.2, h.3, h.4, h.5, h.6⟩

theorem Corr.Kept.refl (c : Corr F) : c.Kept c := (Corr.Same.refl c).kept

theorem Corr.Kept.trans {c s u : Corr F} (h : c.Kept s) (h' : s.Kept u) : c.Kept u :=
  ⟨h'.1.trans h.1, h'.2.trans h.2, h'.3.trans h.3, h'.4.trans h.4, h'.5.trans h.5, h'.6.trans h.6⟩

theorem clean_kept {c s : Corr F} {i : Nat} (h : c.cleanCorrelationData i = .ok s) : c.Kept s := by
  obtain ⟨_, _, _, h4, h5⟩ := clean_lengths h
  obtain ⟨a1, a2, a3, a4⟩ := clean_settings h
  exact ⟨h4, h5, a1, a2, a3, a4⟩

theorem driver_kept {x : Out (Corr F) Nat} {c : Corr F} (h : Out.All c.Same x) (b : Bool) :
    Out.All (fun s => (c.Good → s.Good) ∧ c.Kept s) (x.bind fun i s =>
      if b && i == 0 then .exn .unboundLocal s else Out.step s (s.cleanCorrelationData i)) := by
  refine h.bind (fun s hs => ⟨hs.good, hs.kept⟩) fun i s hs => ?_
  split
  · exact ⟨hs.good, hs.kept⟩
  · refine Out.All.step ⟨hs.good, hs.kept⟩ fun s' h' => ?_
    exact ⟨fun hg => (clean_good (hs.good hg) h').1, hs.kept.trans (clean_kept h')⟩

theorem calculateOn_kept (a : AbsFn) (c : Corr F) :
    Out.All (fun s => (c.Good → s.Good) ∧ c.Kept s) (calculateOn a c) := by
  have := driver_kept (lagLoop_same (f := Corr.standardStep a) (fun _ _ _ _ h => standardStep_same h)
    c.maxLag c.lagRes (c.tsBuf.length + 1) c c.minLag false 0) false
  unfold calculateOn
  simpa using this

theorem findOn_kept (a : AbsFn) (sel wt : PyName) (c : Corr F) :
    Out.All (fun s => (c.Good → s.Good) ∧ c.Kept s) (findOn a sel wt c) := by
  have := driver_kept (lagLoop_same (f := nameStep a sel wt) (fun _ _ _ _ h => nameStep_same h)
    c.maxLag c.lagRes (c.tsBuf.length + 1) c c.minLag false 0) true
  unfold findOn
  simpa using this

theorem addOn_ok {it : CorrIt F} {step : Option Int} {c s : Corr F} (h : addOn it step c = .ok s) : c.Same s := by
  unfold addOn at h
  rw [Res.bind_eq_ok] at h
  obtain ⟨n, _, h⟩ := h
  split at h
  · simp at h
  · exact addCorrelationData_same h

theorem cleanOn_ok {i : Option Int} {c s : Corr F} (h : cleanOn i c = .ok s) :
    ∃ n : Nat, c.cleanCorrelationData n = .ok s := by
  unfold cleanOn at h
  rw [Res.bind_eq_ok] at h
  obtain ⟨n, _, h⟩ := h
  split at h
  · simp at h
  · exact ⟨_, h⟩

theorem scall_good {a : AbsFn} {c : Corr F} {x : SCall F} (hcl : x ≠ .clear) :
    Out.All (fun s => (c.Good → s.Good) ∧ s.ds = c.ds ∧ s.norm = c.norm) (x.run a c) := by
  have base : (fun s : Corr F => (c.Good → s.Good) ∧ s.ds = c.ds ∧ s.norm = c.norm) c := ⟨id, rfl, rfl⟩
  have hset : ∀ (set : Corr F → F → Corr F) (v : PyVal F),
      (∀ c v, (c.Good → (set c v).Good) ∧ (set c v).ds = c.ds ∧ (set c v).norm = c.norm) →
      Out.All (fun s => (c.Good → s.Good) ∧ s.ds = c.ds ∧ s.norm = c.norm) (Out.step c (assignOn set v c)) := by
    intro set v h
    refine Out.All.step (P := fun s : Corr F => (c.Good → s.Good) ∧ s.ds = c.ds ∧ s.norm = c.norm) base fun s' h' => ?_
    unfold assignOn at h'
    split at h'
    · simp only [Res.ok.injEq] at h'; subst h'; exact h _ _
    · simp at h'
  have hk : ∀ {x : Out (Corr F) Unit}, Out.All (fun s => (c.Good → s.Good) ∧ c.Kept s) x →
      Out.All (fun s => (c.Good → s.Good) ∧ s.ds = c.ds ∧ s.norm = c.norm) x := by
    intro x h
    cases x <;> simp_all [Out.All]
    · exact ⟨h.2.ds, h.2.norm⟩
    · exact ⟨h.2.ds, h.2.norm⟩
  cases x with
  | setMaxLag v => exact hset _ _ fun c v => ⟨fun hg => ⟨hg.1, hg.2, hg.3, hg.4⟩, rfl, rfl⟩
  | setMinLag v => exact hset _ _ fun c v => ⟨fun hg => ⟨hg.1, hg.2, hg.3, hg.4⟩, rfl, rfl⟩
  | setLagResolution v => exact hset _ _ fun c v => ⟨fun hg => ⟨hg.1, hg.2, hg.3, hg.4⟩, rfl, rfl⟩
  | setAlpha v => exact hset _ _ fun c v => ⟨fun hg => ⟨hg.1, hg.2, hg.3, hg.4⟩, rfl, rfl⟩
  | calculate => exact hk (calculateOn_kept a c)
  | find sel wt => exact hk (findOn_kept a sel wt c)
  | add it step =>
    exact Out.All.step (P := fun s : Corr F => (c.Good → s.Good) ∧ s.ds = c.ds ∧ s.norm = c.norm) base fun s' h' => ⟨(addOn_ok h').good, (addOn_ok h').ds, (addOn_ok h').norm⟩
  | clean i =>
    refine Out.All.step (P := fun s : Corr F => (c.Good → s.Good) ∧ s.ds = c.ds ∧ s.norm = c.norm) base fun s' h' => ?_
    obtain ⟨n, h'⟩ := cleanOn_ok h'
    exact ⟨fun hg => (clean_good hg h').1, (clean_kept h').ds, (clean_kept h').norm⟩
  | clear => exact absurd rfl hcl

theorem runSession_good {a : AbsFn} {c c' : Corr F} {xs : List (SCall F)} {log : List (Option Exc)}
    (hcl : ∀ x ∈ xs, x ≠ .clear) (h : runSession a c xs = .ok (c', log)) :
    (c.Good → c'.Good) ∧ c'.ds = c.ds ∧ c'.norm = c.norm := by
  induction xs generalizing c log with
  | nil => simp [runSession] at h; obtain ⟨rfl, _⟩ := h; exact ⟨id, rfl, rfl⟩
  | cons x xs ih =>
    have hx := scall_good (a := a) (c := c) (hcl x (by simp))
    unfold runSession at h
    cases hr : x.run a c with
    | ok _ s =>
      rw [hr] at h hx
      simp only [Res.bind_eq_ok, Res.ok.injEq, Prod.mk.injEq] at h
      obtain ⟨⟨s', l⟩, h1, h2, _⟩ := h
      simp only at h2; subst h2
      obtain ⟨i1, i2, i3⟩ := ih (fun y hy => hcl y (by simp [hy])) h1
      exact ⟨fun hg => i1 (hx.1 hg), i2.trans hx.2.1, i3.trans hx.2.2⟩
    | exn e s =>
      rw [hr] at h hx
      simp only [Res.bind_eq_ok, Res.ok.injEq, Prod.mk.injEq] at h
      obtain ⟨⟨s', l⟩, h1, h2, _⟩ := h
      simp only at h2; subst h2
      obtain ⟨i1, i2, i3⟩ := ih (fun y hy => hcl y (by simp [hy])) h1
      exact ⟨fun hg => i1 (hx.1 hg), i2.trans hx.2.1, i3.trans hx.2.2⟩
    | ub => rw [hr] at h; simp at h
    | diverge => rw [hr] at h; simp at h

/-- an exception leaves everything but the contents of the buffers as it was -/
theorem scall_exn {a : AbsFn} {c s : Corr F} {x : SCall F} {e : Exc} (h : x.run a c = .exn e s) : c.Same s := by
  have hstep : ∀ {r : Res (Corr F)}, Out.step c r = .exn e s → c.Same s := by
    intro r h
    cases r <;> simp [Out.step] at h
    rw [← h.2]; exact Corr.Same.refl c
  have hdrv : ∀ {y : Out (Corr F) Nat} (b : Bool), Out.All c.Same y → (y.bind fun i s =>
      if b && i == 0 then .exn .unboundLocal s else Out.step s (s.cleanCorrelationData i)) = .exn e s → c.Same s := by
    intro y b hy h
    cases y with
    | ok i u =>
      simp only [Out.bind] at h
      have hu : c.Same u := hy
      split at h
      · simp at h; rw [← h.2]; exact hu
      · cases hcl : u.cleanCorrelationData i <;> rw [hcl] at h <;> simp [Out.step] at h
        rw [← h.2]; exact hu
    | exn e' u => simp [Out.bind] at h; rw [← h.2]; exact hy
    | ub => simp [Out.bind] at h
    | diverge => simp [Out.bind] at h
  cases x with
  | setMaxLag v => exact hstep h
  | setMinLag v => exact hstep h
  | setLagResolution v => exact hstep h
  | setAlpha v => exact hstep h
  | calculate =>
    refine hdrv false (lagLoop_same (f := Corr.standardStep a) (fun _ _ _ _ h => standardStep_same h) c.maxLag c.lagRes
      (c.tsBuf.length + 1) c c.minLag false 0) ?_
    simpa [SCall.run, calculateOn] using h
  | find sel wt =>
    refine hdrv true (lagLoop_same (f := nameStep a sel wt) (fun _ _ _ _ h => nameStep_same h) c.maxLag c.lagRes
      (c.tsBuf.length + 1) c c.minLag false 0) ?_
    simpa [SCall.run, findOn] using h
  | add it step => exact hstep h
  | clean i => exact hstep h
  | clear => simp [SCall.run] at h

/-! ### nothing but the contents of later results depends on the contents of the buffers -/

theorem Corr.Same.form {c s : Corr F} (h : c.Same s) : s = { c with tsBuf := s.tsBuf, corrBuf := s.corrBuf } := by
  obtain ⟨h1, h2, h3, h4, h5, h6, h7, _, _⟩ := h
  cases c; cases s
  simp_all

theorem rawSet_rel {α : Type} {v w : List α} (h : w.length = v.length) (i : Nat) (x y : α) :
    Res.Rel (fun a b : List α => b.length = a.length) (rawSet v i x) (rawSet w i y) := by
  by_cases hi : i < v.length
  · rw [rawSet_of_lt hi, rawSet_of_lt (by omega)]
    simp [Res.Rel, h]
  · rw [rawSet_of_ge (by omega), rawSet_of_ge (by omega)]
    trivial

theorem addCorrelationData_rel {c s : Corr F} (h : c.Same s) (it : CorrIt F) (i : Nat) :
    Res.Rel Corr.Same (c.addCorrelationData it i) (s.addCorrelationData it i) := by
  rw [h.form]
  unfold Corr.addCorrelationData
  refine (rawSet_rel h.ts_len i it.k it.k).bind fun t t' ht => ?_
  refine Res.Rel.bind (R := fun a b : List F => b.length = a.length) ?_ fun b b' hb => ?_
  · refine Res.Rel.foldL (fun x y j hxy => ?_) _ _ _ h.corr_len
    refine (Res.Rel.refl (R := Eq) (fun _ => rfl) (rawGet it.correlation j)).bind fun u v huv => ?_
    subst huv
    exact rawSet_rel hxy _ _ _
  · exact ⟨rfl, rfl, rfl, rfl, rfl, rfl, rfl, ht, hb⟩

theorem slice_rel {α : Type} {v w : List α} (h : w.length = v.length) (i j : Nat) :
    Res.Rel (fun a b : List α => b.length = a.length) (slice v i j) (slice w i j) := by
  unfold slice
  rw [h]
  split
  · simp [Res.Rel, h]
  · trivial

theorem writeAt_rel {α : Type} {v w x y : List α} (h : w.length = v.length) (h' : y.length = x.length) (i : Nat) :
    Res.Rel (fun a b : List α => b.length = a.length) (writeAt v i x) (writeAt w i y) := by
  unfold writeAt
  rw [h, h']
  split
  · simp [Res.Rel, h, h']
  · trivial

theorem clean_rel {c s : Corr F} (h : c.Same s) (i : Nat) :
    Res.Rel Corr.Same (c.cleanCorrelationData i) (s.cleanCorrelationData i) := by
  rw [h.form]
  unfold Corr.cleanCorrelationData
  refine Res.Rel.bind (R := fun a b : List F => b.length = a.length) ?_ fun b b' hb => ?_
  · refine Res.Rel.foldL (fun x y j hxy => ?_) _ _ _ rfl
    refine (slice_rel h.corr_len _ _).bind fun u v huv => ?_
    exact writeAt_rel hxy huv _
  · refine ⟨rfl, rfl, rfl, rfl, rfl, rfl, rfl, ?_, hb⟩
    simp [Corr.resizeF, h.ts_len]

/-- the calls for one lag before the result is stored -/
def namePass (a : AbsFn) (sel wt : PyName) (c : Corr F) (k : F) : Res (CorrIt F) :=
  (sel.lookup (selectionFunction a)).bind fun f =>
  (f c (CorrIt.new k c.ds.N)).bind fun it =>
  (Corr.deltaT a c it).bind fun it =>
  (wt.lookup weightFunction).bind fun w =>
  Corr.findCorrelation c (w c it)

theorem nameStep_eq (a : AbsFn) (sel wt : PyName) (c : Corr F) (k : F) (i : Nat) :
    nameStep a sel wt c k i = (namePass a sel wt c k).bind fun it => c.addCorrelationData it i := by
  unfold nameStep namePass
  simp only [Res.bind_assoc]

theorem namePass_same (a : AbsFn) (sel wt : PyName) {c s : Corr F} (h : c.Same s) (k : F) :
    namePass a sel wt s k = namePass a sel wt c k := by
  have hsel : ∀ f, sel.lookup (selectionFunction (F := F) a) = .ok f → ∀ it, f s it = f c it := by
    intro f hf it
    cases sel with
    | str x =>
      simp only [PyName.lookup, selectionFunction] at hf
      split at hf
      · simp only [Res.ok.injEq] at hf; subst hf; rw [h.form]; rfl
      · split at hf
        · simp only [Res.ok.injEq] at hf; subst hf; rw [h.form]; rfl
        · simp at hf
    | obj r => simp [PyName.lookup] at hf
    | unhashable => simp [PyName.lookup] at hf
  have hwt : ∀ w, wt.lookup (weightFunction (F := F)) = .ok w → ∀ it, w s it = w c it := by
    intro f hf it
    cases wt with
    | str x =>
      simp only [PyName.lookup, weightFunction] at hf
      split at hf
      · simp only [Res.ok.injEq] at hf; subst hf; rw [h.form]; rfl
      · split at hf
        · simp only [Res.ok.injEq] at hf; subst hf; rw [h.form]; rfl
        · split at hf
          · simp only [Res.ok.injEq] at hf; subst hf; rw [h.form]; rfl
          · simp at hf
    | obj r => simp [PyName.lookup] at hf
    | unhashable => simp [PyName.lookup] at hf
  unfold namePass
  apply Res.bind_congr
  intro f hf
  rw [hsel f hf, h.ds]
  apply Res.bind_congr
  intro it _
  have hd : Corr.deltaT a s it = Corr.deltaT a c it := by rw [h.form]; rfl
  rw [hd]
  apply Res.bind_congr
  intro it' _
  apply Res.bind_congr
  intro w hw
  rw [hwt w hw]
  rw [h.form]; rfl

theorem nameStep_rel (a : AbsFn) (sel wt : PyName) {c s : Corr F} (h : c.Same s) (k : F) (i : Nat) :
    Res.Rel Corr.Same (nameStep a sel wt c k i) (nameStep a sel wt s k i) := by
  rw [nameStep_eq, nameStep_eq, namePass_same a sel wt h]
  refine (Res.Rel.refl (R := Eq) (fun _ => rfl) _).bind fun u v huv => ?_
  subst huv
  exact addCorrelationData_rel h _ _

theorem lagLoop_rel {f : Corr F → F → Nat → Res (Corr F)}
    (hf : ∀ c s k i, Corr.Same c s → Res.Rel Corr.Same (f c k i) (f s k i)) (hi res : F) (fuel : Nat) {c s : Corr F}
    (h : c.Same s) (k : F) (p : Bool) (i : Nat) :
    Out.Rel Corr.Same (lagLoop f hi res fuel c k p i) (lagLoop f hi res fuel s k p i) := by
  induction fuel generalizing c s k p i with
  | zero => trivial
  | succ n ih =>
    unfold lagLoop
    split
    · simp only
      generalize (if eq k zero then true else p) = q
      split
      · refine (Out.Rel.step h (hf _ _ _ _ h)).bind fun _ u v huv => ?_
        refine (Out.Rel.step huv (hf _ _ _ _ huv)).bind fun _ u v huv => ?_
        exact ih huv _ _ _
      · refine (Out.Rel.step h (hf _ _ _ _ h)).bind fun _ u v huv => ?_
        exact ih huv _ _ _
    · exact ⟨rfl, h⟩

theorem calculateOn_rel (a : AbsFn) {c s : Corr F} (h : c.Same s) :
    Out.Rel Corr.Same (calculateOn a c) (calculateOn a s) := by
  unfold calculateOn
  rw [h.maxLag, h.lagRes, h.minLag, h.ts_len]
  refine Out.Rel.bind (lagLoop_rel (fun c s k i h => ?_) _ _ _ h _ _ _) fun i u v huv => ?_
  · rw [standardStep_eq_nameStep, standardStep_eq_nameStep]; exact nameStep_rel a _ _ h k i
  · exact Out.Rel.step huv (clean_rel huv i)

theorem findOn_rel (a : AbsFn) (sel wt : PyName) {c s : Corr F} (h : c.Same s) :
    Out.Rel Corr.Same (findOn a sel wt c) (findOn a sel wt s) := by
  unfold findOn
  rw [h.maxLag, h.lagRes, h.minLag, h.ts_len]
  refine Out.Rel.bind (lagLoop_rel (fun c s k i h => nameStep_rel a sel wt h k i) _ _ _ h _ _ _) fun i u v huv => ?_
  split
  · exact ⟨rfl, huv⟩
  · exact Out.Rel.step huv (clean_rel huv i)

theorem scall_rel (a : AbsFn) {c s : Corr F} (h : c.Same s) (x : SCall F) :
    Out.Rel Corr.Same (x.run a c) (x.run a s) := by
  have hset : ∀ (set : Corr F → F → Corr F) (v : PyVal F), (∀ v, (set c v).Same (set s v)) →
      Out.Rel Corr.Same (Out.step c (assignOn set v c)) (Out.step s (assignOn set v s)) := by
    intro set v hs
    refine Out.Rel.step h ?_
    unfold assignOn
    split
    · exact hs _
    · rfl
  obtain ⟨h1, h2, h3, h4, h5, h6, h7, h8, h9⟩ := h
  cases x with
  | setMaxLag v => exact hset _ _ fun v => ⟨h1, h2, rfl, h4, h5, h6, h7, h8, h9⟩
  | setMinLag v => exact hset _ _ fun v => ⟨h1, h2, h3, rfl, h5, h6, h7, h8, h9⟩
  | setLagResolution v => exact hset _ _ fun v => ⟨h1, h2, h3, h4, rfl, h6, h7, h8, h9⟩
  | setAlpha v => exact hset _ _ fun v => ⟨h1, h2, h3, h4, h5, rfl, h7, h8, h9⟩
  | calculate => exact calculateOn_rel a ⟨h1, h2, h3, h4, h5, h6, h7, h8, h9⟩
  | find sel wt => exact findOn_rel a sel wt ⟨h1, h2, h3, h4, h5, h6, h7, h8, h9⟩
  | add it step =>
    refine Out.Rel.step ⟨h1, h2, h3, h4, h5, h6, h7, h8, h9⟩ ?_
    unfold addOn
    refine (Res.Rel.refl (R := Eq) (fun _ => rfl) (loadInt step)).bind fun u v huv => ?_
    subst huv
    split
    · trivial
    · exact addCorrelationData_rel ⟨h1, h2, h3, h4, h5, h6, h7, h8, h9⟩ _ _
  | clean i =>
    refine Out.Rel.step ⟨h1, h2, h3, h4, h5, h6, h7, h8, h9⟩ ?_
    unfold cleanOn
    refine (Res.Rel.refl (R := Eq) (fun _ => rfl) (loadInt i)).bind fun u v huv => ?_
    subst huv
    split
    · rfl
    · exact clean_rel ⟨h1, h2, h3, h4, h5, h6, h7, h8, h9⟩ _
  | clear => exact ⟨rfl, h1, h2, h3, h4, h5, h6, h7, rfl, rfl⟩

theorem runSession_rel (a : AbsFn) (xs : List (SCall F)) {c s : Corr F} (h : c.Same s) :
    Res.Rel (fun p q => Corr.Same p.1 q.1 ∧ p.2 = q.2) (runSession a c xs) (runSession a s xs) := by
  induction xs generalizing c s with
  | nil => exact ⟨h, rfl⟩
  | cons x xs ih =>
    have hx := scall_rel a h x
    unfold runSession
    cases h1 : x.run a c <;> cases h2 : x.run a s <;> rw [h1, h2] at hx <;> simp only [Out.Rel] at hx <;> try trivial
    · exact (ih hx.2).bind fun p q hpq => ⟨hpq.1, by rw [hpq.2]⟩
    · obtain ⟨rfl, hx⟩ := hx
      exact (ih hx).bind fun p q hpq => ⟨hpq.1, by rw [hpq.2]⟩

end Sacf
