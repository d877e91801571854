import Verif.Props.Iterator
import Verif.Spec.Work

/-!
# Sessions with several iterators (C73)
-/

set_option linter.unusedSectionVars false
set_option linter.unusedSimpArgs false

namespace Sacf

open Arith

section lawfree
variable {F : Type} [Arith F]

/-! ### what the methods of an iterator depend on -/

theorem ItMethod.run_congr (a : AbsFn) {c s : Corr F} (h1 : s.ds = c.ds) (h2 : s.norm = c.norm) (h3 : s.alpha = c.alpha) (it : CorrIt F)
    (m : ItMethod) : m.run a s it = m.run a c it := by
  cases m <;> simp only [ItMethod.run, Corr.naturalOn, Corr.fastOn, Corr.deltaOn, Corr.correlateOn, Corr.getFractionWeights,
    Corr.getFractionSquaredWeights, Corr.getGaussianWeights, Corr.applyWeights, h1, h2, h3]

/-- what the correlator keeps for the iterators -/
def Corr.Agrees (c s : Corr F) : Prop := s.ds = c.ds ∧ s.norm = c.norm ∧ s.alpha = c.alpha

theorem scall_agrees (a : AbsFn) (c : Corr F) (x : SCall F) :
    Out.All (fun s => s.ds = c.ds ∧ s.norm = c.norm ∧ s.alpha = lastOr x.alphaArg.toList c.alpha) (x.run a c) := by
  have h1 := scall_param (a := a) (c := c) (x := x)
  by_cases hx : x = .clear
  · subst hx; exact ⟨rfl, rfl, rfl⟩
  · have h2 := scall_good (a := a) (c := c) hx
    cases hr : x.run a c with
    | ok u s => rw [hr] at h1 h2; exact ⟨h2.2.1, h2.2.2, h1.2.2.2⟩
    | exn e s => rw [hr] at h1 h2; exact ⟨h2.2.1, h2.2.2, h1.2.2.2⟩
    | ub => trivial
    | diverge => trivial

/-- a call that does not concern iterator `i` changes neither it nor what its methods use -/
theorem wcall_frame (a : AbsFn) (w : Work F) (x : WCall F) (i : ℕ) (hi : i < w.its.length) (hx : x.concerns i = false) :
    Out.All (fun v => v.its[i]? = w.its[i]? ∧ w.corr.Agrees v.corr) (x.run a w) := by
  have base : w.its[i]? = w.its[i]? ∧ w.corr.Agrees w.corr := ⟨rfl, rfl, rfl, rfl⟩
  have hput : ∀ y : SCall F, y.alphaArg = none →
      Out.All (fun v => v.its[i]? = w.its[i]? ∧ w.corr.Agrees v.corr) (w.putCorr (y.run a w.corr)) := by
    intro y hy
    have := scall_agrees a w.corr y
    rw [hy] at this
    cases hr : y.run a w.corr with
    | ok u s => rw [hr] at this; exact ⟨rfl, this⟩
    | exn e s => rw [hr] at this; exact ⟨rfl, this⟩
    | ub => trivial
    | diverge => trivial
  cases x with
  | corr y =>
    apply hput
    cases y <;> simp_all [WCall.concerns, SCall.alphaArg]
  | new k n =>
    simp only [WCall.run]
    refine Out.All.step (P := fun v : Work F => v.its[i]? = w.its[i]? ∧ w.corr.Agrees v.corr) base ?_
    intro s' h
    rw [Res.bind_eq_ok] at h
    obtain ⟨it, _, h⟩ := h
    simp only [Res.ok.injEq] at h
    subst h
    exact ⟨List.getElem?_append_left hi, rfl, rfl, rfl⟩
  | setK j v =>
    cases j with
    | none => exact base
    | other => exact base
    | it j =>
      simp only [WCall.concerns, beq_eq_false_iff_ne] at hx
      simp only [WCall.run, Work.get]
      refine Out.All.step (P := fun v : Work F => v.its[i]? = w.its[i]? ∧ w.corr.Agrees v.corr) base ?_
      intro s' h
      cases hj : w.its[j]? with
      | none => rw [hj] at h; simp at h
      | some it =>
        rw [hj] at h
        simp only [Res.ok_bind] at h
        cases hv : v.asNum true with
        | none => rw [hv] at h; simp at h
        | some k =>
          rw [hv] at h
          simp only [Res.ok.injEq] at h
          subst h
          exact ⟨by simp [List.getElem?_set_ne hx], rfl, rfl, rfl⟩
  | call m j =>
    cases j with
    | none => trivial
    | other => exact base
    | it j =>
      simp only [WCall.concerns, beq_eq_false_iff_ne] at hx
      simp only [WCall.run, Work.get]
      cases hj : w.its[j]? with
      | none => exact base
      | some it =>
        simp only [Out.lift_ok, Out.ok_bind]
        cases m.run a w.corr it with
        | ok u s => exact ⟨by simp [List.getElem?_set_ne hx], rfl, rfl, rfl⟩
        | exn e s => exact ⟨by simp [List.getElem?_set_ne hx], rfl, rfl, rfl⟩
        | ub => trivial
        | diverge => trivial
  | add j step =>
    cases j with
    | none =>
      simp only [WCall.run]
      refine Out.All.step (P := fun v : Work F => v.its[i]? = w.its[i]? ∧ w.corr.Agrees v.corr) base ?_
      intro s' h
      rw [Res.bind_eq_ok] at h
      obtain ⟨_, _, h⟩ := h
      simp at h
    | other => exact base
    | it j =>
      simp only [WCall.run, Work.get]
      cases hj : w.its[j]? with
      | none => exact base
      | some it =>
        simp only [Out.lift_ok, Out.ok_bind]
        exact hput (.add it step) rfl

/-- the number of iterators never decreases -/
theorem wcall_count (a : AbsFn) (w : Work F) (x : WCall F) : Out.All (fun v => w.its.length ≤ v.its.length) (x.run a w) := by
  have hput : ∀ y : Out (Corr F) Unit, Out.All (fun v => w.its.length ≤ v.its.length) (w.putCorr y) := by
    intro y
    cases y <;> simp [Work.putCorr, Out.All]
  cases x with
  | corr y => exact hput _
  | new k n =>
    simp only [WCall.run]
    cases newItOn k n <;> simp [Out.step, Out.All]
  | setK j v =>
    cases j with
    | none => exact le_rfl
    | other => exact le_rfl
    | it j =>
      simp only [WCall.run, Work.get]
      cases w.its[j]? with
      | none => exact le_rfl
      | some it => cases v.asNum true <;> simp [Out.step, Out.All]
  | call m j =>
    cases j with
    | none => trivial
    | other => exact le_rfl
    | it j =>
      simp only [WCall.run, Work.get]
      cases w.its[j]? with
      | none => exact le_rfl
      | some it =>
        simp only [Out.lift_ok, Out.ok_bind]
        cases m.run a w.corr it <;> simp [Work.put, Out.All]
  | add j step =>
    cases j with
    | none =>
      simp only [WCall.run]
      cases loadInt step <;> simp [Out.step, Out.All]
    | other => exact le_rfl
    | it j =>
      simp only [WCall.run, Work.get]
      cases w.its[j]? with
      | none => exact le_rfl
      | some it => exact hput _

/-- the two states look the same to iterator `i` -/
structure SameFor (i : ℕ) (w v : Work F) : Prop where
  lt : i < w.its.length
  it : v.its[i]? = w.its[i]?
  corr : w.corr.Agrees v.corr

theorem SameFor.lt' {i : ℕ} {w v : Work F} (h : SameFor i w v) : i < v.its.length := by
  by_contra hc
  have := h.it
  rw [List.getElem?_eq_none (by omega), List.getElem?_eq_getElem h.lt] at this
  simp at this

/-- a call that concerns iterator `i` has the same effect on it in both states -/
theorem wcall_same (a : AbsFn) {i : ℕ} {w v : Work F} (h : SameFor i w v) (x : WCall F) (hx : x.concerns i = true) :
    Out.Rel (SameFor i) (x.run a w) (x.run a v) := by
  obtain ⟨it, hit⟩ : ∃ it, w.its[i]? = some it := ⟨_, List.getElem?_eq_getElem h.lt⟩
  have hit' : v.its[i]? = some it := by rw [h.it, hit]
  have hlt := h.lt
  have hlt' := h.lt'
  cases x with
  | corr y =>
    cases y with
    | setAlpha x =>
      simp only [WCall.concerns] at hx
      simp only [WCall.run, SCall.run, assignOn]
      cases hn : x.asNum true with
      | none => rw [hn] at hx; simp at hx
      | some z => exact ⟨rfl, h.lt, h.it, h.corr.1, h.corr.2.1, rfl⟩
    | _ => simp [WCall.concerns] at hx
  | new k n => simp [WCall.concerns] at hx
  | add j step => simp [WCall.concerns] at hx
  | setK j y =>
    cases j with
    | none => simp [WCall.concerns] at hx
    | other => simp [WCall.concerns] at hx
    | it j =>
      simp only [WCall.concerns, beq_iff_eq] at hx
      subst hx
      simp only [WCall.run, Work.get, hit, hit', Res.ok_bind]
      cases y.asNum true with
      | none => exact ⟨rfl, h⟩
      | some z => exact ⟨rfl, by simpa using hlt, by simp [hlt, hlt'], h.corr⟩
  | call m j =>
    cases j with
    | none => simp [WCall.concerns] at hx
    | other => simp [WCall.concerns] at hx
    | it j =>
      simp only [WCall.concerns, beq_iff_eq] at hx
      subst hx
      simp only [WCall.run, Work.get, hit, hit', Out.lift_ok, Out.ok_bind]
      rw [ItMethod.run_congr a h.corr.1 h.corr.2.1 h.corr.2.2]
      cases m.run a w.corr it with
      | ok u s => exact ⟨rfl, by simpa using hlt, by simp [hlt, hlt'], h.corr⟩
      | exn e s => exact ⟨rfl, by simpa using hlt, by simp [hlt, hlt'], h.corr⟩
      | ub => trivial
      | diverge => trivial

theorem SameFor.refl {i : ℕ} {w : Work F} (h : i < w.its.length) : SameFor i w w := ⟨h, rfl, rfl, rfl, rfl⟩

theorem runAll_cons_ok {a : AbsFn} {w w' : Work F} {x : WCall F} {xs : List (WCall F)} {log : List (Option Exc)}
    (h : w.runAll a (x :: xs) = .ok (w', log)) :
    ∃ v e log', (x.run a w = .ok () v ∧ e = none ∨ ∃ f, x.run a w = .exn f v ∧ e = some f) ∧ v.runAll a xs = .ok (w', log') ∧ log = e :: log' := by
  unfold Work.runAll at h
  cases hx : x.run a w with
  | ok u v =>
    rw [hx] at h
    simp only [Res.bind_eq_ok, Res.ok.injEq, Prod.mk.injEq] at h
    obtain ⟨⟨w1, l⟩, h1, rfl, rfl⟩ := h
    exact ⟨v, _, l, .inl ⟨rfl, rfl⟩, h1, rfl⟩
  | exn e v =>
    rw [hx] at h
    simp only [Res.bind_eq_ok, Res.ok.injEq, Prod.mk.injEq] at h
    obtain ⟨⟨w1, l⟩, h1, rfl, rfl⟩ := h
    exact ⟨v, _, l, .inr ⟨e, rfl, rfl⟩, h1, rfl⟩
  | ub => rw [hx] at h; simp at h
  | diverge => rw [hx] at h; simp at h

theorem interleaving (a : AbsFn) (i : ℕ) (calls : List (WCall F)) : ∀ (w v w' : Work F) (log : List (Option Exc)), SameFor i w v →
    w.runAll a calls = .ok (w', log) →
    ∃ v' log', v.runAll a (calls.filter (WCall.concerns i)) = .ok (v', log') ∧ v'.its[i]? = w'.its[i]? ∧
      log' = ((calls.zip log).filter fun p => p.1.concerns i).map Prod.snd ∧ SameFor i w' v' := by
  induction calls with
  | nil =>
    intro w v w' log h hr
    simp only [Work.runAll, Res.ok.injEq, Prod.mk.injEq] at hr
    obtain ⟨rfl, rfl⟩ := hr
    exact ⟨v, [], rfl, h.it, rfl, h⟩
  | cons x xs ih =>
    intro w v w' log h hr
    obtain ⟨w1, e, log1, hx, hxs, rfl⟩ := runAll_cons_ok hr
    cases hc : x.concerns i with
    | false =>
      have hall : w1.its[i]? = w.its[i]? ∧ w.corr.Agrees w1.corr := by
        have := wcall_frame a w x i h.lt hc
        rcases hx with ⟨hx, _⟩ | ⟨f, hx, _⟩ <;> rw [hx] at this <;> exact this
      have hcount : w.its.length ≤ w1.its.length := by
        have := wcall_count a w x
        rcases hx with ⟨hx, _⟩ | ⟨f, hx, _⟩ <;> rw [hx] at this <;> exact this
      have h1 : SameFor i w1 v := by
        obtain ⟨b1, b2, b3⟩ := hall.2
        obtain ⟨c1, c2, c3⟩ := h.corr
        exact ⟨by have := h.lt; omega, by rw [h.it, hall.1], by rw [c1, b1], by rw [c2, b2], by rw [c3, b3]⟩
      obtain ⟨v', log', k1, k2, k3, k4⟩ := ih w1 v w' log1 h1 hxs
      refine ⟨v', log', ?_, k2, ?_, k4⟩
      · rw [List.filter_cons_of_neg (by simp [hc])]; exact k1
      · rw [List.zip_cons_cons, List.filter_cons_of_neg (by simp [hc])]; exact k3
    | true =>
      have hrel := wcall_same a h x hc
      rw [List.filter_cons_of_pos hc, List.zip_cons_cons, List.filter_cons_of_pos (by simp [hc])]
      rcases hx with ⟨hx, rfl⟩ | ⟨f, hx, rfl⟩
      · rw [hx] at hrel
        cases hv : x.run a v with
        | ok u v1 =>
          rw [hv] at hrel
          obtain ⟨v', log', k1, k2, k3, k4⟩ := ih w1 v1 w' log1 hrel.2 hxs
          refine ⟨v', none :: log', ?_, k2, by rw [k3]; rfl, k4⟩
          unfold Work.runAll
          rw [hv]
          simp only
          rw [k1]
          rfl
        | _ => rw [hv] at hrel; exact hrel.elim
      · rw [hx] at hrel
        cases hv : x.run a v with
        | exn f' v1 =>
          rw [hv] at hrel
          obtain ⟨rfl, hrel⟩ := hrel
          obtain ⟨v', log', k1, k2, k3, k4⟩ := ih w1 v1 w' log1 hrel hxs
          refine ⟨v', some f :: log', ?_, k2, by rw [k3]; rfl, k4⟩
          unfold Work.runAll
          rw [hv]
          simp only
          rw [k1]
          rfl
        | _ => rw [hv] at hrel; exact hrel.elim

/-- **C73** (any arithmetic): what becomes of an iterator depends only on its own calls and on the numbers assigned to `alpha`.  From a session with any
number of iterators that returns, with any exceptions caught, all other calls can be left out: the session still returns, iterator `i` ends up the same, and its calls
raise the same exceptions. -/
theorem C73_interleaving (a : AbsFn) (i : ℕ) (w w' : Work F) (hi : i < w.its.length) (calls : List (WCall F)) (log : List (Option Exc))
    (h : w.runAll a calls = .ok (w', log)) :
    ∃ v' log', w.runAll a (calls.filter (WCall.concerns i)) = .ok (v', log') ∧ v'.its[i]? = w'.its[i]? ∧
      log' = ((calls.zip log).filter fun p => p.1.concerns i).map Prod.snd := by
  obtain ⟨v', log', h1, h2, h3, _⟩ := interleaving a i calls w w w' log (.refl hi) h
  exact ⟨v', log', h1, h2, h3⟩

/-- **C73** (any arithmetic): the calls on iterators leave the correlator as it is; only `addCorrelationData` and its own methods change it. -/
theorem C73_correlator (a : AbsFn) (w w' : Work F) (calls : List (WCall F)) (log : List (Option Exc)) (hc : ∀ x ∈ calls, x.touchesCorr = false)
    (h : w.runAll a calls = .ok (w', log)) : w'.corr = w.corr := by
  induction calls generalizing w log with
  | nil =>
    simp only [Work.runAll, Res.ok.injEq, Prod.mk.injEq] at h
    rw [← h.1]
  | cons x xs ih =>
    obtain ⟨w1, e, log1, hx, hxs, rfl⟩ := runAll_cons_ok h
    rw [ih w1 log1 (fun y hy => hc y (List.mem_cons_of_mem _ hy)) hxs]
    have key : Out.All (fun v : Work F => v.corr = w.corr) (x.run a w) := by
      have hx := hc x (by simp)
      cases x with
      | corr y => simp [WCall.touchesCorr] at hx
      | add j step => simp [WCall.touchesCorr] at hx
      | new k n => simp only [WCall.run]; cases newItOn k n <;> simp [Out.step, Out.All]
      | setK j v =>
        cases j with
        | none => rfl
        | other => rfl
        | it j =>
          simp only [WCall.run, Work.get]
          cases w.its[j]? with
          | none => rfl
          | some it => cases v.asNum true <;> simp [Out.step, Out.All]
      | call m j =>
        cases j with
        | none => trivial
        | other => rfl
        | it j =>
          simp only [WCall.run, Work.get]
          cases w.its[j]? with
          | none => rfl
          | some it =>
            simp only [Out.lift_ok, Out.ok_bind]
            cases m.run a w.corr it <;> simp [Work.put, Out.All]
    rcases hx with ⟨hx, _⟩ | ⟨f, hx, _⟩ <;> rw [hx] at key <;> exact key

/-! ### the calls for one lag -/

theorem lagPass_values (a : AbsFn) (sel wt : String) {c : Corr F} (h : c.ds.WF) (hn : c.norm.length = c.ds.N) (k : F) :
    ((lagPass a sel wt c (CorrIt.new k c.ds.N)).bind fun it => .ok (it.k, it.correlation))
      = (lagPlan a sel wt c.ds.normT c.alpha k).bind fun ps => .ok (k, (List.range c.ds.N).map fun j => c.val j ps) := by
  have main : ∀ (s : List Nat) (sh : List F) (r : Res (CorrIt F)), s.length = sh.length →
      sh.length ≤ c.ds.normT.length →
      r = .ok { CorrIt.new k c.ds.N with shifted := ⟨[], sh⟩, selection := s } →
      (r.bind fun it =>
        (Corr.deltaT a c it).bind fun it =>
        (weightFunction wt).bind fun w =>
        (Corr.findCorrelation c (w c it)).bind fun it => .ok (it.k, it.correlation))
      = (planDelta a c.ds.normT s sh).bind fun d =>
        (planWt wt).bind fun w =>
        .ok (k, (List.range c.ds.N).map fun j => c.val j ((d.map (w c.alpha)).zip s)) := by
    intro s sh r hl hle hr
    subst hr
    simp only [Res.ok_bind]
    have hdelta : Corr.deltaT a c { CorrIt.new k c.ds.N with shifted := ⟨[], sh⟩, selection := s }
        = (planDelta a c.ds.normT s sh).bind fun d =>
          .ok { CorrIt.new k c.ds.N with shifted := ⟨[], sh⟩, selection := s, deltaT := d } := by
      unfold Corr.deltaT
      simp only [Vec.raw, List.nil_append]
      have := mapL_zipIdx c.ds.normT (fun t x => a.app (sub t x)) s sh hl
      rw [this]
      unfold planDelta
      simp [CorrIt.new, Vec.clear]
    rw [hdelta, Res.bind_assoc]
    apply Res.bind_congr
    intro d hd
    have hdl : d.length = s.length := by
      have := Res.mapL_length hd; simp at this; omega
    have hb : ∀ x ∈ s, x < c.ds.M := by
      intro x hx
      obtain ⟨i, hi⟩ := List.mem_iff_getElem?.1 hx
      have hlt : i < s.length := by rw [List.getElem?_eq_some_iff] at hi; exact hi.1
      have hz : (s.zip sh)[i]? = some (x, sh[i]'(by omega)) := by
        rw [List.getElem?_zip_eq_some]; exact ⟨hi, by simp [hl ▸ hlt]⟩
      obtain ⟨y, _, hy⟩ := Res.mapL_eq_ok_getElem hd i _ hz
      rw [Res.bind_eq_ok] at hy
      obtain ⟨t, ht, _⟩ := hy
      rw [atGet_eq_ok, List.getElem?_eq_some_iff] at ht
      rw [h.M_eq]; exact ht.1
    have hfin : ∀ w : F → F → F,
        ((Corr.findCorrelation c (Corr.applyWeights w c
          { CorrIt.new k c.ds.N with shifted := ⟨[], sh⟩, selection := s, deltaT := d })).bind fun it => Res.ok (it.k, it.correlation))
        = .ok (k, (List.range c.ds.N).map fun j => c.val j ((d.map (w c.alpha)).zip s)) := by
      intro w
      rw [findCorrelation_eq h hn]
      · simp [Corr.applyWeights, CorrIt.new]
      · rfl
      · simp [Corr.applyWeights, CorrIt.new, hdl]
      · simp only [Corr.applyWeights, h.M_eq]; omega
      · simpa [Corr.applyWeights] using hb
    unfold weightFunction planWt
    split
    · exact hfin _
    · split
      · exact hfin _
      · split
        · exact hfin _
        · rfl
  unfold lagPass lagPlan planSel selectionFunction
  simp only [Res.bind_assoc]
  split
  · simp only [Res.ok_bind]
    rw [fastSelection_eq a c h.ne, Res.bind_assoc, Res.bind_assoc]
    apply Res.bind_congr
    intro s hs
    have hp : planSel a "fast" c.ds.normT k = .ok (s, shiftedFast c.ds.normT k) := by
      simp [planSel, hs]
    obtain ⟨h1, h2⟩ := planSel_length hp
    rw [main s _ _ h1 h2 rfl]
    simp only [Res.ok_bind, Res.bind_assoc]
  · split
    · simp only [Res.ok_bind]
      rw [naturalSelection_eq a c h.ne, Res.bind_assoc, Res.bind_assoc]
      apply Res.bind_congr
      intro s hs
      have hp : planSel a "natural" c.ds.normT k = .ok (s, shiftedNat c.ds.normT k) := by
        simp [planSel, hs]
      obtain ⟨h1, h2⟩ := planSel_length hp
      rw [main s _ _ h1 h2 rfl]
      simp only [Res.ok_bind, Res.bind_assoc]
    · rfl

theorem At_value {a : AbsFn} {d : DS F} (hd : Constructed d) {g : LagArgs F} {sel wt : String} {r : AcResult F}
    (hr : autocorrelation a d g sel wt = .ok r) {j m : ℕ} {k v : F} (hv : r.At j m k v) :
    ∃ ps, lagPlan a sel wt d.normT r.corr.getAlpha k = .ok ps ∧ j < d.N ∧
      v = corrValue (d.nrow j) (normOfRow (d.drow j) (d.dataMean.getD j zero)) ps := by
  obtain ⟨hm, row', hrow', hv'⟩ := hv
  obtain ⟨n1, L', hL', hlags, hcr, hcorr⟩ := autocorrelation_ok hd.wf hr
  rw [hlags, List.getElem?_map, Option.map_eq_some_iff] at hm
  obtain ⟨p', hp', rfl⟩ := hm
  rw [corrOut_rows hcr, List.getElem?_map, Option.map_eq_some_iff] at hrow'
  obtain ⟨j', hj', rfl⟩ := hrow'
  have hj : j' = j ∧ j < d.N := by
    obtain ⟨h1, h⟩ := List.getElem?_eq_some_iff.1 hj'
    simp at h h1
    omega
  obtain ⟨rfl, hjN⟩ := hj
  unfold DS.acRow at hv'
  rw [List.getElem?_map, hp', Option.map_some, Option.some.injEq] at hv'
  have hplan' := acPlan_ok hL' p' (List.mem_iff_getElem?.2 ⟨m, hp'⟩)
  have hα' : r.corr.getAlpha = g.alpha.getD d.tMedian := by
    show r.corr.alpha = _
    rw [hcorr, setUp_fields]; rfl
  exact ⟨p'.2, by rw [hα']; exact hplan', hjN, hv'.symm⟩

theorem runSession_append (a : AbsFn) (xs ys : List (SCall F)) (c : Corr F) :
    runSession a c (xs ++ ys) = (runSession a c xs).bind fun p => (runSession a p.1 ys).bind fun q => .ok (q.1, p.2 ++ q.2) := by
  induction xs generalizing c with
  | nil =>
    simp only [List.nil_append, runSession, Res.ok_bind]
    cases runSession a c ys <;> rfl
  | cons x xs ih =>
    rw [List.cons_append]
    unfold runSession
    cases x.run a c with
    | ok u s =>
      simp only
      rw [ih, Res.bind_assoc, Res.bind_assoc]
      apply Res.bind_congr; intro p _
      rw [Res.bind_assoc, Res.ok_bind]
      cases p.1; cases ys <;> rfl
    | exn e s =>
      simp only
      rw [ih, Res.bind_assoc, Res.bind_assoc]
      apply Res.bind_congr; intro p _
      rw [Res.bind_assoc, Res.ok_bind]
      cases p.1; cases ys <;> rfl
    | ub => rfl
    | diverge => rfl

theorem Reached.snoc {a : AbsFn} {d : DS F} {c : Corr F} (h : Reached a d c) {x : SCall F} (hx : x ≠ .clear) :
    Out.All (Reached a d) (x.run a c) := by
  obtain ⟨c0, xs, log, h0, hcl, h1⟩ := h
  have hcl' : ∀ y ∈ xs ++ [x], y ≠ SCall.clear := by
    intro y hy
    rcases List.mem_append.1 hy with hy | hy
    · exact hcl y hy
    · rw [List.mem_singleton] at hy; subst hy; exact hx
  cases hr : x.run a c with
  | ok u s =>
    refine ⟨c0, xs ++ [x], log ++ [none], h0, hcl', ?_⟩
    rw [runSession_append, h1, Res.ok_bind]
    simp only [runSession, hr]
    rfl
  | exn e s =>
    refine ⟨c0, xs ++ [x], log ++ [some e], h0, hcl', ?_⟩
    rw [runSession_append, h1, Res.ok_bind]
    simp only [runSession, hr]
    rfl
  | ub => trivial
  | diverge => trivial

/-- a session with iterators is a session for the correlator -/
theorem wcall_reached {a : AbsFn} {d : DS F} {w : Work F} (h : Reached a d w.corr) (x : WCall F) (hx : x ≠ .corr .clear) :
    Out.All (fun v => Reached a d v.corr) (x.run a w) := by
  have hput : ∀ y : SCall F, y ≠ .clear → Out.All (fun v => Reached a d v.corr) (w.putCorr (y.run a w.corr)) := by
    intro y hy
    have := h.snoc hy
    cases hr : y.run a w.corr <;> rw [hr] at this <;> simp_all [Work.putCorr, Out.All]
  have frame : x.touchesCorr = false → Out.All (fun v => Reached a d v.corr) (x.run a w) := by
    intro ht
    cases hr : x.run a w with
    | ok u v =>
      have := C73_correlator a w v [x] [none] (by simpa using ht) (by simp only [Work.runAll, hr]; rfl)
      show Reached a d v.corr
      rw [this]; exact h
    | exn e v =>
      have := C73_correlator a w v [x] [some e] (by simpa using ht) (by simp only [Work.runAll, hr]; rfl)
      show Reached a d v.corr
      rw [this]; exact h
    | ub => trivial
    | diverge => trivial
  cases x with
  | corr y => exact hput y (fun e => hx (by rw [e]))
  | add j step =>
    cases j with
    | none =>
      simp only [WCall.run]
      cases loadInt step <;> simp [Out.step, Out.All, h]
    | other => exact h
    | it j =>
      simp only [WCall.run, Work.get]
      cases w.its[j]? with
      | none => exact h
      | some it =>
        simp only [Out.lift_ok, Out.ok_bind]
        exact hput (.add it step) (by simp)
  | new k n => exact frame rfl
  | setK j v => exact frame rfl
  | call m j => exact frame rfl

theorem runAll_reached {a : AbsFn} {d : DS F} (calls : List (WCall F)) : ∀ {w w' : Work F} {log : List (Option Exc)}, Reached a d w.corr →
    (∀ x ∈ calls, x ≠ .corr .clear) → w.runAll a calls = .ok (w', log) → Reached a d w'.corr := by
  induction calls with
  | nil =>
    intro w w' log h _ hr
    simp only [Work.runAll, Res.ok.injEq, Prod.mk.injEq] at hr
    rw [← hr.1]; exact h
  | cons x xs ih =>
    intro w w' log h hcl hr
    obtain ⟨w1, e, log1, hx, hxs, rfl⟩ := runAll_cons_ok hr
    refine ih ?_ (fun y hy => hcl y (List.mem_cons_of_mem _ hy)) hxs
    have := wcall_reached h x (hcl x (by simp))
    rcases hx with ⟨hx, _⟩ | ⟨f, hx, _⟩ <;> rw [hx] at this <;> exact this

theorem call_ok {a : AbsFn} {w : Work F} {i : ℕ} {it it' : CorrIt F} (hit : w.its[i]? = some it) {m : ItMethod}
    (hm : m.run a w.corr it = .ok () it') : (WCall.call m (.it i)).run a w = .ok () { w with its := w.its.set i it' } := by
  simp only [WCall.run, Work.get, hit, Out.lift_ok, Out.ok_bind, hm, Work.put]

/-- the four calls for one lag, one after the other -/
theorem four_calls {a : AbsFn} {sel wt : String} {ms mw : ItMethod} (hs : ItMethod.ofSelection sel = some ms) (hw : ItMethod.ofWeight wt = some mw)
    {w : Work F} {i : ℕ} {it it' : CorrIt F} (hit : w.its[i]? = some it) (h : lagPass a sel wt w.corr it = .ok it') :
    ∃ log, w.runAll a [.call ms (.it i), .call .deltaT (.it i), .call mw (.it i), .call .find (.it i)]
      = .ok ({ w with its := w.its.set i it' }, log) := by
  have hlt : i < w.its.length := (List.getElem?_eq_some_iff.1 hit).1
  unfold lagPass at h
  simp only [Res.bind_eq_ok] at h
  obtain ⟨f, hf, it1, h1, it2, h2, u, hu, h3⟩ := h
  have r1 : ms.run a w.corr it = .ok () it1 := by
    apply Out.of_res_ok
    unfold ItMethod.ofSelection at hs
    split at hs
    · simp only [Option.some.injEq] at hs
      subst hs
      rw [show selectionFunction a "natural" = .ok (Corr.naturalSelection (F := F) a) from by simp [selectionFunction], Res.ok.injEq] at hf
      subst hf
      exact (naturalOn_res a w.corr it).trans h1
    · simp only [Option.some.injEq] at hs
      subst hs
      rw [show selectionFunction a "fast" = .ok (Corr.fastSelection (F := F) a) from by simp [selectionFunction], Res.ok.injEq] at hf
      subst hf
      exact (fastOn_res a w.corr it).trans h1
    · simp at hs
  have r2 : ItMethod.deltaT.run a w.corr it1 = .ok () it2 := Out.of_res_ok ((deltaOn_res a w.corr it1).trans h2)
  have r3 : mw.run a w.corr it2 = .ok () (u w.corr it2) := by
    unfold ItMethod.ofWeight at hw
    split at hw
    · simp only [Option.some.injEq] at hw
      subst hw
      simp [weightFunction] at hu
      subst hu
      rfl
    · simp only [Option.some.injEq] at hw
      subst hw
      simp [weightFunction] at hu
      subst hu
      rfl
    · simp only [Option.some.injEq] at hw
      subst hw
      simp [weightFunction] at hu
      subst hu
      rfl
    · simp at hw
  have r4 : ItMethod.find.run a w.corr (u w.corr it2) = .ok () it' := Out.of_res_ok ((correlateOn_res w.corr _).trans h3)
  refine ⟨[none, none, none, none], ?_⟩
  simp only [Work.runAll]
  rw [call_ok hit r1]
  simp only
  rw [call_ok (w := { w with its := w.its.set i it1 }) (it := it1) (by simp [hlt]) r2]
  simp only
  rw [List.set_set, call_ok (w := { w with its := w.its.set i it2 }) (it := it2) (by simp [hlt]) r3]
  simp only
  rw [List.set_set, call_ok (w := { w with its := w.its.set i (u w.corr it2) }) (it := u w.corr it2) (by simp [hlt]) r4]
  simp

theorem runAll_append (a : AbsFn) (xs ys : List (WCall F)) : ∀ w : Work F, w.runAll a (xs ++ ys)
    = (w.runAll a xs).bind fun p => (p.1.runAll a ys).bind fun p' => .ok (p'.1, p.2 ++ p'.2) := by
  induction xs with
  | nil =>
    intro w
    simp only [List.nil_append, Work.runAll, Res.ok_bind]
    cases w.runAll a ys <;> rfl
  | cons x xs ih =>
    intro w
    simp only [List.cons_append, Work.runAll]
    cases x.run a w with
    | ok u w => simp only [ih, Res.bind_assoc, Res.ok_bind, List.cons_append]
    | exn e w => simp only [ih, Res.bind_assoc, Res.ok_bind, List.cons_append]
    | ub => rfl
    | diverge => rfl

/-- what `addCorrelationData` writes for an iterator whose own calls, run alone, leave the values of a lag `k` in it -/
theorem add_after {a : AbsFn} {d : DS F} (hd : Constructed d) {w w' : Work F} (hw : Reached a d w.corr) {sel wt : String} {k : F} {i : ℕ} (hi : i < w.its.length)
    {calls own : List (WCall F)} {log : List (Option Exc)} (hcl : ∀ x ∈ calls, x ≠ .corr .clear) (hown : calls.filter (WCall.concerns i) = own)
    (h : w.runAll a calls = .ok (w', log)) {it' : CorrIt F} (hit' : lagPass a sel wt w.corr (CorrIt.new k d.N) = .ok it') {k' : F}
    (hrun : ∃ log, w.runAll a own = .ok ({ w with its := w.its.set i { it' with k := k' } }, log))
    {g : LagArgs F} {r : AcResult F} (hr : autocorrelation a d g sel wt = .ok r)
    (hα : r.corr.getAlpha = w.corr.getAlpha) {j m : ℕ} {v : F} (hv : r.At j m k v) {n : ℕ} (hn : n < w'.corr.lagTimeseries.length)
    (hn2 : n ≤ 2147483647) :
    ∃ c', (WCall.add (.it i) (some n)).run a w' = .ok () { w' with corr := c' } ∧ c'.lagTimeseries[n]? = some k' ∧ c'.EntryIs j n v := by
  obtain ⟨hg, hds, n0, h0, hnorm⟩ := hw.good hd
  obtain ⟨ps, hps, hj, rfl⟩ := At_value hd hr hv
  have hval := lagPass_values a sel wt hg.wf hg.norm_len k
  rw [hα] at hps
  rw [hds, show w.corr.alpha = w.corr.getAlpha from rfl, hps, Res.ok_bind, hit', Res.ok_bind] at hval
  simp only [Res.ok.injEq, Prod.mk.injEq] at hval
  obtain ⟨_, hcor⟩ := hval
  obtain ⟨v', log', h1, h2, _⟩ := C73_interleaving a i w w' hi calls log h
  obtain ⟨log2, h4⟩ := hrun
  rw [hown, h4] at h1
  simp only [Res.ok.injEq, Prod.mk.injEq] at h1
  rw [← h1.1] at h2
  simp only [List.getElem?_set_self hi] at h2
  have hreach := runAll_reached calls hw hcl h
  have hrows := hreach.rows hd
  obtain ⟨hadd, _⟩ := C67_add a d hd w'.corr hreach { it' with k := k' } _ hrows
  obtain ⟨c', e1, e2, rows', e3, e4, e5⟩ := hadd n hn hn2 (by simp only; rw [hcor]; simp)
  refine ⟨c', ?_, ?_, ?_⟩
  · simp only [WCall.run, Work.get, ← h2, Out.lift_ok, Out.ok_bind, SCall.run, e1]
    rfl
  · rw [e2]; simp [hn]
  · refine ⟨rows', _, e3, e5 j (rowOf w'.corr.corrBuf w'.corr.numLagSteps j)
      (corrValue (d.nrow j) (normOfRow (d.drow j) (d.dataMean.getD j zero)) ps) ?_ ?_, ?_⟩
    · simp [hj]
    · simp only
      rw [hcor]
      simp only [List.getElem?_map, List.getElem?_range hj, Option.map_some, Option.some.injEq]
      unfold Corr.val
      rw [hds, hnorm]
      simp [Corr.fresh, DS.norms, hj]
    · have : n < (rowOf w'.corr.corrBuf w'.corr.numLagSteps j).length := by
        have hl : w'.corr.lagTimeseries.length = w'.corr.numLagSteps := (hreach.good hd).1.ts_len
        have hb := (hreach.good hd).1.corr_len
        rw [(hreach.good hd).2.1] at hb
        have := Nat.mul_le_mul_right w'.corr.numLagSteps hj
        rw [Nat.succ_mul] at this
        simp [rowOf]
        omega
      simp [this]

/-- the pass that `autocorrelation` made for a lag it reports -/
theorem pass_of_At {a : AbsFn} {d : DS F} (hd : Constructed d) {c : Corr F} (hw : Reached a d c) {sel wt : String} {k : F} {g : LagArgs F} {r : AcResult F}
    (hr : autocorrelation a d g sel wt = .ok r) (hα : r.corr.getAlpha = c.getAlpha) {j m : ℕ} {v : F} (hv : r.At j m k v) :
    ∃ it', lagPass a sel wt c (CorrIt.new k d.N) = .ok it' ∧ it'.k = k := by
  obtain ⟨hg, hds, n0, h0, hnorm⟩ := hw.good hd
  obtain ⟨ps, hps, hj, rfl⟩ := At_value hd hr hv
  have hval := lagPass_values a sel wt hg.wf hg.norm_len k
  rw [hα] at hps
  rw [hds, show c.alpha = c.getAlpha from rfl, hps, Res.ok_bind, Res.bind_eq_ok] at hval
  obtain ⟨it', hit', hcor⟩ := hval
  simp only [Res.ok.injEq, Prod.mk.injEq] at hcor
  exact ⟨it', hit', hcor.1⟩

/-- **C73** (any arithmetic): the protocol for one lag – a new iterator, selection, `deltaT`, weights, `findCorrelation` – interleaved with any other calls that leave `alpha`
alone, among them the same protocol for other lags and calls that raise: `addCorrelationData` then writes the lag and the values that
`autocorrelation` with the same functions and the same `alpha` reports at this lag. -/
theorem C73_protocol (a : AbsFn) (d : DS F) (hd : Constructed d) (w w' : Work F) (hw : Reached a d w.corr) (sel wt : String) (ms mw : ItMethod)
    (hs : ItMethod.ofSelection sel = some ms) (hwt : ItMethod.ofWeight wt = some mw) (k : F) (i : ℕ) (hi : w.its[i]? = some (CorrIt.new k d.N))
    (calls : List (WCall F)) (log : List (Option Exc)) (hcl : ∀ x ∈ calls, x ≠ .corr .clear)
    (hown : calls.filter (WCall.concerns i) = [.call ms (.it i), .call .deltaT (.it i), .call mw (.it i), .call .find (.it i)])
    (h : w.runAll a calls = .ok (w', log)) (g : LagArgs F) (r : AcResult F) (hr : autocorrelation a d g sel wt = .ok r)
    (hα : r.corr.getAlpha = w.corr.getAlpha) (j m : ℕ) (v : F) (hv : r.At j m k v) (n : ℕ) (hn : n < w'.corr.lagTimeseries.length)
    (hn2 : n ≤ 2147483647) :
    ∃ c', (WCall.add (.it i) (some n)).run a w' = .ok () { w' with corr := c' } ∧ c'.lagTimeseries[n]? = some k ∧ c'.EntryIs j n v := by
  obtain ⟨it', hit', hk⟩ := pass_of_At hd hw hr hα hv
  obtain ⟨log2, h4⟩ := four_calls hs hwt hi hit'
  exact add_after hd hw (List.getElem?_eq_some_iff.1 hi).1 hcl hown h hit' (k' := k) ⟨log2, by rw [h4, ← hk]⟩ hr hα hv hn hn2

/-- **C73** (any arithmetic): assigning the attribute `k` of a new iterator before the protocol is as good as giving this lag to the constructor. -/
theorem C73_k_before (a : AbsFn) (d : DS F) (hd : Constructed d) (w w' : Work F) (hw : Reached a d w.corr) (sel wt : String) (ms mw : ItMethod)
    (hs : ItMethod.ofSelection sel = some ms) (hwt : ItMethod.ofWeight wt = some mw) (k0 k : F) (i : ℕ) (hi : w.its[i]? = some (CorrIt.new k0 d.N))
    (calls : List (WCall F)) (log : List (Option Exc)) (hcl : ∀ x ∈ calls, x ≠ .corr .clear) (x : PyVal F) (hx : x.asNum true = some k)
    (hown : calls.filter (WCall.concerns i)
      = [.setK (.it i) x, .call ms (.it i), .call .deltaT (.it i), .call mw (.it i), .call .find (.it i)])
    (h : w.runAll a calls = .ok (w', log)) (g : LagArgs F) (r : AcResult F) (hr : autocorrelation a d g sel wt = .ok r)
    (hα : r.corr.getAlpha = w.corr.getAlpha) (j m : ℕ) (v : F) (hv : r.At j m k v) (n : ℕ) (hn : n < w'.corr.lagTimeseries.length)
    (hn2 : n ≤ 2147483647) :
    ∃ c', (WCall.add (.it i) (some n)).run a w' = .ok () { w' with corr := c' } ∧ c'.lagTimeseries[n]? = some k ∧ c'.EntryIs j n v := by
  obtain ⟨it', hit', hk⟩ := pass_of_At hd hw hr hα hv
  have hlt := (List.getElem?_eq_some_iff.1 hi).1
  obtain ⟨log2, h4⟩ := four_calls (i := i) (w := { w with its := w.its.set i (CorrIt.new k d.N) }) hs hwt (by simp [hlt]) hit'
  refine add_after hd hw hlt hcl hown h hit' (k' := k) ⟨none :: log2, ?_⟩ hr hα hv hn hn2
  have e : (WCall.setK (.it i) x).run a w = .ok () { w with its := w.its.set i (CorrIt.new k d.N) } := by
    simp only [WCall.run, Work.get, hi, Res.ok_bind, hx]
    rfl
  rw [Work.runAll, e]
  simp only
  rw [h4, Res.ok_bind, List.set_set, ← hk]

/-- **C73** (any arithmetic): assigning `k` after the protocol changes nothing but the lag under which `addCorrelationData` stores the values. -/
theorem C73_k_after (a : AbsFn) (d : DS F) (hd : Constructed d) (w w' : Work F) (hw : Reached a d w.corr) (sel wt : String) (ms mw : ItMethod)
    (hs : ItMethod.ofSelection sel = some ms) (hwt : ItMethod.ofWeight wt = some mw) (k k' : F) (i : ℕ) (hi : w.its[i]? = some (CorrIt.new k d.N))
    (calls : List (WCall F)) (log : List (Option Exc)) (hcl : ∀ x ∈ calls, x ≠ .corr .clear) (x : PyVal F) (hx : x.asNum true = some k')
    (hown : calls.filter (WCall.concerns i)
      = [.call ms (.it i), .call .deltaT (.it i), .call mw (.it i), .call .find (.it i), .setK (.it i) x])
    (h : w.runAll a calls = .ok (w', log)) (g : LagArgs F) (r : AcResult F) (hr : autocorrelation a d g sel wt = .ok r)
    (hα : r.corr.getAlpha = w.corr.getAlpha) (j m : ℕ) (v : F) (hv : r.At j m k v) (n : ℕ) (hn : n < w'.corr.lagTimeseries.length)
    (hn2 : n ≤ 2147483647) :
    ∃ c', (WCall.add (.it i) (some n)).run a w' = .ok () { w' with corr := c' } ∧ c'.lagTimeseries[n]? = some k' ∧ c'.EntryIs j n v := by
  obtain ⟨it', hit', hk⟩ := pass_of_At hd hw hr hα hv
  have hlt := (List.getElem?_eq_some_iff.1 hi).1
  obtain ⟨log2, h4⟩ := four_calls hs hwt hi hit'
  refine add_after hd hw hlt hcl hown h hit' (k' := k') ⟨log2 ++ [none], ?_⟩ hr hα hv hn hn2
  have e : (WCall.setK (.it i) x).run a { w with its := w.its.set i it' } = .ok () { w with its := w.its.set i { it' with k := k' } } := by
    simp only [WCall.run, Work.get, List.getElem?_set_self hlt, Res.ok_bind, hx, List.set_set]
    rfl
  have := runAll_append a [.call ms (.it i), .call .deltaT (.it i), .call mw (.it i), .call .find (.it i)] [.setK (.it i) x] w
  rw [h4] at this
  simp only [List.cons_append, List.nil_append] at this
  rw [this, Res.ok_bind]
  simp only [Work.runAll, e, Res.ok_bind]

end lawfree

/-! ### examples -/

/-- two iterators interleaved, with calls that raise in between (a text as the maximal lag, a selection of something that is no iterator, an integer that is none) -/
def twoIterators : List (WCall Q) :=
  [.new (.float (.fin 1)) (.float (.fin 1)), .new (.float (.fin 2)) (.int (some (.fin 1))), .call .natural (.it 0), .corr (.setMaxLag (.str "all")), .call .natural (.it 1),
   .call .deltaT (.it 1), .call .deltaT (.it 0), .call .gaussian .other, .call .fraction (.it 0), .call .fraction (.it 1), .call .find (.it 1), .add (.it 1) none,
   .add (.it 1) (some 0), .call .find (.it 0), .add (.it 0) (some 1), .corr (.clean (some 2))]

/-- lags 2 and 1 with the values of `autocorrelation` -/
example : (((mkFlat (q [0, 1, 3]) (q [1, 2, 6])).bind Corr.new).bind fun c =>
    (Work.runAll .fabs ⟨c, []⟩ twoIterators).bind fun p => .ok (p.1.corr.lagTimeseries, p.1.corr.correlations, p.2))
    = .ok (q [2, 1], .ok [q [-3/7, 1/28]], [none, none, none, some .typeError, none, none, none, some .typeError, none, none, none, some .typeError, none, none,
        none, none]) := by decide +kernel
example : ((mkFlat (q [0, 1, 3]) (q [1, 2, 6])).bind fun d =>
    (autocorrelation .fabs d ⟨some (.fin 1), some (.fin 2), some (.fin 1), none⟩ "natural" "fractional").bind fun r => .ok (r.lags, r.corrs))
    = .ok (q [0, 1, 2], .flat (q [1, 1/28, -3/7])) := by decide +kernel
/-- once the iterators are there, the calls that concern each of them are the protocol -/
example : (twoIterators.drop 2).filter (WCall.concerns 0)
    = [.call .natural (.it 0), .call .deltaT (.it 0), .call .fraction (.it 0), .call .find (.it 0)] := rfl
example : (twoIterators.drop 2).filter (WCall.concerns 1)
    = [.call .natural (.it 1), .call .deltaT (.it 1), .call .fraction (.it 1), .call .find (.it 1)] := rfl

/-- `k` assigned before the protocol (0, made for lag 9) and after it (1): the lags stored are 2 and 7, the values those of the lags 2 and 1 -/
def assignedK : List (WCall Q) :=
  [.new (.float (.fin 9)) (.int (some (.fin 1))), .new (.float (.fin 1)) (.int (some (.fin 1))), .setK (.it 0) (.float (.fin 2)), .call .natural (.it 0),
   .call .natural (.it 1), .call .deltaT (.it 0), .call .fraction (.it 0), .call .find (.it 0), .call .deltaT (.it 1), .call .fraction (.it 1), .call .find (.it 1),
   .setK (.it 1) (.float (.fin 7)), .add (.it 0) (some 0), .add (.it 1) (some 1), .corr (.clean (some 2))]
example : (((mkFlat (q [0, 1, 3]) (q [1, 2, 6])).bind Corr.new).bind fun c =>
    (Work.runAll .fabs ⟨c, []⟩ assignedK).bind fun p => .ok (p.1.corr.lagTimeseries, p.1.corr.correlations))
    = .ok (q [2, 7], .ok [q [-3/7, 1/28]]) := by decide +kernel
example : (assignedK.drop 2).filter (WCall.concerns 0)
    = [.setK (.it 0) (.float (.fin 2)), .call .natural (.it 0), .call .deltaT (.it 0), .call .fraction (.it 0), .call .find (.it 0)] := rfl
example : (assignedK.drop 2).filter (WCall.concerns 1)
    = [.call .natural (.it 1), .call .deltaT (.it 1), .call .fraction (.it 1), .call .find (.it 1), .setK (.it 1) (.float (.fin 7))] := rfl

end Sacf
