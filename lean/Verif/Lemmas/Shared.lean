import Verif.Lemmas.Threads
import Verif.Props.Session

/-! Several threads in `find_correlation` on one correlator. -/

set_option linter.unusedSectionVars false
set_option linter.unusedSimpArgs false

namespace Sacf

open Arith Res

variable {F : Type} [Arith F]

/-! ### the calls for one lag do not look at the buffers -/

section
variable {c s : Corr F}

theorem Corr.Kept.selection (h : c.Kept s) {a : AbsFn} {sel : PyName} {f : Corr F → CorrIt F → Res (CorrIt F)}
    (hf : sel.lookup (selectionFunction a) = .ok f) (it : CorrIt F) : f s it = f c it := by
  cases sel with
  | str x =>
    simp only [PyName.lookup, selectionFunction] at hf
    split at hf
    · simp only [Res.ok.injEq] at hf; subst hf; simp only [Corr.fastSelection, h.ds]
    · split at hf
      · simp only [Res.ok.injEq] at hf; subst hf; simp only [Corr.naturalSelection, h.ds]
      · simp at hf
  | obj r => simp [PyName.lookup] at hf
  | unhashable => simp [PyName.lookup] at hf

theorem Corr.Kept.weights (h : c.Kept s) {wt : PyName} {w : Corr F → CorrIt F → CorrIt F}
    (hf : wt.lookup (weightFunction (F := F)) = .ok w) (it : CorrIt F) : w s it = w c it := by
  have key : ∀ g : F → F → F, Corr.applyWeights g s it = Corr.applyWeights g c it := fun g => by
    simp only [Corr.applyWeights, h.alpha]
  cases wt with
  | str x =>
    simp only [PyName.lookup, weightFunction] at hf
    split at hf
    · simp only [Res.ok.injEq] at hf; subst hf; exact key _
    · split at hf
      · simp only [Res.ok.injEq] at hf; subst hf; exact key _
      · split at hf
        · simp only [Res.ok.injEq] at hf; subst hf; exact key _
        · simp at hf
  | obj r => simp [PyName.lookup] at hf
  | unhashable => simp [PyName.lookup] at hf

theorem Corr.Kept.delta (h : c.Kept s) (a : AbsFn) (it : CorrIt F) : Corr.deltaT a s it = Corr.deltaT a c it := by
  simp only [Corr.deltaT, h.ds]

theorem Corr.Kept.sum (h : c.Kept s) (it : CorrIt F) : Corr.findCorrelation s it = Corr.findCorrelation c it := by
  simp only [Corr.findCorrelation, Corr.sumCorrelation, h.ds, h.norm]

theorem Corr.Kept.pass (h : c.Kept s) (a : AbsFn) (sel wt : PyName) (k : F) : namePass a sel wt s k = namePass a sel wt c k := by
  unfold namePass
  refine Res.bind_congr fun f hf => ?_
  rw [h.selection hf, h.ds]
  refine Res.bind_congr fun it _ => ?_
  rw [h.delta]
  refine Res.bind_congr fun it _ => ?_
  refine Res.bind_congr fun w hw => ?_
  rw [h.weights hw, h.sum]

end

theorem foldL_length {α β : Type} {f : List α → β → Res (List α)} (h : ∀ s x s', f s x = .ok s' → s'.length = s.length) (l : List β)
    (s s' : List α) (hs : Res.foldL f s l = .ok s') : s'.length = s.length := by
  induction l generalizing s with
  | nil => simp only [Res.foldL, Res.ok.injEq] at hs; rw [hs]
  | cons x l ih =>
    rw [Res.foldL_cons, Res.bind_eq_ok] at hs
    obtain ⟨s1, h1, h2⟩ := hs
    rw [ih s1 h2, h s x s1 h1]

theorem rawSet_length {α : Type} {v v' : List α} {i : Nat} {x : α} (h : rawSet v i x = .ok v') : v'.length = v.length := by
  obtain ⟨_, rfl⟩ := rawSet_eq_ok.1 h
  simp

theorem selection_keeps {a : AbsFn} {sel : PyName} {f : Corr F → CorrIt F → Res (CorrIt F)}
    (hf : sel.lookup (selectionFunction a) = .ok f) {c : Corr F} {it it' : CorrIt F} (h : f c it = .ok it') :
    it'.correlation = it.correlation ∧ it'.k = it.k := by
  cases sel with
  | str x =>
    simp only [PyName.lookup, selectionFunction] at hf
    split at hf
    · simp only [Res.ok.injEq] at hf; subst hf
      simp only [Corr.fastSelection, Res.bind_eq_ok] at h
      obtain ⟨_, _, h⟩ := h
      split at h
      · simp only [Res.ok.injEq] at h; subst h; exact ⟨rfl, rfl⟩
      · simp only [Res.bind_eq_ok, Res.ok.injEq] at h
        obtain ⟨_, _, _, _, _, _, _, _, _, _, _, _, _, _, rfl⟩ := h
        exact ⟨rfl, rfl⟩
    · split at hf
      · simp only [Res.ok.injEq] at hf; subst hf
        simp only [Corr.naturalSelection, Res.bind_eq_ok, Res.ok.injEq] at h
        obtain ⟨_, _, _, _, rfl⟩ := h
        exact ⟨rfl, rfl⟩
      · simp at hf
  | obj r => simp [PyName.lookup] at hf
  | unhashable => simp [PyName.lookup] at hf

theorem weight_keeps {wt : PyName} {w : Corr F → CorrIt F → CorrIt F} (hf : wt.lookup (weightFunction (F := F)) = .ok w)
    (c : Corr F) (it : CorrIt F) : (w c it).correlation = it.correlation ∧ (w c it).k = it.k := by
  cases wt with
  | str x =>
    simp only [PyName.lookup, weightFunction] at hf
    split at hf
    · simp only [Res.ok.injEq] at hf; subst hf; exact ⟨rfl, rfl⟩
    · split at hf
      · simp only [Res.ok.injEq] at hf; subst hf; exact ⟨rfl, rfl⟩
      · split at hf
        · simp only [Res.ok.injEq] at hf; subst hf; exact ⟨rfl, rfl⟩
        · simp at hf
  | obj r => simp [PyName.lookup] at hf
  | unhashable => simp [PyName.lookup] at hf

/-- one value for each dataset, for this lag -/
theorem namePass_facts {a : AbsFn} {sel wt : PyName} {c : Corr F} {k : F} {it : CorrIt F} (h : namePass a sel wt c k = .ok it) :
    it.correlation.length = c.ds.N ∧ it.k = k := by
  unfold namePass at h
  simp only [Res.bind_eq_ok] at h
  obtain ⟨f, hf, it1, h1, it2, h2, w, hw, h3⟩ := h
  have e1 := selection_keeps hf h1
  have e2 : it2.correlation = it1.correlation ∧ it2.k = it1.k := by
    simp only [Corr.deltaT, Res.bind_eq_ok, Res.ok.injEq] at h2
    obtain ⟨_, _, rfl⟩ := h2
    exact ⟨rfl, rfl⟩
  have e3 := weight_keeps hw c it2
  simp only [Corr.findCorrelation, Res.bind_eq_ok, Res.ok.injEq] at h3
  obtain ⟨out, h4, rfl⟩ := h3
  have := foldL_length (fun s x s' hs => by
    simp only [Res.bind_eq_ok] at hs
    obtain ⟨_, _, _, _, _, _, hs⟩ := hs
    exact rawSet_length hs) _ _ _ h4
  simp only [this, e3.1, e2.1, e1.1, e3.2, e2.2, e1.2, CorrIt.new, List.length_replicate, and_self]

/-! ### the buffers -/

/-- the correlator after the results of the iterators `V` have been put into the first slots -/
def Corr.filled (c : Corr F) (V : List (CorrIt F)) : Corr F :=
  { c with
    tsBuf := V.map CorrIt.k ++ c.tsBuf.drop V.length
    corrBuf := blocks c.ds.N (fun j =>
      V.map (fun it => it.correlation.getD j zero) ++ (rowOf c.corrBuf c.numLagSteps j).drop V.length) }

/-- the correlator holding the results of `V` and nothing else -/
def Corr.stored (c : Corr F) (V : List (CorrIt F)) : Corr F :=
  { c with
    tsBuf := V.map CorrIt.k
    corrBuf := blocks c.ds.N (fun j => V.map (fun it => it.correlation.getD j zero))
    numLagSteps := V.length }

theorem Corr.filled_nil {c : Corr F} (h : c.Good) : c.filled [] = c := by
  have : blocks c.ds.N (rowOf c.corrBuf c.numLagSteps) = c.corrBuf := blocks_rowOf h.corr_len
  cases c
  simp_all [Corr.filled]

theorem Corr.filled_kept (c : Corr F) (V : List (CorrIt F)) : c.Kept (c.filled V) := ⟨rfl, rfl, rfl, rfl, rfl, rfl⟩

theorem Corr.stored_kept (c : Corr F) (V : List (CorrIt F)) : c.Kept (c.stored V) := ⟨rfl, rfl, rfl, rfl, rfl, rfl⟩

theorem Corr.stored_good {c : Corr F} (h : c.Good) (V : List (CorrIt F)) : (c.stored V).Good :=
  ⟨h.wf, h.norm_len, by simp [Corr.stored], by
    have : (blocks c.ds.N (fun j => V.map (fun it => it.correlation.getD j zero))).length = c.ds.N * V.length :=
      blocks_length fun j _ => by simp
    exact this⟩

theorem Corr.stored_filled (c : Corr F) {W V : List (CorrIt F)} (hl : V.length = W.length) : (c.stored W).filled V = c.stored V := by
  have h : ∀ j < c.ds.N, (rowOf (blocks c.ds.N (fun j => W.map (fun it => it.correlation.getD j zero))) W.length j).drop V.length = [] := by
    intro j hj
    rw [rowOf_blocks (fun j _ => by simp) hj]
    simp [hl]
  unfold Corr.filled
  have e : (c.stored W).tsBuf.drop V.length = [] := by simp [Corr.stored, hl]
  rw [e]
  have e2 : blocks (c.stored W).ds.N (fun j => V.map (fun it => it.correlation.getD j zero) ++
      (rowOf (c.stored W).corrBuf (c.stored W).numLagSteps j).drop V.length) = (c.stored V).corrBuf := by
    apply blocks_congr
    intro j hj
    have := h j hj
    simp only [Corr.stored] at this ⊢
    rw [this, List.append_nil]
  rw [e2]
  simp [Corr.stored, hl]

theorem add_vals {c : Corr F} {it : CorrIt F} (h : it.correlation.length = c.ds.N) (i : Nat) :
    c.addCorrelationData it i = addVals c it.k (fun j => it.correlation.getD j zero) i := by
  apply addCorrelationData_eq
  apply List.ext_getElem
  · simp [h]
  · intro j h1 h2
    simp [List.getElem?_eq_getElem h1]

theorem filled_row {c : Corr F} (h : c.Good) (V : List (CorrIt F)) (hV : V.length ≤ c.numLagSteps) : ∀ j < c.ds.N,
    (V.map (fun it => it.correlation.getD j zero) ++ (rowOf c.corrBuf c.numLagSteps j).drop V.length).length = c.numLagSteps := by
  intro j hj
  have : (rowOf c.corrBuf c.numLagSteps j).length = c.numLagSteps := rowOf_length (by rw [h.corr_len]) hj
  simp [this]; omega

/-- the next slot is written -/
theorem add_next {c : Corr F} (h : c.Good) (V : List (CorrIt F)) (hV : V.length ≤ c.numLagSteps) {it : CorrIt F}
    (hit : it.correlation.length = c.ds.N) : (c.filled V).addCorrelationData it V.length
      = if V.length < c.numLagSteps then .ok (c.filled (V ++ [it])) else .ub := by
  have hrow : ∀ j < c.ds.N, (rowOf c.corrBuf c.numLagSteps j).length = c.numLagSteps :=
    fun j hj => rowOf_length (by rw [h.corr_len]) hj
  rw [add_vals (c := c.filled V) hit]
  unfold addVals
  split
  · rename_i hlt
    rw [rawSet_of_lt (by simp [Corr.filled, h.ts_len]; omega)]
    simp only [Res.ok_bind]
    have e : (c.filled V).corrBuf = blocks c.ds.N (fun j =>
      V.map (fun it => it.correlation.getD j zero) ++ (rowOf c.corrBuf c.numLagSteps j).drop V.length) := rfl
    have e2 : (c.filled V).numLagSteps = c.numLagSteps := rfl
    have e3 : (c.filled V).ds = c.ds := rfl
    rw [e, e2, e3, foldL_rawSet_blocks (n := c.numLagSteps) (filled_row h V hV) hlt]
    simp only [Res.ok_bind, Corr.filled]
    congr 2
    · apply blocks_congr
      intro j hj
      have := set_append_drop (V.map fun it => it.correlation.getD j zero) (rowOf c.corrBuf c.numLagSteps j)
        (it.correlation.getD j zero) (by simp [hrow j hj, hlt])
      rw [List.length_map] at this
      rw [this]; simp
    · have := set_append_drop (V.map CorrIt.k) c.tsBuf it.k (by simp [h.ts_len, hlt])
      rw [List.length_map] at this
      rw [this]; simp
  · rw [rawSet_of_ge (by simp [Corr.filled, h.ts_len]; omega)]
    rfl

/-- a slot is written again -/
theorem add_over {c : Corr F} (h : c.Good) (V : List (CorrIt F)) (hV : V.length ≤ c.numLagSteps) {it : CorrIt F}
    (hit : it.correlation.length = c.ds.N) {i : Nat} (hlt : i < V.length) :
    (c.filled V).addCorrelationData it i = .ok (c.filled (V.set i it)) := by
  rw [add_vals (c := c.filled V) hit]
  unfold addVals
  rw [rawSet_of_lt (by simp [Corr.filled, h.ts_len]; omega)]
  simp only [Res.ok_bind]
  have e : (c.filled V).corrBuf = blocks c.ds.N (fun j =>
    V.map (fun it => it.correlation.getD j zero) ++ (rowOf c.corrBuf c.numLagSteps j).drop V.length) := rfl
  have e2 : (c.filled V).numLagSteps = c.numLagSteps := rfl
  have e3 : (c.filled V).ds = c.ds := rfl
  rw [e, e2, e3, foldL_rawSet_blocks (n := c.numLagSteps) (filled_row h V hV) (by omega)]
  simp only [Res.ok_bind, Corr.filled]
  congr 2
  · apply blocks_congr
    intro j hj
    rw [List.set_append_left _ _ (by simpa using hlt)]
    simp [List.map_set]
  · rw [List.set_append_left _ _ (by simpa using hlt)]
    simp [List.map_set]

theorem clean_filled {c : Corr F} (h : c.Good) (V : List (CorrIt F)) (hV : V.length ≤ c.numLagSteps) :
    Corr.cleanCorrelationData (c.filled V) V.length = .ok (c.stored V) := by
  have hbl := filled_row h V hV
  unfold Corr.cleanCorrelationData
  have e2 : (c.filled V).numLagSteps = c.numLagSteps := rfl
  have e3 : (c.filled V).ds = c.ds := rfl
  rw [e2, e3]
  have : Res.foldL
      (fun out j =>
        (slice (c.filled V).corrBuf (j * c.numLagSteps) (j * c.numLagSteps + V.length)).bind fun row =>
        writeAt out (j * V.length) row)
      (List.replicate (c.ds.N * V.length) zero) (List.range c.ds.N)
    = Res.foldL (fun out j => writeAt out (j * V.length) (V.map fun it => it.correlation.getD j zero))
      (List.replicate (c.ds.N * V.length) zero) (List.range c.ds.N) := by
    apply Res.foldL_congr
    intro s j hj
    have hj := List.mem_range.1 hj
    have hr : rowOf (c.filled V).corrBuf c.numLagSteps j = _ := rowOf_blocks hbl hj
    have hlen : (c.filled V).corrBuf.length = c.ds.N * c.numLagSteps := blocks_length hbl
    have hb : (j + 1) * c.numLagSteps ≤ c.ds.N * c.numLagSteps := Nat.mul_le_mul_right _ hj
    rw [Nat.succ_mul] at hb
    rw [slice_of_le (by rw [hlen]; omega)]
    simp only [Res.ok_bind]
    congr 1
    rw [Nat.add_sub_cancel_left]
    have h2 : ((c.filled V).corrBuf.drop (j * c.numLagSteps)).take V.length
        = (rowOf (c.filled V).corrBuf c.numLagSteps j).take V.length := by
      simp only [rowOf, List.take_take]
      congr 1; omega
    rw [h2, hr]
    rw [List.take_append_of_le_length (by simp), List.take_of_length_le (by simp)]
  rw [this, foldL_writeAt_blocks]
  · simp only [Res.ok_bind, Corr.stored, Corr.filled, Corr.resizeF, blocks]
    congr 2
    · simp
    · rw [List.take_append_of_le_length (by simp), List.take_of_length_le (by simp)]
      simp [h.ts_len]
  · intro j _; simp
  · simp

/-! ### what lies ahead of a call of `find_correlation` -/

/-- From here on, the lags give the iterators `V`, and then the loop ends (`none`) or the next lag raises. -/
inductive Course (a : AbsFn) (sel wt : PyName) (c : Corr F) : FindPc F → List (CorrIt F) → Option Exc → Prop
  | stop {hi res k : F} {p : Bool} {i : Nat} (h : le k hi = false) : Course a sel wt c (.test hi res k p i) [] Option.none
  | go {hi res k : F} {p : Bool} {i : Nat} {g : Gen F} {V : List (CorrIt F)} {e : Option Exc} (hk : le k hi = true) (hg : g.i = i)
      (h : FindPc.step a sel wt c (.test hi res k p i) = .ok (.create g) c) (hV : Course a sel wt c (.create g) V e) :
      Course a sel wt c (.test hi res k p i) V e
  | lag {g : Gen F} {it : CorrIt F} {V : List (CorrIt F)} {e : Option Exc} (h : namePass a sel wt c g.lag = .ok it)
      (hV : Course a sel wt c g.after V e) : Course a sel wt c (.create g) (it :: V) e
  | fail {g : Gen F} {e : Exc} (h : namePass a sel wt c g.lag = .exn e) : Course a sel wt c (.create g) [] (some e)

section
variable {a : AbsFn} {sel wt : PyName} {c : Corr F}

/-- one lag of the loop on the filled correlator -/
theorem step_filled (hg : c.Good) (V0 : List (CorrIt F)) (hV : V0.length ≤ c.numLagSteps) (k : F) :
    Out.step (c.filled V0) (nameStep a sel wt (c.filled V0) k V0.length) = match namePass a sel wt c k with
      | .ok it => if V0.length < c.numLagSteps then .ok () (c.filled (V0 ++ [it])) else .ub
      | .exn e => .exn e (c.filled V0)
      | .ub => .ub
      | .diverge => .diverge := by
  rw [nameStep_eq, (c.filled_kept V0).pass]
  cases h : namePass a sel wt c k with
  | ok it =>
    rw [Res.ok_bind, add_next hg V0 hV (namePass_facts h).1]
    split <;> rfl
  | exn e => rfl
  | ub => rfl
  | diverge => rfl

/-- how the loop ends when run alone, and the course it takes -/
theorem course_exists (hg : c.Good) (hi res : F) (fuel : Nat) (V0 : List (CorrIt F)) (hV : V0.length ≤ c.numLagSteps) (k : F) (p : Bool)
    (o : Out (Corr F) Nat) (ho : lagLoop (nameStep a sel wt) hi res fuel (c.filled V0) k p V0.length = o) (hu : o ≠ .ub)
    (hd : o ≠ .diverge) :
    ∃ V e, Course a sel wt c (.test hi res k p V0.length) V e ∧ (V0 ++ V).length ≤ c.numLagSteps ∧
      o = match e with
        | Option.none => .ok (V0 ++ V).length (c.filled (V0 ++ V))
        | some e => .exn e (c.filled (V0 ++ V)) := by
  induction fuel generalizing V0 k p with
  | zero => exact absurd ho.symm hd
  | succ n ih =>
    unfold lagLoop at ho
    cases hk : le k hi with
    | false =>
      rw [hk] at ho
      simp only [Bool.false_eq_true, if_false] at ho
      exact ⟨[], Option.none, .stop hk, by simpa using hV, by simpa using ho.symm⟩
    | true =>
      simp only [hk, if_true] at ho
      generalize hq : (if eq k zero then true else p) = q at ho
      cases hz : (lt zero k && !q) with
      | true =>
        simp only [hz, if_true] at ho
        have hst : FindPc.step a sel wt c (.test hi res k p V0.length) = .ok (.create ⟨hi, res, k, true, true, V0.length⟩) c := by
          simp only [FindPc.step, hk, if_true, hq, hz]
        rw [step_filled hg V0 hV] at ho
        cases h0 : namePass a sel wt c zero with
        | ok it0 =>
          rw [h0] at ho
          simp only at ho
          by_cases hlt : V0.length < c.numLagSteps
          · rw [if_pos hlt] at ho
            simp only [Out.bind] at ho
            have hl1 : V0.length + 1 = (V0 ++ [it0]).length := by simp
            rw [hl1] at ho
            have hs := step_filled (a := a) (sel := sel) (wt := wt) hg (V0 ++ [it0]) (by simp; omega) k
            rw [hs] at ho
            cases h1 : namePass a sel wt c k with
            | ok it1 =>
              rw [h1] at ho
              simp only at ho
              by_cases hlt1 : (V0 ++ [it0]).length < c.numLagSteps
              · rw [if_pos hlt1] at ho
                simp only at ho
                have hl2 : V0.length + 2 = (V0 ++ [it0] ++ [it1]).length := by simp
                rw [hl2] at ho
                obtain ⟨V, e, hc, hle, he⟩ := ih (V0 ++ [it0] ++ [it1]) (by simp at hlt1 ⊢; omega) (add k res) true ho
                refine ⟨it0 :: it1 :: V, e, .go (g := ⟨hi, res, k, true, true, V0.length⟩) hk rfl hst (.lag h0 ?_), by simp at hle ⊢; omega, ?_⟩
                · refine Course.lag (g := ⟨hi, res, k, true, false, V0.length + 1⟩) h1 ?_
                  have : (V0 ++ [it0] ++ [it1]).length = V0.length + 1 + 1 := by simp
                  rw [this] at hc
                  exact hc
                · simpa using he
              · rw [if_neg hlt1] at ho; exact absurd ho.symm hu
            | exn e =>
              rw [h1] at ho
              simp only at ho
              refine ⟨[it0], some e, .go (g := ⟨hi, res, k, true, true, V0.length⟩) hk rfl hst (.lag h0 ?_), by simp; omega, ho.symm⟩
              exact Course.fail (g := ⟨hi, res, k, true, false, V0.length + 1⟩) h1
            | ub => rw [h1] at ho; exact absurd ho.symm hu
            | diverge => rw [h1] at ho; exact absurd ho.symm hd
          · rw [if_neg hlt] at ho; exact absurd ho.symm hu
        | exn e =>
          rw [h0] at ho
          simp only [Out.bind] at ho
          exact ⟨[], some e, .go (g := ⟨hi, res, k, true, true, V0.length⟩) hk rfl hst (.fail h0), by simpa using hV, by simpa using ho.symm⟩
        | ub => rw [h0] at ho; exact absurd ho.symm hu
        | diverge => rw [h0] at ho; exact absurd ho.symm hd
      | false =>
        simp only [hz, Bool.false_eq_true, if_false] at ho
        have hst : FindPc.step a sel wt c (.test hi res k p V0.length) = .ok (.create ⟨hi, res, k, q, false, V0.length⟩) c := by
          simp only [FindPc.step, hk, if_true, hq, hz, Bool.false_eq_true, if_false]
        rw [step_filled hg V0 hV] at ho
        cases h1 : namePass a sel wt c k with
        | ok it1 =>
          rw [h1] at ho
          simp only at ho
          by_cases hlt : V0.length < c.numLagSteps
          · rw [if_pos hlt] at ho
            simp only [Out.bind] at ho
            have hl1 : V0.length + 1 = (V0 ++ [it1]).length := by simp
            rw [hl1] at ho
            obtain ⟨V, e, hc, hle, he⟩ := ih (V0 ++ [it1]) (by simp; omega) (add k res) q ho
            refine ⟨it1 :: V, e, .go (g := ⟨hi, res, k, q, false, V0.length⟩) hk rfl hst (.lag h1 ?_), by simp at hle ⊢; omega, ?_⟩
            · rw [← hl1] at hc
              exact hc
            · simpa using he
          · rw [if_neg hlt] at ho; exact absurd ho.symm hu
        | exn e =>
          rw [h1] at ho
          simp only [Out.bind] at ho
          exact ⟨[], some e, .go (g := ⟨hi, res, k, q, false, V0.length⟩) hk rfl hst (.fail h1), by simpa using hV, by simpa using ho.symm⟩
        | ub => rw [h1] at ho; exact absurd ho.symm hu
        | diverge => rw [h1] at ho; exact absurd ho.symm hd

/-- with other names the loop goes through the same lags -/
theorem course_compare {sel' wt' : PyName} {pc : FindPc F} {V V' : List (CorrIt F)} {e e' : Option Exc} (h : Course a sel wt c pc V e)
    (h' : Course a sel' wt' c pc V' e') :
    (e = Option.none → V'.length ≤ V.length) ∧ ∀ (i : Nat) (it it' : CorrIt F), V[i]? = some it → V'[i]? = some it' → it.k = it'.k := by
  induction h generalizing V' with
  | stop hk =>
    cases h' with
    | stop _ => exact ⟨fun _ => Nat.le_refl _, by simp⟩
    | go hk' => rw [hk] at hk'; simp at hk'
  | go hk hg hs _ ih =>
    cases h' with
    | stop hk' => rw [hk] at hk'; simp at hk'
    | go hk' hg' hs' hV' =>
      have := hs.symm.trans (show _ = _ from hs')
      simp only [Out.ok.injEq, FindPc.create.injEq, and_true] at this
      subst this
      exact ih hV'
  | lag hp _ ih =>
    cases h' with
    | lag hp' hV' =>
      obtain ⟨h1, h2⟩ := ih hV'
      refine ⟨fun he => by simpa using h1 he, fun i it it' hi hi' => ?_⟩
      cases i with
      | zero =>
        simp only [List.getElem?_cons_zero, Option.some.injEq] at hi hi'
        rw [← hi, ← hi', (namePass_facts hp).2, (namePass_facts hp').2]
      | succ i => exact h2 i it it' (by simpa using hi) (by simpa using hi')
    | fail _ => exact ⟨by simp, by simp⟩
  | fail hp => exact ⟨by simp, by simp⟩

theorem Course.facts {pc : FindPc F} {V : List (CorrIt F)} {e : Option Exc} (h : Course a sel wt c pc V e) :
    ∀ it ∈ V, it.correlation.length = c.ds.N := by
  induction h with
  | stop _ => simp
  | go _ _ _ _ ih => exact ih
  | lag hp _ ih => simp only [List.mem_cons, forall_eq_or_imp]; exact ⟨(namePass_facts hp).1, ih⟩
  | fail _ => simp

end

/-! ### the rest of the calls for one lag -/

section
variable (a : AbsFn) (sel wt : PyName) (c : Corr F)

/-- from line 88 on -/
def restWeigh (it : CorrIt F) : Res (CorrIt F) := (wt.lookup weightFunction).bind fun w => Corr.findCorrelation c (w c it)
/-- from line 87 on -/
def restDelta (it : CorrIt F) : Res (CorrIt F) := (Corr.deltaT a c it).bind (restWeigh wt c)
/-- from line 86 on -/
def restSelect (it : CorrIt F) : Res (CorrIt F) :=
  (sel.lookup (selectionFunction a)).bind fun f => (f c it).bind (restDelta a wt c)

theorem namePass_rest (k : F) : namePass a sel wt c k = restSelect a sel wt c (CorrIt.new k c.ds.N) := rfl

end

/-! ### threads on one correlator -/

/-- A thread in `find_correlation`: what it knows.  Alone it would see the iterators `V` and end with `e`; `P` slots have been written so far,
and `cut` says that some thread has come to line 92. -/
def FindOK (a : AbsFn) (sel wt : PyName) (c : Corr F) (V : List (CorrIt F)) (e : Option Exc) (P : Nat) (cut : Bool) : FindPc F → Prop
  | .readMin => True
  | .readMax lo => lo = c.minLag
  | .readRes lo hi => lo = c.minLag ∧ hi = c.maxLag
  | .test hi res k p i => i ≤ P ∧ i ≤ V.length ∧ Course a sel wt c (.test hi res k p i) (V.drop i) e
  | .create g => g.i ≤ P ∧ g.i ≤ V.length ∧ Course a sel wt c (.create g) (V.drop g.i) e
  | .select g it => g.i ≤ P ∧ g.i ≤ V.length ∧ Course a sel wt c (.create g) (V.drop g.i) e ∧ namePass a sel wt c g.lag = restSelect a sel wt c it
  | .delta g it => g.i ≤ P ∧ g.i ≤ V.length ∧ Course a sel wt c (.create g) (V.drop g.i) e ∧ namePass a sel wt c g.lag = restDelta a wt c it
  | .weigh g it => g.i ≤ P ∧ g.i ≤ V.length ∧ Course a sel wt c (.create g) (V.drop g.i) e ∧ namePass a sel wt c g.lag = restWeigh wt c it
  | .sum g it => g.i ≤ P ∧ g.i ≤ V.length ∧ Course a sel wt c (.create g) (V.drop g.i) e ∧ namePass a sel wt c g.lag = Corr.findCorrelation c it
  | .put g it => g.i ≤ P ∧ g.i ≤ V.length ∧ Course a sel wt c (.create g) (V.drop g.i) e ∧ namePass a sel wt c g.lag = .ok it
  | .clean n => n = V.length ∧ n ≤ P ∧ e = Option.none ∧ V ≠ []
  | .finished => cut = true ∧ e = Option.none ∧ V ≠ []

/-- the same for the thread -/
def PcOK (a : AbsFn) (sel wt : PyName) (c : Corr F) (V : List (CorrIt F)) (e : Option Exc) (P : Nat) (cut : Bool) : Pc F → Prop
  | .start => True
  | .find f => FindOK a sel wt c V e P cut f
  | .finished => cut = true ∧ e = Option.none ∧ V ≠ []
  | .raised x => V.length ≤ P ∧ (e = some x ∨ e = Option.none ∧ V = [] ∧ x = .unboundLocal)
  | _ => False

theorem PcOK.mono {a : AbsFn} {sel wt : PyName} {c : Corr F} {V : List (CorrIt F)} {e : Option Exc} {P P' : Nat} {cut cut' : Bool} {pc : Pc F}
    (h : PcOK a sel wt c V e P cut pc) (hP : P ≤ P') (hc : cut = true → cut' = true) : PcOK a sel wt c V e P' cut' pc := by
  cases pc with
  | find f =>
    cases f <;> simp only [PcOK, FindOK] at h ⊢ <;> first
      | exact h
      | exact ⟨Nat.le_trans h.1 hP, h.2⟩
      | exact ⟨h.1, Nat.le_trans h.2.1 hP, h.2.2⟩
      | exact ⟨hc h.1, h.2⟩
  | finished => exact ⟨hc h.1, h.2⟩
  | raised x => exact ⟨Nat.le_trans h.1 hP, h.2⟩
  | _ => exact h

/-- steps left, at most; `L` lags -/
def Pc.rank (L : Nat) : Pc F → Nat
  | .start => 8 * L + 14
  | .find .readMin => 8 * L + 13
  | .find (.readMax _) => 8 * L + 12
  | .find (.readRes _ _) => 8 * L + 11
  | .find (.test _ _ _ _ i) => 8 * (L - i) + 10
  | .find (.create g) => 8 * (L - g.i) + 9
  | .find (.select g _) => 8 * (L - g.i) + 8
  | .find (.delta g _) => 8 * (L - g.i) + 7
  | .find (.weigh g _) => 8 * (L - g.i) + 6
  | .find (.sum g _) => 8 * (L - g.i) + 5
  | .find (.put g _) => 8 * (L - g.i) + 4
  | .find (.clean _) => 2
  | .find .finished => 1
  | _ => 0

/-- The courses of the calls on the correlator. -/
structure Src (a : AbsFn) (c : Corr F) (src : PyName → PyName → List (CorrIt F) → Option Exc → Prop) : Prop where
  good : c.Good
  course : ∀ {sel wt V e}, src sel wt V e → Course a sel wt c (.test c.maxLag c.lagRes c.minLag false 0) V e
  slots : ∀ {sel wt V e}, src sel wt V e → V.length ≤ c.numLagSteps

/-- The present contents `s`: the iterators `W` have been written, the buffers may have been cut. -/
structure Holds (c : Corr F) (src : PyName → PyName → List (CorrIt F) → Option Exc → Prop) (W : List (CorrIt F)) (cut : Bool) (s : Corr F) :
    Prop where
  each : ∀ (i : Nat) (it : CorrIt F), W[i]? = some it → ∃ sel wt V e, src sel wt V e ∧ V[i]? = some it
  form : s = if cut then c.stored W else c.filled W
  full : cut = true → ∃ sel wt V, src sel wt V Option.none ∧ V.length = W.length ∧ V ≠ []

section
variable {a : AbsFn} {c s : Corr F} {src : PyName → PyName → List (CorrIt F) → Option Exc → Prop} {W : List (CorrIt F)} {cut : Bool}

theorem Holds.kept (h : Holds c src W cut s) : c.Kept s := by
  rw [h.form]
  cases cut
  · exact c.filled_kept W
  · exact c.stored_kept W

theorem Holds.slots (h : Holds c src W cut s) (hs : Src a c src) : W.length ≤ c.numLagSteps := by
  by_contra hn
  obtain ⟨sel, wt, V, e, h1, h2⟩ := h.each c.numLagSteps _ (List.getElem?_eq_getElem (by omega))
  have := (List.getElem?_eq_some_iff.1 h2).1
  have := hs.slots h1
  omega

theorem Holds.le (h : Holds c src W cut s) (hs : Src a c src) {sel wt : PyName} {V : List (CorrIt F)} (hV : src sel wt V Option.none) :
    W.length ≤ V.length := by
  by_contra hn
  obtain ⟨sel', wt', V', e, h1, h2⟩ := h.each V.length _ (List.getElem?_eq_getElem (by omega))
  have h3 := (List.getElem?_eq_some_iff.1 h2).1
  have h4 := (course_compare (hs.course hV) (hs.course h1)).1 rfl
  omega

/-- a thread writes its next slot -/
theorem Holds.put (h : Holds c src W cut s) (hs : Src a c src) {sel wt : PyName} {V : List (CorrIt F)} {e : Option Exc} (hV : src sel wt V e)
    {i : Nat} {it : CorrIt F} (hi : i ≤ W.length) (hit : V[i]? = some it) :
    ∃ W' s', s.addCorrelationData it i = .ok s' ∧ Holds c src W' cut s' ∧ W.length ≤ W'.length ∧ i + 1 ≤ W'.length := by
  have hlen : it.correlation.length = c.ds.N := (hs.course hV).facts it (List.mem_of_getElem? hit)
  have hiV := (List.getElem?_eq_some_iff.1 hit).1
  have hVs := hs.slots hV
  have hWs := h.slots hs
  have each : ∀ (n : Nat) (x : CorrIt F), (W.set i it)[n]? = some x → ∃ sel wt V e, src sel wt V e ∧ V[n]? = some x := by
    intro n x hn
    rw [List.getElem?_set] at hn
    split at hn
    · rename_i he
      subst he
      split at hn
      · simp only [Option.some.injEq] at hn; subst hn; exact ⟨sel, wt, V, e, hV, hit⟩
      · simp at hn
    · exact h.each n x hn
  cases cut with
  | true =>
    obtain ⟨sel', wt', V', h1, h2, h2'⟩ := h.full rfl
    have h3 := (course_compare (hs.course h1) (hs.course hV)).1 rfl
    have hlt : i < W.length := by omega
    refine ⟨W.set i it, c.stored (W.set i it), ?_, ⟨each, rfl, fun _ => ⟨sel', wt', V', h1, by simpa using h2, h2'⟩⟩, by simp, by simpa using hlt⟩
    have := add_over (c := c.stored W) (Corr.stored_good hs.good W) W (Nat.le_refl _) (it := it) hlen hlt
    rw [Corr.stored_filled c rfl, Corr.stored_filled c (by simp)] at this
    rw [h.form]
    exact this
  | false =>
    by_cases hlt : i < W.length
    · exact ⟨W.set i it, c.filled (W.set i it), by rw [h.form]; exact add_over hs.good W hWs hlen hlt, ⟨each, rfl, by simp⟩, by simp, by simpa using hlt⟩
    · have : i = W.length := by omega
      subst this
      refine ⟨W ++ [it], c.filled (W ++ [it]), ?_, ⟨fun n x hn => ?_, rfl, by simp⟩, by simp, by simp⟩
      · rw [h.form]
        have := add_next hs.good W hWs hlen
        rw [if_pos (by omega)] at this
        exact this
      · rw [List.getElem?_append] at hn
        split at hn
        · exact h.each n x hn
        · have : n = W.length := by
            have := (List.getElem?_eq_some_iff.1 hn).1
            simp at this
            omega
          subst this
          simp at hn
          subst hn
          exact ⟨sel, wt, V, e, hV, hit⟩

/-- a thread comes to line 92 -/
theorem Holds.clean (h : Holds c src W cut s) (hs : Src a c src) {sel wt : PyName} {V : List (CorrIt F)} (hV : src sel wt V Option.none)
    (hn : V.length ≤ W.length) (hne : V ≠ []) : ∃ s', s.cleanCorrelationData V.length = .ok s' ∧ Holds c src W true s' := by
  have hl : V.length = W.length := Nat.le_antisymm hn (h.le hs hV)
  refine ⟨c.stored W, ?_, ⟨h.each, rfl, fun _ => ⟨sel, wt, V, hV, hl, hne⟩⟩⟩
  rw [h.form, hl]
  cases cut with
  | true =>
    have := clean_filled (c := c.stored W) (Corr.stored_good hs.good W) W (Nat.le_refl _)
    rw [Corr.stored_filled c rfl] at this
    exact this
  | false => exact clean_filled hs.good W (h.slots hs)


/-- what a step of a thread comes to -/
def StepOK (a : AbsFn) (sel wt : PyName) (c : Corr F) (src : PyName → PyName → List (CorrIt F) → Option Exc → Prop) (V : List (CorrIt F))
    (e : Option Exc) (W : List (CorrIt F)) (cut : Bool) (pc : Pc F) (r : Res (Pc F × Option (Corr F))) : Prop :=
  ∃ pc' s' W' cut', r = .ok (pc', some s') ∧ Holds c src W' cut' s' ∧ W.length ≤ W'.length ∧ (cut = true → cut' = true) ∧
    PcOK a sel wt c V e W'.length cut' pc' ∧ (pc'.Ended ∨ pc'.rank V.length < pc.rank V.length)

theorem stepOK_same {sel wt : PyName} {V : List (CorrIt F)} {e : Option Exc} (h : Holds c src W cut s) {pc pc' : Pc F}
    {r : Res (Pc F × Option (Corr F))} (hr : r = .ok (pc', some s)) (hp : PcOK a sel wt c V e W.length cut pc')
    (hk : pc'.Ended ∨ pc'.rank V.length < pc.rank V.length) : StepOK a sel wt c src V e W cut pc r :=
  ⟨pc', s, W, cut, hr, h, Nat.le_refl _, id, hp, hk⟩

/-- an exception in the calls for one lag -/
theorem stepOK_exn {sel wt : PyName} {V : List (CorrIt F)} {e : Option Exc} (h : Holds c src W cut s) {g : Gen F} {pc : Pc F} {x : Exc}
    {r : Res (Pc F × Option (Corr F))} (hr : r = .ok (.raised x, some s)) (hi : g.i ≤ W.length)
    (hc : Course a sel wt c (.create g) (V.drop g.i) e) (hx : namePass a sel wt c g.lag = .exn x) : StepOK a sel wt c src V e W cut pc r := by
  refine stepOK_same h hr ?_ (.inl trivial)
  generalize hD : V.drop g.i = D at hc
  cases hc with
  | lag h1 _ => rw [hx] at h1; simp at h1
  | fail h1 =>
    rw [hx] at h1
    simp only [Res.exn.injEq] at h1
    subst h1
    have := List.drop_eq_nil_iff.1 hD
    exact ⟨by omega, .inl rfl⟩

theorem course_defined {sel wt : PyName} {g : Gen F} {D : List (CorrIt F)} {e : Option Exc} (hc : Course a sel wt c (.create g) D e) :
    namePass a sel wt c g.lag ≠ .ub ∧ namePass a sel wt c g.lag ≠ .diverge := by
  cases hc with
  | lag h _ => simp [h]
  | fail h => simp [h]

theorem test_any {sel wt : PyName} {hi res k : F} {p : Bool} {i : Nat} {pc : FindPc F}
    (h : FindPc.step a sel wt c (.test hi res k p i) = .ok pc c) (s : Corr F) : FindPc.step a sel wt s (.test hi res k p i) = .ok pc s := by
  simp only [FindPc.step] at h ⊢
  revert h
  generalize (if eq k zero then true else p) = q
  cases le k hi <;> cases (lt zero k && !q) <;> by_cases h0 : i = 0 <;> simp [h0]

/-- **the step of a thread** -/
theorem stepOK (h : Holds c src W cut s) (hs : Src a c src) {sel wt : PyName} {V : List (CorrIt F)} {e : Option Exc} (hV : src sel wt V e)
    (pc : Pc F) (hp : PcOK a sel wt c V e W.length cut pc) :
    StepOK a sel wt c src V e W cut pc (Task.step a (.on (.find sel wt)) pc (some s)) := by
  have hk := h.kept
  have ht := finds_on (F := F) a sel wt
  cases pc with
  | start => exact stepOK_same h (pc' := .find .readMin) rfl trivial (.inr (by simp [Pc.rank]))
  | finished => exact stepOK_same h (pc' := .finished) rfl hp (.inl trivial)
  | raised x => exact stepOK_same h (pc' := .raised x) rfl hp (.inl trivial)
  | setMax => exact hp.elim
  | setMin => exact hp.elim
  | setRes => exact hp.elim
  | setAlpha => exact hp.elim
  | branch => exact hp.elim
  | readLags => exact hp.elim
  | readLen _ => exact hp.elim
  | readCorr _ _ => exact hp.elim
  | returned _ _ => exact hp.elim
  | find f =>
    cases f with
    | readMin => exact stepOK_same h (pc' := .find (.readMax s.minLag)) rfl hk.minLag (.inr (by simp [Pc.rank]))
    | readMax lo =>
      exact stepOK_same h (pc' := .find (.readRes lo s.maxLag)) rfl ⟨hp, hk.maxLag⟩ (.inr (by simp [Pc.rank]))
    | readRes lo hi =>
      refine stepOK_same h (pc' := .find (.test hi s.lagRes lo false 0)) rfl ⟨Nat.zero_le _, Nat.zero_le _, ?_⟩ (.inr (by simp [Pc.rank]))
      obtain ⟨rfl, rfl⟩ := hp
      rw [hk.lagRes, List.drop_zero]
      exact hs.course hV
    | test hi res k p i =>
      obtain ⟨h1, h2, h3⟩ := hp
      rw [ht _ _ (by simp)]
      generalize hD : V.drop i = D at h3
      cases h3 with
      | stop hle =>
        have hl := List.drop_eq_nil_iff.1 hD
        have hi : i = V.length := by omega
        by_cases h0 : i = 0
        · refine stepOK_same h (pc' := .raised .unboundLocal) (by simp [FindPc.step, hle, h0, Out.next]) ⟨by omega, .inr ⟨rfl, ?_, rfl⟩⟩ (.inl trivial)
          exact List.eq_nil_of_length_eq_zero (by omega)
        · refine stepOK_same h (pc' := .find (.clean i)) (by simp [FindPc.step, hle, h0, Out.next]) ⟨hi, h1, rfl, ?_⟩ (.inr (by simp [Pc.rank]))
          rintro rfl
          simp at hi
          omega
      | go hle hg hst hc =>
        rename_i g
        refine stepOK_same h (pc' := .find (.create g)) ?_ ⟨by omega, by omega, by rw [hg, hD]; exact hc⟩ (.inr (by simp [Pc.rank, hg]))
        have := test_any hst s
        rw [this]; rfl
    | create g =>
      obtain ⟨h1, h2, h3⟩ := hp
      exact stepOK_same h (pc' := .find (.select g (CorrIt.new g.lag s.ds.N))) rfl ⟨h1, h2, h3, by rw [hk.ds, namePass_rest]⟩
        (.inr (by simp [Pc.rank]))
    | select g it =>
      obtain ⟨h1, h2, h3, h4⟩ := hp
      obtain ⟨d1, d2⟩ := course_defined h3
      rw [ht _ _ (by simp)]
      simp only [FindPc.step]
      unfold restSelect at h4
      cases hl : sel.lookup (selectionFunction (F := F) a) with
      | ok f =>
        rw [hl, Res.ok_bind] at h4
        rw [Res.ok_bind, hk.selection hl]
        cases hf : f c it with
        | ok it' =>
          rw [hf, Res.ok_bind] at h4
          exact stepOK_same h (pc' := .find (.delta g it')) rfl ⟨h1, h2, h3, h4⟩ (.inr (by simp [Pc.rank]))
        | exn x => rw [hf] at h4; exact stepOK_exn h rfl h1 h3 h4
        | ub => rw [hf] at h4; exact absurd h4 d1
        | diverge => rw [hf] at h4; exact absurd h4 d2
      | exn x => rw [hl] at h4; exact stepOK_exn h rfl h1 h3 h4
      | ub => rw [hl] at h4; exact absurd h4 d1
      | diverge => rw [hl] at h4; exact absurd h4 d2
    | delta g it =>
      obtain ⟨h1, h2, h3, h4⟩ := hp
      obtain ⟨d1, d2⟩ := course_defined h3
      rw [ht _ _ (by simp)]
      simp only [FindPc.step]
      rw [hk.delta]
      unfold restDelta at h4
      cases hf : Corr.deltaT a c it with
      | ok it' =>
        rw [hf, Res.ok_bind] at h4
        exact stepOK_same h (pc' := .find (.weigh g it')) rfl ⟨h1, h2, h3, h4⟩ (.inr (by simp [Pc.rank]))
      | exn x => rw [hf] at h4; exact stepOK_exn h rfl h1 h3 h4
      | ub => rw [hf] at h4; exact absurd h4 d1
      | diverge => rw [hf] at h4; exact absurd h4 d2
    | weigh g it =>
      obtain ⟨h1, h2, h3, h4⟩ := hp
      obtain ⟨d1, d2⟩ := course_defined h3
      rw [ht _ _ (by simp)]
      simp only [FindPc.step]
      unfold restWeigh at h4
      cases hf : wt.lookup (weightFunction (F := F)) with
      | ok w =>
        rw [hf, Res.ok_bind] at h4
        rw [Res.ok_bind, hk.weights hf]
        exact stepOK_same h (pc' := .find (.sum g (w c it))) rfl ⟨h1, h2, h3, h4⟩ (.inr (by simp [Pc.rank]))
      | exn x => rw [hf] at h4; exact stepOK_exn h rfl h1 h3 h4
      | ub => rw [hf] at h4; exact absurd h4 d1
      | diverge => rw [hf] at h4; exact absurd h4 d2
    | sum g it =>
      obtain ⟨h1, h2, h3, h4⟩ := hp
      obtain ⟨d1, d2⟩ := course_defined h3
      rw [ht _ _ (by simp)]
      simp only [FindPc.step]
      rw [hk.sum]
      cases hf : Corr.findCorrelation c it with
      | ok it' =>
        rw [hf] at h4
        exact stepOK_same h (pc' := .find (.put g it')) rfl ⟨h1, h2, h3, h4⟩ (.inr (by simp [Pc.rank]))
      | exn x => rw [hf] at h4; exact stepOK_exn h rfl h1 h3 h4
      | ub => rw [hf] at h4; exact absurd h4 d1
      | diverge => rw [hf] at h4; exact absurd h4 d2
    | put g it =>
      obtain ⟨h1, h2, h3, h4⟩ := hp
      rw [ht _ _ (by simp)]
      generalize hD : V.drop g.i = D at h3
      cases h3 with
      | fail h5 => rw [h4] at h5; simp at h5
      | lag h5 h6 =>
        rename_i it' V'
        rw [h4, Res.ok.injEq] at h5
        subst h5
        have hit : V[g.i]? = some it := by
          have : (V.drop g.i)[0]? = some it := by rw [hD]; rfl
          simpa using this
        have hlt := (List.getElem?_eq_some_iff.1 hit).1
        have hD' : V.drop (g.i + 1) = V' := by
          rw [← List.drop_drop, hD]; rfl
        obtain ⟨W', s', e1, e2, e3, e4⟩ := h.put hs hV h1 hit
        refine ⟨.find g.after, s', W', cut, ?_, e2, e3, id, ?_, .inr ?_⟩
        · simp only [FindPc.step, e1, Out.step, Out.ok_bind, Gen.after, Out.next]
        · unfold Gen.after at h6 ⊢
          split at h6
          · rename_i hz
            rw [if_pos hz]
            exact ⟨e4, hlt, by rw [hD']; exact h6⟩
          · rename_i hz
            rw [if_neg hz]
            exact ⟨e4, hlt, by rw [hD']; exact h6⟩
        · unfold Gen.after
          split <;> simp only [Pc.rank] <;> omega
    | clean n =>
      obtain ⟨rfl, h2, rfl, h4⟩ := hp
      rw [ht _ _ (by simp)]
      obtain ⟨s', e1, e2⟩ := h.clean hs hV h2 h4
      exact ⟨.find .finished, s', W, true, by simp only [FindPc.step, e1, Out.step, Out.ok_bind, Out.next], e2, Nat.le_refl _, fun _ => rfl,
        ⟨rfl, rfl, h4⟩, .inr (by simp [Pc.rank])⟩
    | finished =>
      exact stepOK_same h (pc' := .finished) rfl hp (.inl trivial)

end

end Sacf
