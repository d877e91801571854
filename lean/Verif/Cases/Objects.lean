import Verif.Cases.Base
import Verif.Props.Total
import Verif.Props.Work
import Verif.Props.Iterator
import Verif.Props.Lifetime
import Verif.Props.Session
import Verif.Props.Contract
import Verif.Props.PyArgs
import Verif.Props.ZeroDim
import Verif.Props.Api

/-! Cases for `Props/Total.lean`, `Work.lean`, `Iterator.lean`, `Lifetime.lean`, `Session.lean`, `Contract.lean`, `PyArgs.lean` and `Api.lean`. -/

namespace Sacf

variable {F : Type} [Arith F]

omit [Arith F] in
/-- the value at a place of a result -/
theorem at_of {r : AcResult F} {j n : ℕ} {k v : F} (h1 : r.lags[n]? = some k) (h2 : (r.corrs.rows[j]?.bind (·[n]?)) = some v) : r.At j n k v := by
  obtain ⟨row, h3, h4⟩ := Option.bind_eq_some_iff.1 h2
  exact ⟨h1, row, h3, h4⟩

/-- the correlator of the times 0, 1, 3 and the values 1, 2, 6 -/
theorem corr136 (P : DS Q → Corr Q → Prop) [∀ d c, Decidable (P d c)] (h : okThen (fun z => decide (P z.1 z.2)) (newOf (q [0, 1, 3]) [q [1, 2, 6]]) = true) :
    ∃ d c, Constructed d ∧ Corr.new d = .ok c ∧ P d c := by
  obtain ⟨d, c, hd, hc, h⟩ := newOf_ok _ _ P h
  exact ⟨d, c, .table hd, hc, h⟩

/-- the same with the second dataset 1, 0, 0 -/
theorem corr136' (P : DS Q → Corr Q → Prop) [∀ d c, Decidable (P d c)]
    (h : okThen (fun z => decide (P z.1 z.2)) (newOf (q [0, 1, 3]) [q [1, 2, 6], q [1, 0, 0]]) = true) : ∃ d c, Constructed d ∧ Corr.new d = .ok c ∧ P d c := by
  obtain ⟨d, c, hd, hc, h⟩ := newOf_ok _ _ P h
  exact ⟨d, c, .table hd, hc, h⟩

/-! ## Total -/

/-- C49_fuel_suffices, C49_fuel_suffices_cpp: nine slots, resolution zero -/
example : ∃ c : Corr Q, c.lagTimeseries.length = 9 ∧
    pyLoop .fabs "natural" "gaussian" (.fin 3) (.fin 0) 1000 c (.fin (-3)) false 0 = pyLoop .fabs "natural" "gaussian" (.fin 3) (.fin 0) 10 c (.fin (-3)) false 0 ∧
    c.standardLoop .fabs 1000 (.fin (-3)) false 0 = c.standardLoop .fabs 10 (.fin (-3)) false 0 := by
  obtain ⟨d, c, hd, hc, h⟩ := corr136 (fun _ c => c.lagTimeseries.length = 9) (by decide +kernel)
  have h1 := (C49_fuel_suffices .fabs "natural" "gaussian" c (.fin (-3)) (.fin 3) (.fin 0) 1000 (by omega)).1
  have h2 := (C49_fuel_suffices_cpp .fabs c (.fin (-3)) 1000 (by omega)).1
  rw [h] at h1 h2
  exact ⟨c, h, h1, h2⟩

/-- C49_init, C49_autocorrelation, C49_calls, C49_iterator -/
example : ∃ (d : DS Q) (c : Corr Q), Corr.new d = .ok c ∧ autocorrelation .fabs d { lagRes := some (.fin 0) } "natural" "gaussian" ≠ .diverge ∧
    runCalls .fabs c [.calculate, .calculate] ≠ .diverge ∧ pyInit (fun _ => none) (floatList (q [0, 1])) (floatList (q [0])) .none .none ≠ .diverge ∧
    CorrIt.newF (.fin 1 : Q) (.fin (5/2)) ≠ .diverge := by
  obtain ⟨d, c, hd, hc, _⟩ := corr136 (fun _ _ => True) (by decide +kernel)
  exact ⟨d, c, hc, C49_autocorrelation _ _ _ _ _, C49_calls _ _ _, C49_init _ _ _ _ _, C49_iterator _ _⟩

/-! ## Work -/

/-- two new iterators, for the lags 1 and 2 -/
def its12 : List (CorrIt Q) := [CorrIt.new (.fin 1) 1, CorrIt.new (.fin 2) 1]

/-- C73_interleaving: the calls that concern the second iterator, done alone -/
example : ∃ (c : Corr Q) (w' v' : Work Q) (log log' : List (Option Exc)), Work.runAll .fabs ⟨c, its12⟩ (twoIterators.drop 2) = .ok (w', log) ∧
    Work.runAll .fabs ⟨c, its12⟩ [.call .natural (.it 1), .call .deltaT (.it 1), .call .fraction (.it 1), .call .find (.it 1)] = .ok (v', log') ∧
    v'.its[1]? = w'.its[1]? := by
  obtain ⟨d, c, hd, hc, h1⟩ := corr136 (fun _ c => okThen (fun _ => true) (Work.runAll .fabs ⟨c, its12⟩ (twoIterators.drop 2)) = true) (by decide +kernel)
  obtain ⟨⟨w', log⟩, h2, _⟩ := okThen_ok h1
  obtain ⟨v', log', h3, h4, _⟩ := C73_interleaving .fabs 1 ⟨c, its12⟩ w' (by simp [its12]) _ _ h2
  exact ⟨c, w', v', log, log', h2, h3, h4⟩

/-- C73_correlator: two rounds without a call of the correlator itself -/
example : ∃ (c : Corr Q) (w' : Work Q) (log : List (Option Exc)), Work.runAll .fabs ⟨c, its12⟩
      [.call .natural (.it 1), .call .deltaT (.it 1), .call .fraction (.it 1), .call .find (.it 1), .call .gaussian .other] = .ok (w', log) ∧ w'.corr = c := by
  obtain ⟨d, c, hd, hc, h1⟩ := corr136 (fun _ c => okThen (fun _ => true) (Work.runAll .fabs ⟨c, its12⟩
    [.call .natural (.it 1), .call .deltaT (.it 1), .call .fraction (.it 1), .call .find (.it 1), .call .gaussian .other]) = true) (by decide +kernel)
  obtain ⟨⟨w', log⟩, h2, _⟩ := okThen_ok h1
  exact ⟨c, w', log, h2, C73_correlator .fabs _ w' _ _ (by decide) h2⟩

/-- C73_protocol: the value of the iterator for lag 2 (place 2 of the lags 0, 1, 2) -/
example : ∃ (w' : Work Q) (c' : Corr Q), (WCall.add (.it 1) (some 1)).run .fabs w' = .ok () { w' with corr := c' } ∧ c'.lagTimeseries[1]? = some (.fin 2) ∧
    c'.EntryIs 0 1 (.fin (-3/7)) := by
  obtain ⟨d, c, hd, hc, h0, h1, h2⟩ := corr136 (fun d c => d.N = 1 ∧
    okThen (fun p => decide (1 < p.1.corr.lagTimeseries.length)) (Work.runAll .fabs ⟨c, its12⟩ (twoIterators.drop 2)) = true ∧
    okThen (fun r : AcResult Q => decide (r.corr.getAlpha = c.getAlpha ∧ r.lags[2]? = some (.fin 2 : Q) ∧ r.corrs.rows[0]?.bind (·[2]?) = some (.fin (-3/7) : Q)))
      (autocorrelation .fabs d ⟨some (.fin 1), some (.fin 2), some (.fin 1), none⟩ "natural" "fractional") = true) (by decide +kernel)
  obtain ⟨⟨w', log⟩, h3, h4⟩ := okThen_ok h1
  obtain ⟨r, hr, h5⟩ := okThen_ok h2
  obtain ⟨h6, h7, h8⟩ := of_decide_eq_true h5
  exact ⟨w', C73_protocol .fabs d hd ⟨c, its12⟩ w' (Reached.start hc) "natural" "fractional" .natural .fraction rfl rfl (.fin 2) 1 (by rw [h0]; rfl) _ log (by simp [twoIterators]) rfl h3 _ r hr h6
    0 2 _ (at_of h7 h8) 1 (of_decide_eq_true h4) (by norm_num)⟩

/-- two new iterators, for the lags 9 and 1 -/
def its91 : List (CorrIt Q) := [CorrIt.new (.fin 9) 1, CorrIt.new (.fin 1) 1]

/-- C73_k_before and C73_k_after: the first one gets the lag 2 before its calls, the second one the lag 7 after them -/
example : ∃ (w' : Work Q) (c1 c2 : Corr Q), (WCall.add (.it 0) (some 1)).run .fabs w' = .ok () { w' with corr := c1 } ∧ c1.lagTimeseries[1]? = some (.fin 2) ∧
    c1.EntryIs 0 1 (.fin (-3/7)) ∧ (WCall.add (.it 1) (some 1)).run .fabs w' = .ok () { w' with corr := c2 } ∧ c2.lagTimeseries[1]? = some (.fin 7) ∧
    c2.EntryIs 0 1 (.fin (1/28)) := by
  obtain ⟨d, c, hd, hc, h0, h1, h2⟩ := corr136 (fun d c => d.N = 1 ∧
    okThen (fun p => decide (1 < p.1.corr.lagTimeseries.length)) (Work.runAll .fabs ⟨c, its91⟩ (assignedK.drop 2)) = true ∧
    okThen (fun r : AcResult Q => decide (r.corr.getAlpha = c.getAlpha ∧ r.lags[2]? = some (.fin 2 : Q) ∧ r.corrs.rows[0]?.bind (·[2]?) = some (.fin (-3/7) : Q) ∧
      r.lags[1]? = some (.fin 1 : Q) ∧ r.corrs.rows[0]?.bind (·[1]?) = some (.fin (1/28) : Q)))
      (autocorrelation .fabs d ⟨some (.fin 1), some (.fin 2), some (.fin 1), none⟩ "natural" "fractional") = true) (by decide +kernel)
  obtain ⟨⟨w', log⟩, h3, h4⟩ := okThen_ok h1
  obtain ⟨r, hr, h5⟩ := okThen_ok h2
  obtain ⟨h6, h7, h8, h9, h10⟩ := of_decide_eq_true h5
  obtain ⟨c1, a1, a2, a3⟩ := C73_k_before .fabs d hd ⟨c, its91⟩ w' (Reached.start hc) "natural" "fractional" .natural .fraction rfl rfl (.fin 9) (.fin 2) 0 (by rw [h0]; rfl) _ log
    (by simp [assignedK]) (.float (.fin 2)) rfl rfl h3 _ r hr h6 0 2 _ (at_of h7 h8) 1 (of_decide_eq_true h4) (by norm_num)
  obtain ⟨c2, b1, b2, b3⟩ := C73_k_after .fabs d hd ⟨c, its91⟩ w' (Reached.start hc) "natural" "fractional" .natural .fraction rfl rfl (.fin 1) (.fin 7) 1 (by rw [h0]; rfl) _ log
    (by simp [assignedK]) (.float (.fin 7)) rfl rfl h3 _ r hr h6 0 1 _ (at_of h9 h10) 1 (of_decide_eq_true h4) (by norm_num)
  exact ⟨w', c1, c2, a1, a2, a3, b1, b2, b3⟩

/-! ## Iterator -/

/-- C72_natural: an iterator with an index and a shifted time left over -/
example : ∃ (c : Corr Q) (old new : List ℕ) (it' : CorrIt Q), c.naturalOn .fabs { CorrIt.new (.fin 1 : Q) 1 with selection := [7], shifted := ⟨q [2], []⟩ } = .ok () it' ∧
    it'.selection = [7] ++ (old ++ new) ∧ old.length = 1 ∧ ∃ f, c.naturalSelection .fabs (CorrIt.new (.fin 1) 1) = .ok f ∧ f.selection = new := by
  obtain ⟨d, c, hd, hc, h2⟩ := corr136 (fun d _ => d.normT.getLast? = some (.fin 3)) (by decide +kernel)
  have hds : c.ds = d := ((Reached.start (a := .fabs) hc).good hd).2.1
  obtain ⟨old, new, sh, h3, h4, _, _, h5⟩ := C72_natural d hd c hds { CorrIt.new (.fin 1 : Q) 1 with selection := [7], shifted := ⟨q [2], []⟩ } (by
    intro s hs t ht
    rw [h2] at ht
    simp [q] at hs ht
    subst hs ht
    decide +kernel)
  exact ⟨c, old, new, _, h3, rfl, h4, h5 1⟩

/-- C72_fast: lag 2 raises; at lag 1 what was in the list stays in the place of a zero -/
example : ∃ (c : Corr Q) (it it' : CorrIt Q), c.fastOn .fabs { CorrIt.new (.fin 2 : Q) 1 with selection := [7, 8, 9] } = .exn .indexError it ∧ it.shifted.elems ≠ [] ∧
    c.fastOn .fabs { CorrIt.new (.fin 1 : Q) 1 with selection := [7, 8, 9] } = .ok () it' ∧ it'.shifted.elems = [] ∧ it'.selection.length = 2 := by
  obtain ⟨d, c, hd, hc, h1, h2⟩ := corr136 (fun _ c => (c.fastSelection .fabs (CorrIt.new (.fin 2) 1) = .exn .indexError) ∧
    okThen (fun f => decide (f.selection = [1, 0])) (c.fastSelection .fabs (CorrIt.new (.fin 1) 1)) = true) (by decide +kernel)
  obtain ⟨f, h3, h4⟩ := okThen_ok h2
  have h4 := of_decide_eq_true h4
  have hds : c.ds = d := ((Reached.start (a := .fabs) hc).good hd).2.1
  obtain ⟨sh, h5, h6⟩ := (C72_fast .fabs d hd c hds { CorrIt.new (.fin 2 : Q) 1 with selection := [7, 8, 9] } rfl 1).1 _ h1
  obtain ⟨sh', sel, m, h7, h8, _, h9, _⟩ := (C72_fast .fabs d hd c hds { CorrIt.new (.fin 1 : Q) 1 with selection := [7, 8, 9] } rfl 1).2 _ h3
  exact ⟨c, _, _, h6, h5, h7, h8, (h9 (by rw [h4]; simp)).trans (by rw [h4]; rfl)⟩

/-- C72_deltaT: all there; an index that is no sample; a storage that is too short -/
example : ∃ (c : Corr Q) (it it' : CorrIt Q), c.deltaOn .fabs { CorrIt.new (.fin 1 : Q) 1 with selection := [1, 2], shifted := ⟨[], q [1, 2]⟩ } = .ok () it ∧
    c.deltaOn .fabs { CorrIt.new (.fin 1 : Q) 1 with selection := [1, 5], shifted := ⟨[], q [1, 2]⟩ } = .exn .indexError it' ∧
    c.deltaOn .fabs { CorrIt.new (.fin 1 : Q) 1 with selection := [1, 2], shifted := ⟨[], q [1]⟩ } = .ub := by
  obtain ⟨d, c, hd, hc, h1⟩ := corr136 (fun d _ => d.M = 3) (by decide +kernel)
  have hds : c.ds = d := ((Reached.start (a := .fabs) hc).good hd).2.1
  obtain ⟨_, _, _, _, _, h2⟩ := (C72_deltaT d hd c hds { CorrIt.new (.fin 1 : Q) 1 with selection := [1, 2], shifted := ⟨[], q [1, 2]⟩ }).1 (by simp [h1]) (by simp [q, Vec.storage])
  obtain ⟨_, _, h3⟩ := (C72_deltaT d hd c hds { CorrIt.new (.fin 1 : Q) 1 with selection := [1, 5], shifted := ⟨[], q [1, 2]⟩ }).2.1 1 5 rfl (by omega) (by
    intro i hi s hs
    interval_cases i
    simp at hs
    omega) (by simp [q, Vec.storage])
  exact ⟨c, _, _, h2, h3, (C72_deltaT d hd c hds { CorrIt.new (.fin 1 : Q) 1 with selection := [1, 2], shifted := ⟨[], q [1]⟩ }).2.2 (by simp [q, Vec.storage]) (by
    intro i hi s hs
    have hi : i ≤ 1 := hi
    interval_cases i <;> simp at hs <;> omega)⟩

/-- C72_find, C72_find_value and C72_find_unsafe: two weights; four weights for three samples; one index for two weights -/
example : ∃ (c : Corr Q) (it it' : CorrIt Q), c.correlateOn { CorrIt.new (.fin 1 : Q) 2 with selection := [1, 2], weights := q [1, 1], correlation := q [1, 2] } = .ok () it ∧
    it.correlation.length = 2 ∧ c.correlateOn { CorrIt.new (.fin 1 : Q) 2 with selection := [1, 2, 0, 0], weights := q [1, 1, 1, 1] } = .exn .indexError it' ∧
    c.correlateOn { CorrIt.new (.fin 1 : Q) 2 with selection := [1], weights := q [1, 1] } = .ub := by
  obtain ⟨d, c, hd, hc, h1, h2, h3⟩ := corr136' (fun d _ => d.M = 3 ∧ d.N = 2 ∧ d.normData.length = 6) (by decide +kernel)
  have hr : Reached .fabs d c := Reached.start hc
  obtain ⟨out, h4, h5, _⟩ := C72_find_value .fabs d hd c hr { CorrIt.new (.fin 1 : Q) 2 with selection := [1, 2], weights := q [1, 1], correlation := q [1, 2] } (by simp [h2, q]) (by simp [q])
    (by simp [h1, q]) (by simp [h1])
  obtain ⟨it', h6⟩ := (C72_find .fabs d hd c hr { CorrIt.new (.fin 1 : Q) 2 with selection := [1, 2, 0, 0], weights := q [1, 1, 1, 1] } (by simp [h2, CorrIt.new]) (by simp [q])).2 (by
    intro h
    have := (h 3 (by simp [q])).1
    rw [h1, h2] at this
    omega)
  exact ⟨c, _, it', h4, h5.trans (by simp [q]), h6, C72_find_unsafe .fabs d hd c hr { CorrIt.new (.fin 1 : Q) 2 with selection := [1], weights := q [1, 1] } (by simp [h1])
    (.inr ⟨by simp [q], by simp [h1]⟩)⟩

/-- C72_leftover: fast selection at lag 2 raises -/
example : ∃ (c : Corr Q) (it' it'' f : CorrIt Q) (old : List ℕ), c.fastOn .fabs (CorrIt.new (.fin 2) 1) = .exn .indexError it' ∧ c.naturalOn .fabs it' = .ok () it'' ∧
    c.naturalSelection .fabs (CorrIt.new (.fin 2) 1) = .ok f ∧ old ≠ [] ∧ it''.selection = old ++ f.selection := by
  obtain ⟨d, c, hd, hc, h1⟩ := corr136 (fun _ c => c.fastSelection .fabs (CorrIt.new (.fin 2) 1) = .exn .indexError) (by decide +kernel)
  obtain ⟨it', it'', f, old, h⟩ := C72_leftover d hd c ((Reached.start (a := .fabs) hc).good hd).2.1 (.fin 2) 1 _ h1
  exact ⟨c, it', it'', f, old, h⟩

/-! ## Session -/

/-- a session with calls that raise -/
def someCalls : List (SCall Q) :=
  [.setMinLag (.float (.fin 0)), .setLagResolution (.float (.fin (5/4))), .find (.str "fast") (.str "fractional"), .setMaxLag (.str "all"), .clean (some (-1)), .clean (some 4)]

theorem someCalls_reached (P : DS Q → Corr Q → Corr Q → Prop) [∀ d c c', Decidable (P d c c')]
    (h : okThen (fun z => okThen (fun p => decide (P z.1 z.2 p.1)) (runSession .fabs z.2 someCalls)) (newOf (q [0, 1, 3]) [q [1, 2, 6]]) = true) :
    ∃ d c c', Constructed d ∧ Corr.new d = .ok c ∧ Reached .fabs d c' ∧ P d c c' := by
  obtain ⟨d, c, hd, hc, h1⟩ := corr136 (fun d c => okThen (fun p => decide (P d c p.1)) (runSession .fabs c someCalls) = true) (by simpa using h)
  obtain ⟨⟨c', log⟩, h2, h3⟩ := okThen_ok h1
  exact ⟨d, c, c', hd, hc, ⟨c, someCalls, log, hc, by simp [someCalls], h2⟩, of_decide_eq_true h3⟩

/-- C65_history, C69_data and C67_clean: after a session -/
example : ∃ (d : DS Q) (c c' : Corr Q) (rows : List (List Q)), c.lagTimeseries.length = 4 ∧ c.correlations = .ok rows ∧ rows.length = 1 ∧ c.values = .ok [q [1, 2, 6]] ∧
    c.normalisedTimeseries = q [0, 1, 3] ∧ c.nDatasets = .fin 1 ∧ d.N = 1 ∧ cleanOn (some 3) c = .ok c' ∧ c'.lagTimeseries = c.lagTimeseries.take 3 ∧ cleanOn (some 5) c = .ub ∧
    cleanOn (some (-1)) c = .exn .lengthError := by
  obtain ⟨d, _, c, hd, _, hr, h1, h2, h3, h4⟩ := someCalls_reached (fun d _ c => c.lagTimeseries.length = 4 ∧ d.N = 1 ∧ d.data2d = .ok [q [1, 2, 6]] ∧ d.normT = q [0, 1, 3])
    (by decide +kernel)
  obtain ⟨⟨rows, h5, h6, _⟩, h7, h8⟩ := C65_history .fabs d hd c hr
  obtain ⟨_, _, h9, _⟩ := C69_data .fabs d hd c hr
  obtain ⟨a1, a2, a3, _⟩ := C67_clean .fabs d hd c hr rows h5
  obtain ⟨c', b1, b2, _⟩ := a1 3 (by omega) (by norm_num)
  exact ⟨d, c, c', rows, h1, h5, h6.trans h2, h7.trans h3, h8.trans h4, by rw [h9, h2]; decide +kernel, h2, b1, b2, a2 5 (by omega) (by norm_num), a3 (-1) (by norm_num) (by norm_num)⟩

/-- C67_add -/
example : ∃ (c c' : Corr Q), addOn { CorrIt.new (.fin 7 : Q) 1 with correlation := q [8] } (some 1) c = .ok c' ∧ c'.lagTimeseries = c.lagTimeseries.set 1 (.fin 7) ∧
    addOn (CorrIt.new (.fin 7) 1) (some 4) c = .ub ∧ addOn (CorrIt.new (.fin 7) 0) (some 0) c = .ub := by
  obtain ⟨d, _, c, hd, _, hr, h1, h2⟩ := someCalls_reached (fun d _ c => c.lagTimeseries.length = 4 ∧ d.N = 1) (by decide +kernel)
  obtain ⟨⟨rows, h5, h6, _⟩, _⟩ := C65_history .fabs d hd c hr
  obtain ⟨c', a1, a2, _⟩ := (C67_add .fabs d hd c hr { CorrIt.new (.fin 7 : Q) 1 with correlation := q [8] } rows h5).1 1 (by omega) (by norm_num) (by simp [h2, q])
  exact ⟨c, c', a1, a2, (C67_add .fabs d hd c hr (CorrIt.new (.fin 7) 1) rows h5).2.1 4 (by norm_num) (by norm_num) (.inr (.inl (by rw [h1]; norm_num))),
    (C67_add .fabs d hd c hr (CorrIt.new (.fin 7) 0) rows h5).2.1 0 (by norm_num) (by norm_num) (.inr (.inr (by simp [h2, CorrIt.new])))⟩

/-- C65_failed_call and C65_same_exceptions: fast selection with the lags 0, 5/4, 5/2 -/
example : ∃ (c s : Corr Q) (e : Exc), (SCall.find (.str "fast") (.str "fractional")).run .fabs c = .exn e s ∧ s.getMaxLag = c.getMaxLag ∧
    (calculateOn .fabs s).res = (calculateOn .fabs c).res ∧
    ((∃ u v log, runSession .fabs c [.clean (some 9), .clean (some 5), .calculate] = .ok (u, log) ∧ runSession .fabs s [.clean (some 9), .clean (some 5), .calculate] = .ok (v, log)) ∨
      (runSession .fabs c [.clean (some 9), .clean (some 5), .calculate] = .ub ∧ runSession .fabs s [.clean (some 9), .clean (some 5), .calculate] = .ub) ∨
      (runSession .fabs c [.clean (some 9), .clean (some 5), .calculate] = .diverge ∧ runSession .fabs s [.clean (some 9), .clean (some 5), .calculate] = .diverge)) := by
  obtain ⟨d, c, hd, hc, h1⟩ := corr136 (fun _ c => okThen (fun p => okThen (fun z => decide (z.2 = [some .indexError])) (runSession .fabs p.1 [.find (.str "fast") (.str "fractional")]))
    (runSession .fabs c [.setMinLag (.float (.fin 0)), .setLagResolution (.float (.fin (5/4)))]) = true) (by decide +kernel)
  obtain ⟨⟨c1, log⟩, h2, h3⟩ := okThen_ok h1
  have hr : Reached .fabs d c1 := ⟨c, _, log, hc, by simp, h2⟩
  obtain ⟨⟨s, log'⟩, h4, h5⟩ := okThen_ok h3
  have h5 := of_decide_eq_true h5
  simp only [runSession] at h4
  cases hx : (SCall.find (.str "fast") (.str "fractional")).run .fabs c1 with
  | ok u s' => rw [hx] at h4; simp at h4; simp [← h4.2] at h5
  | exn e s' =>
    obtain ⟨⟨_, a1, _⟩, a2, _⟩ := C65_failed_call .fabs d hd c1 hr _ e s' hx
    exact ⟨c1, s', e, hx, a1, a2, C65_same_exceptions .fabs c1 s' _ e hx _⟩
  | ub => rw [hx] at h4; simp at h4
  | diverge => rw [hx] at h4; simp at h4

/-- C66_chosen_lags and C66_slots: the lags 2 and 1 in this order after a session, and ten lags in nine slots -/
example : ∃ (c c' : Corr Q), chosenLags .fabs "natural" "fractional" c (q [2, 1]) = .ok c' ∧ c'.lagTimeseries = q [2, 1] ∧ c'.EntryIs 0 0 (.fin (-3/7)) ∧
    chosenLags .fabs "natural" "gaussian" c (q [2, 1, 0, -1, -2]) = .ub := by
  obtain ⟨d, _, c, hd, _, hr, h1, h2, h3⟩ := someCalls_reached (fun d _ c => c.lagTimeseries.length = 4 ∧ d.N = 1 ∧
    okThen (fun r : AcResult Q => decide (r.corr.getAlpha = c.getAlpha ∧ r.lags[2]? = some (.fin 2 : Q) ∧ r.corrs.rows[0]?.bind (·[2]?) = some (.fin (-3/7) : Q)))
      (autocorrelation .fabs d ⟨some (.fin 1), some (.fin 2), some (.fin 1), none⟩ "natural" "fractional") = true) (by decide +kernel)
  obtain ⟨c', h4⟩ := (C66_slots d hd c hr "fractional" known_fractional (q [2, 1])).1 (by rw [h1]; simp [q])
  obtain ⟨r, hr', h5⟩ := okThen_ok h3
  obtain ⟨h6, h7, h8⟩ := of_decide_eq_true h5
  obtain ⟨b1, b2, b3⟩ := C66_chosen_lags .fabs d hd c hr _ _ _ c' h4
  obtain ⟨v, hv⟩ := b2 0 (by omega) 0 (by simp [q])
  obtain rfl := b3 _ r hr' h6 0 0 2 (.fin 2) v _ rfl hv (at_of h7 h8)
  exact ⟨c, c', h4, b1, hv, (C66_slots d hd c hr "gaussian" known_gaussian (q [2, 1, 0, -1, -2])).2 (by rw [h1]; simp [q])⟩

/-! ## Contract -/

/-- C68_selection, C68_weight: `None` as the selection, a list as the weight function -/
example : ∃ c : Corr Q, findOn .fabs (.obj "None") (.str "gaussian") c = .exn (.keyError "None") c ∧ findOn .fabs (.str "natural") .unhashable c = .exn .typeError c := by
  obtain ⟨d, _, c, hd, _, hr, h1⟩ := someCalls_reached (fun _ _ c => Arith.le c.minLag c.maxLag = true) (by decide +kernel)
  exact ⟨c, C68_selection _ _ _ _ _ (by simp [PyName.Error]) h1, C68_weight .fabs d hd c hr _ _ (by simp [PyName.Error]) h1⟩

/-- C68_strings and C68_autocorrelation: `None` as the selection, a list as the weight function, and the latter with no lag due -/
example : ∃ d : DS Q, d.timeseries = q [0, 1, 3] ∧ anyAutocorrelation .fabs d .none .none .none .none (.obj "None") (.str "gaussian") .none = .exn (.keyError "None") ∧
    anyAutocorrelation .fabs d .none .none .none .none (.str "natural") .unhashable .none = .exn .typeError ∧
    anyAutocorrelation .fabs d (.float (.fin 9)) .none .none .none (.str "natural") .unhashable .none = .exn .unboundLocal ∧
    anyAutocorrelation .fabs d .none .none .none .none (.str "fast") (.str "gaussian") .none = pyAutocorrelation .fabs d .none .none .none .none "fast" "gaussian" .none := by
  obtain ⟨d, c0, hd, hc, h0, h1, h2⟩ := corr136 (fun d c => d.timeseries = q [0, 1, 3] ∧
    okThen (fun c' => Arith.le c'.minLag c'.maxLag) (pySetUpCorrelation c .none .none .none .none) = true ∧
    okThen (fun c' => !Arith.le c'.minLag c'.maxLag) (pySetUpCorrelation c (.float (.fin 9)) .none .none .none) = true) (by decide +kernel)
  obtain ⟨c1, h3, h4⟩ := okThen_ok h1
  obtain ⟨c2, h5, h6⟩ := okThen_ok h2
  exact ⟨d, h0, (C68_autocorrelation .fabs d c0 c1 hc _ _ _ _ .none h3 (.obj "None") (.str "gaussian")).1 h4 _ rfl,
    (C68_autocorrelation .fabs d c0 c1 hc _ _ _ _ .none h3 (.str "natural") .unhashable).2.1 h4 hd _ rfl,
    (C68_autocorrelation .fabs d c0 c2 hc _ _ _ _ .none h5 (.str "natural") .unhashable).2.2 (by simpa using h6) ⟨.typeError, .inr rfl⟩, C68_strings _ _ _ _ _ _ _ _ _⟩

/-- C69_parameters: the last number assigned counts -/
example : ∃ (c c' : Corr Q) (log : List (Option Exc)),
    runSession .fabs c [.setMaxLag (.float (.fin 2)), .setMaxLag (.str "all"), .setAlpha (.int (some (.fin 5))), .calculate] = .ok (c', log) ∧
    c'.getMaxLag = .fin 2 ∧ c'.getMinLag = c.getMinLag ∧ c'.getAlpha = .fin 5 := by
  obtain ⟨d, c, hd, hc, h1⟩ := corr136 (fun _ c => okThen (fun _ => true)
    (runSession .fabs c [.setMaxLag (.float (.fin 2)), .setMaxLag (.str "all"), .setAlpha (.int (some (.fin 5))), .calculate]) = true) (by decide +kernel)
  obtain ⟨⟨c', log⟩, h2, _⟩ := okThen_ok h1
  obtain ⟨a1, a2, _, a3⟩ := C69_parameters .fabs c c' _ log h2
  exact ⟨c, c', log, h2, a1, a2, a3⟩

/-! ## PyArgs -/

/-- C48_three_arguments: flat lists and tables -/
example : pyInit (fun _ => none) (intList (q [0, 1])) (floatList (q [1, 2])) (floatList (q [3, 4])) .none = mkFlatErr (q [0, 1]) (q [1, 2]) (q [3, 4]) ∧
    pyInit (fun _ => none) (intList (q [0, 1])) (floatTable [q [1, 2]]) (floatTable [q [3, 4]]) .none = mkTableErr (q [0, 1]) [q [1, 2]] [q [3, 4]] :=
  ⟨(C48_three_arguments _ _ _ _ (by simp [floatList]) (plain_intList _) (plain_floatList _) (plain_floatList _) (not_broken_floatList _)
      (not_broken_floatList _)).1 _ _ _ (flatOf_intList _) (flatOf_floatList _) (flatOf_floatList _) (fun _ _ h => absurd h (not_tableOf_floatList _ _ _)),
    (C48_three_arguments _ _ _ _ (by simp [floatTable]) (plain_intList _) (plain_floatTable _) (plain_floatTable _) (not_broken_floatTable _)
      (not_broken_floatTable _)).2.1 _ _ _ (flatOf_intList _) (tableOf_floatTable _) (tableOf_floatTable _)
      (fun _ _ h => absurd h (not_flatOf_floatTable _ _ _))⟩

/-- C48_mixed, C48_filename -/
example : pyInit (fun _ => none) (intList (q [0, 1])) (floatList (q [1, 2])) (floatTable [q [3, 4]]) .none = .exn .typeError ∧
    pyInit (fun s => if s = "a" then some "0 1\n1 2".toList else none) (.none : PyVal Q) .none .none (.str "a") = mkFile (some "0 1\n1 2".toList) :=
  ⟨(C48_mixed _ _ .none .none (.fin 1) (.fin 0) (q [2]) [] [] (q [3, 4]) [] [] "" (plain_intList _) plain_none plain_none
      not_broken_none not_broken_none).1, (C48_filename _ _ _ _ "a" (by decide)).1⟩

/-- C105: `SACF(np.array(0.), [1., 2.])`; `SACF([0., 1.], [np.array(1.), 2.])`; a table of a row and a zero-dimensional array; and
`SACF([np.array(0.), 1.], [1., np.array(2.)])`, which is accepted -/
example : pyInit (fun _ => none) (.point (.fin 0)) (floatList (q [1, 2])) .none .none = .exn .lengthError ∧
    pyInit (fun _ => none) (floatList (q [0, 1])) (.list [.point (.fin 1), .float (.fin 2)]) .none .none = .exn .lengthError ∧
    pyInit (fun _ => none) (floatList (q [0, 1])) (.list [intList (q [1, 2]), .point (.fin 1)]) .none .none = .exn .lengthError ∧
    pyInit (fun _ => none) (.list [.point (.fin 0), .float (.fin 1)]) (.list [.float (.fin 1), .point (.fin 2)]) .none .none = mkFlat (q [0, 1]) (q [1, 2]) := by
  have hp : ∀ a : Q, Complete (.point a) := fun a l h => by cases h
  have hf : ∀ a : Q, Complete (.float a) := fun a l h => by cases h
  have hl : ∀ l : List (PyVal Q), (∀ y ∈ l, Complete y) → CompleteRows (.list l) := fun l h => ⟨(plain_list l).2, fun l' h' y hy => by
    cases h'
    exact h y (by simpa using hy)⟩
  have hn : CompleteRows (.none : PyVal Q) := ⟨plain_none.2, fun l h => by cases h⟩
  refine ⟨C105_argument _ _ _ _ _ rfl (hp _) (plain_floatList _).2 plain_none.2 (.inl (by simp [Sized])),
    C105_first_item _ _ _ _ _ rfl (plain_floatList _).2 (hl _ (by simpa using ⟨hp _, hf _⟩)) plain_none.2 _ _ (.inl (.list _)),
    (C105_row _ _ _ .none _ rfl (plain_floatList _).2 (hl _ (by simpa using ⟨(plain_intList _).2, hp _⟩)) hn).1 ?_ ?_,
    C105_item _ _ _ _ _ _ _ ⟨_, .list _, .cons (.point _) (.cons (.float _) .nil)⟩ (.inl rfl) (.cons (.point _) .nil)⟩
  · exact ⟨[intList (q [1, 2])], .fin 1, [], .list _, by simpa using ⟨_, flatOf_intList _⟩⟩
  · rintro v ⟨xs, h, h2⟩
    cases items_list h
    rcases h2 with _ | ⟨h, _⟩
    nomatch h

/-- C105_number: `max_lag=np.array(2.)` -/
example (d : DS Q) : anyAutocorrelation .fabs d .none (.point (.fin 2)) .none .none (.str "natural") (.str "gaussian")
    = anyAutocorrelation .fabs d .none (.float (.fin 2)) .none .none (.str "natural") (.str "gaussian") :=
  (C105_number .fabs d _ _ _ _ .none _ _ _ _ .none .none .none .none .none _ _ (.refl _) (.point _) (.refl _) (.refl _) (.refl _) (.refl _) (.refl _)).1

/-- C63_column_partial and C63_false: the column 5, 6, 8 -/
example : pyInit (fun _ => none) (floatList (q [0, 1, 2])) (columnArray true (q [5, 6, 8])) .none .none = .ub ∧
    pyInit (fun _ => none) (floatList (q [0, 1, 2])) (columnArray true (q [5, 6, 8])) .none .none = mkTable (q [0, 1, 2]) [q [5], q [6], q [8]] ∧
    ∃ d, pyInit (fun _ => none) (intList (q [0, 1, 2])) (columnArray true (q [5, 6, 8])) .none .none = .ok d ∧ d.timeseries = q [0, 1, 2] ∧ d.data2d = .ok [q [5, 6, 8]] :=
  ⟨(C63_false _ _ _ (by decide) (by decide)).1, (C63_column_partial _ _ _ (by decide)).1, (C63_false _ _ _ (by decide) (by decide)).2⟩

/-- C64_numbers and C64_type_error: `max_lag=2` (an `int`), `lag_resolution=1.0`; `alpha="1"` -/
example : ∃ d : DS Q, d.timeseries = q [0, 1, 3] ∧
    pyAutocorrelation .fabs d .none (.int (some (.fin 2))) (.float (.fin 1)) .none "natural" "gaussian" .none
      = (autocorrelation .fabs d { maxLag := some (.fin 2), lagRes := some (.fin 1) } "natural" "gaussian").bind (fun r => .ok (r.toPy false)) ∧
    pyAutocorrelation .fabs d .none (.int (some (.fin 2))) (.float (.fin 1)) (.str "1") "natural" "gaussian" .none = .exn .typeError := by
  obtain ⟨d, c, hd, hc, h0⟩ := corr136 (fun d _ => d.timeseries = q [0, 1, 3]) (by decide +kernel)
  refine ⟨d, h0, C64_numbers .fabs d _ _ _ _ .none { maxLag := some (.fin 2), lagRes := some (.fin 1) } _ _ rfl (.int _) (.float _) rfl, C64_type_error .fabs d _ _ _ _ _ _ _ c hc
    ⟨.str "1", by simp, ?_⟩⟩
  rintro (_ | a) h
  · exact absurd (show PyVal.str "1" = .none from h) (by simp)
  · nomatch (show IsNum (.str "1") a from h)

/-! ## Api -/

/-- C57_iterator_reuse: the first round at lag 7 selects nothing, and the second one works -/
example : ∃ (c : Corr Q) (it it' : CorrIt Q), lagPass .fabs "natural" "fractional" c (CorrIt.new (.fin 7) 1) = .ok it ∧
    lagPass .fabs "natural" "fractional" c { it with k := .fin 1 } = .ok it' ∧ it.selection = [] := by
  obtain ⟨d, c, hd, hc, h1⟩ := corr136 (fun _ c => okThen (fun it => okThen (fun _ => true) (lagPass .fabs "natural" "fractional" c { it with k := .fin 1 }))
    (lagPass .fabs "natural" "fractional" c (CorrIt.new (.fin 7) 1)) = true) (by decide +kernel)
  obtain ⟨it, h2, h3⟩ := okThen_ok h1
  obtain ⟨it', h4, _⟩ := okThen_ok h3
  exact ⟨c, it, it', h2, h4, (C57_iterator_reuse .fabs _ _ _ _ c (((Reached.start (a := .fabs) hc).good hd).2.1 ▸ hd) (.fin 7) (.fin 1) 1 it it' h2 h4).1⟩

/-- C58_too_small and C58_larger: two datasets, iterators with one and with three slots -/
example : ∃ (c : Corr Q), (∀ it, lagPass .fabs "natural" "fractional" c (CorrIt.new (.fin 1) 1) ≠ .ok it) ∧
    lagPass .fabs "natural" "fractional" c (CorrIt.new (.fin 1) 3)
      = (lagPass .fabs "natural" "fractional" c (CorrIt.new (.fin 1) 2)).bind fun it => .ok { it with correlation := it.correlation ++ [.fin 0] } := by
  obtain ⟨d, c, hd, hc, h1⟩ := corr136' (fun _ c => c.ds.N = 2) (by decide +kernel)
  have h2 := C58_larger .fabs "natural" "fractional" c (.fin 1) 3 (by omega)
  rw [h1] at h2
  exact ⟨c, fun it => C58_too_small .fabs _ _ c (((Reached.start (a := .fabs) hc).good hd).2.1 ▸ hd) _ 1 (by omega) it, h2⟩

/-- C58_new and C58_created in binary64: `CorrelationIterator(1, 3)`, `CorrelationIterator(1, 2.5)`, `CorrelationIterator(1, -1)` -/
example : CorrIt.newF (.fin 1 : B) (Arith.ofInt (3 : ℕ)) = .ok (CorrIt.new (.fin 1) 3) ∧ CorrIt.newF (.fin 1 : B) (.fin (5/2)) = .ub ∧
    CorrIt.newF (.fin 1 : B) (.fin (-1)) = .ub ∧ CorrIt.newF (.fin 1 : B) (.fin 2) = .ok (CorrIt.new (.fin 1) 2) := by
  have hR : ∀ x : ℚ, x ≤ 3 → ∀ i : ℕ, (i : ℚ) ≤ x → (XF.round (i : ℚ) : B) = .fin i := by
    intro x hx i hi
    have : i ≤ 3 := by exact_mod_cast hi.trans hx
    interval_cases i <;> decide +kernel
  refine ⟨C58_new _ 3 (fun i hi => hR 3 le_rfl i (by exact_mod_cast hi)), ((C58_created _).1 _ (hR _ (by norm_num))).2.2.2 (by norm_num) (fun m h => ?_),
    ((C58_created _).1 _ (hR _ (by norm_num))).2.2.1 (by norm_num), ((C58_created _).1 _ (hR _ (by norm_num))).1 2 (by norm_num)⟩
  have : ((5 : ℕ) : ℚ) = ((2 * m : ℕ) : ℚ) := by push_cast; linarith
  have := Nat.cast_injective this
  omega

/-- C56_decreasing: times 3, 1, 0 -/
example : ∃ (d : DS Q) (r : AcResult Q), d.timeseries = q [3, 1, 0] ∧ autocorrelation .fabs d {} "natural" "fractional" = .ok r ∧ r.lags = [] ∧
    autocorrelation .fabs d {} "natural" "gaussian" = .exn .unboundLocal := by
  obtain ⟨d, hd, ht, _⟩ := object (q [3, 1, 0]) (q [6, 2, 1]) (by decide) (by decide)
  have e : q [3, 1, 0] = samples 3 (fun i => [3, 1, 0].getD i 0) := by decide +kernel
  have hdec : ∀ i j, i < j → j < 3 → ([3, 1, 0] : List ℚ).getD j 0 < ([3, 1, 0] : List ℚ).getD i 0 := by
    intro i j hij hj
    interval_cases j <;> interval_cases i <;> decide +kernel
  obtain ⟨r, h1, h2, _⟩ := (C56_decreasing .fabs d (.flat hd) 3 _ (ht.trans e) (by norm_num) (by norm_num) hdec "natural" "fractional").1 ⟨rfl, rfl⟩
  exact ⟨d, r, ht, h1, h2, (C56_decreasing .fabs d (.flat hd) 3 _ (ht.trans e) (by norm_num) (by norm_num) hdec "natural" "gaussian").2 (by decide)⟩

/-! ## Lifetime -/

namespace Mem

/-- the state after `demo`, which ends with a `Correlator` whose `SACF` is gone -/
theorem demo_state : ∃ h, run Heap.empty demo = .ok h ∧ h.cell 2 = some ⟨.corr 0 [0], 1⟩ ∧ h.ext 2 = 1 := by
  obtain ⟨h, h1, h2⟩ := okThen_ok (P := fun h : Heap => decide (h.cell 2 = some ⟨.corr 0 [0], 1⟩ ∧ h.ext 2 = 1)) (z := run Heap.empty demo) (by decide +kernel)
  exact ⟨h, h1, of_decide_eq_true h2⟩

/-- C44_alive and C44_held -/
example : ∃ h rc, run Heap.empty demo = .ok h ∧ h.cell 0 = some ⟨.ds, rc⟩ ∧ h.cell 2 ≠ none := by
  obtain ⟨h, h1, h2, h3⟩ := demo_state
  obtain ⟨rc, h4⟩ := C44_alive h ⟨_, h1⟩ 2 0 _ _ h2
  exact ⟨h, rc, h1, h4, C44_held h ⟨_, h1⟩ 2 (by omega)⟩

/-- C44_no_dangling: neither of the two calls that end in a null pointer is in `demo` -/
example : ∃ h, run Heap.empty demo = .ok h := by
  rcases C44_no_dangling demo with h | ⟨h, _⟩
  · exact h
  · obtain ⟨h', h1, _⟩ := demo_state
    rw [h1] at h
    cases h

/-- C44_no_leak: after `del c` -/
example : ∃ h, run Heap.empty (demo ++ [.drop 2]) = .ok h ∧ ∀ x, h.cell x = none := by
  obtain ⟨h, h1, h2⟩ := okThen_ok (P := fun h : Heap => decide (h.ext 0 = 0 ∧ h.ext 1 = 0 ∧ h.ext 2 = 0 ∧ h.next = 3)) (z := run Heap.empty (demo ++ [.drop 2]))
    (by decide +kernel)
  obtain ⟨a0, a1, a2, a3⟩ := of_decide_eq_true h2
  refine ⟨h, h1, C44_no_leak h ⟨_, h1⟩ fun x => ?_⟩
  rcases Nat.lt_or_ge x 3 with hx | hx
  · interval_cases x <;> assumption
  · by_contra hne
    exact C44_held h ⟨_, h1⟩ x (by omega) ((reached_inv ⟨_, h1⟩).lt x (by omega))

end Mem
end Sacf
