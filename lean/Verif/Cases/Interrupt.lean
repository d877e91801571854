import Verif.Props.Interrupt
import Verif.Cases.Shared

/-! Cases for `Props/Interrupt.lean`. -/

namespace Sacf

/-- the correlator after the interrupted steps -/
def brokenOf : Out (Corr Q) (FindPc Q) → Res (FindPc Q × Corr Q)
  | .ok f c => .ok (f, c)
  | _ => .ub

theorem brokenOf_ok {r : Out (Corr Q) (FindPc Q)} {f : FindPc Q} {c : Corr Q} (h : brokenOf r = .ok (f, c)) : r = .ok f c := by
  cases r <;> simp [brokenOf] at h
  rw [h.1, h.2]

/-- line 92 has been executed -/
def FindPc.isFinished : FindPc Q → Bool
  | .finished => true
  | _ => false

/-- C93_retry: the squared weight after a computation with the linear one; interrupted after 30 steps, then after 12; the table holds a
mixture; the third attempt gives the result -/
example : ∃ (d : DS Q) (c s s' : Corr Q), Reached .fabs d c ∧
    Attempts .fabs (.str "natural") (.str "fractional_squared") c s ∧ s.correlations = .ok [q [1, 6/35, 1/28, -1/21, -3/7, -2/7]] ∧
    s'.correlations = .ok [q [1, 6/35, 1/28, -2/35, -3/7, -12/35]] ∧
    (findOn .fabs (.str "natural") (.str "fractional_squared") s).res = .ok s' := by
  obtain ⟨d, c, hd, hr, h⟩ := corrAfter (halves ++ [linear]) (by simp [halves, linear]) (fun c =>
    okThen (fun s1 => okThen (fun s2 => okThen (fun s' => decide (s2.2.correlations = .ok [q [1, 6/35, 1/28, -1/21, -3/7, -2/7]] ∧
        s'.correlations = .ok [q [1, 6/35, 1/28, -2/35, -3/7, -12/35]])) (findOn .fabs (.str "natural") (.str "fractional_squared") c).res)
      (brokenOf (FindPc.steps .fabs (.str "natural") (.str "fractional_squared") 12 .readMin s1.2)))
      (brokenOf (FindPc.steps .fabs (.str "natural") (.str "fractional_squared") 30 .readMin c)) = true) (by decide +kernel)
  obtain ⟨⟨f1, s1⟩, h1, h⟩ := okThen_ok h
  obtain ⟨⟨f2, s2⟩, h2, h⟩ := okThen_ok h
  obtain ⟨s', h3, h⟩ := okThen_ok h
  obtain ⟨h4, h5⟩ := of_decide_eq_true h
  have hat : Attempts .fabs (.str "natural") (.str "fractional_squared") c s2 :=
    (Attempts.none.more (brokenOf_ok h1)).more (brokenOf_ok h2)
  exact ⟨d, c, s2, s', hr, hat, h4, h5, by rw [C93_retry .fabs d hd c hr _ _ s2 hat]; exact h3⟩

/-- an interrupted loop, a setting, another interrupted loop, one with an unknown name, one that has got to line 92, and a computation -/
def bumpy : List (Try Q) :=
  [.broken (.str "natural") (.str "fractional_squared") 30, .call (.setMaxLag (.float (.fin 1))), .broken (.str "natural") (.str "gauss") 3,
    .broken (.str "fast") (.str "fractional") 8, .call (.find (.str "natural") (.str "gauss")),
    .broken (.str "natural") (.str "fractional_squared") 26, .call .calculate]

/-- C93_atomic -/
example : ∃ (d : DS Q) (c s : Corr Q), Reached .fabs d c ∧
    runTries .fabs c bumpy = .ok (s, [none, some (.keyError "gauss"), none]) ∧
    s.lagTimeseries = q [0, 1/2, 1] ∧ s.correlations = .ok [q [1, 1/7, 1/28]] ∧
    ∃ ys log' s', Resolves bumpy [none, some (.keyError "gauss"), none] ys log' ∧ runSession .fabs c ys = .ok (s', log') ∧
      (s.getMinLag = s'.getMinLag ∧ s.getMaxLag = s'.getMaxLag ∧ s.getLagResolution = s'.getLagResolution ∧ s.getAlpha = s'.getAlpha ∧
        s.values = s'.values ∧ s.lagTimeseries.length = s'.lagTimeseries.length) ∧
      (calculateOn .fabs s).res = (calculateOn .fabs s').res ∧ ∀ sel wt, (findOn .fabs sel wt s).res = (findOn .fabs sel wt s').res := by
  obtain ⟨d, c, hd, hr, h⟩ := corrAfter halves (by simp [halves]) (fun c =>
    okThen (fun p => decide (p.2 = [none, some (.keyError "gauss"), none] ∧ p.1.lagTimeseries = q [0, 1/2, 1] ∧
      p.1.correlations = .ok [q [1, 1/7, 1/28]])) (runTries .fabs c bumpy) = true) (by decide +kernel)
  obtain ⟨⟨s, log⟩, h1, h⟩ := okThen_ok h
  obtain ⟨rfl, h2, h3⟩ := of_decide_eq_true h
  exact ⟨d, c, s, hr, h1, h2, h3, C93_atomic .fabs d hd c hr bumpy (by simp [bumpy]) s _ h1⟩

/-- the interrupted loop of `bumpy` that had got to line 92 counts as made: without it there are nine slots -/
example : ∃ (d : DS Q) (c s s' : Corr Q), Reached .fabs d c ∧
    runTries .fabs c [.call (.setMaxLag (.float (.fin 1))), .broken (.str "natural") (.str "fractional_squared") 25] = .ok (s, [none]) ∧
    s.lagTimeseries.length = 9 ∧
    runTries .fabs c [.call (.setMaxLag (.float (.fin 1))), .broken (.str "natural") (.str "fractional_squared") 26] = .ok (s', [none]) ∧
    s'.lagTimeseries.length = 3 := by
  obtain ⟨d, c, hd, hr, h⟩ := corrAfter halves (by simp [halves]) (fun c =>
    okThen (fun p => okThen (fun p' => decide (p.2 = [none] ∧ p.1.lagTimeseries.length = 9 ∧ p'.2 = [none] ∧ p'.1.lagTimeseries.length = 3))
      (runTries .fabs c [.call (.setMaxLag (.float (.fin 1))), .broken (.str "natural") (.str "fractional_squared") 26]))
      (runTries .fabs c [.call (.setMaxLag (.float (.fin 1))), .broken (.str "natural") (.str "fractional_squared") 25]) = true) (by decide +kernel)
  obtain ⟨⟨s, log⟩, h1, h⟩ := okThen_ok h
  obtain ⟨⟨s', log'⟩, h2, h⟩ := okThen_ok h
  obtain ⟨rfl, h3, rfl, h4⟩ := of_decide_eq_true h
  exact ⟨d, c, s, s', hr, h1, h3, h2, h4⟩

/-- C93_contents: two columns of the new weight, the others of the old one -/
example : ∃ (d : DS Q) (c s : Corr Q), Reached .fabs d c ∧ c.correlations = .ok [q [1, 1/7, 1/28, -1/21, -3/7, -2/7]] ∧
    s.correlations = .ok [q [1, 6/35, 1/28, -1/21, -3/7, -2/7]] ∧
    ∃ s' P, Leaves .fabs c (.str "natural") (.str "fractional_squared") s' ∧ P ≤ s'.lagTimeseries.length ∧
      s.lagTimeseries.length = c.lagTimeseries.length ∧
      (∀ i < P, s.lagTimeseries[i]? = s'.lagTimeseries[i]? ∧ ∀ j v, s.EntryIs j i v ↔ s'.EntryIs j i v) ∧
      ∀ i, P ≤ i → s.lagTimeseries[i]? = c.lagTimeseries[i]? ∧ ∀ j v, s.EntryIs j i v ↔ c.EntryIs j i v := by
  obtain ⟨d, c, hd, hr, h0, h1, h⟩ := corrAfter (halves ++ [linear]) (by simp [halves, linear]) (fun c =>
    c.correlations = .ok [q [1, 1/7, 1/28, -1/21, -3/7, -2/7]] ∧
    definedOut (findOn .fabs (.str "natural") (.str "fractional_squared") c) = true ∧
    okThen (fun s => decide (s.1.isFinished = false ∧ s.2.correlations = .ok [q [1, 6/35, 1/28, -1/21, -3/7, -2/7]]))
      (brokenOf (FindPc.steps .fabs (.str "natural") (.str "fractional_squared") 22 .readMin c)) = true) (by decide +kernel)
  obtain ⟨⟨f, s⟩, h2, h⟩ := okThen_ok h
  obtain ⟨h3, h4⟩ := of_decide_eq_true h
  exact ⟨d, c, s, hr, h0, h4, C93_contents .fabs d hd c hr _ _ (definedOut_ne h1) 22 f (by rintro rfl; simp [FindPc.isFinished] at h3) s (brokenOf_ok h2)⟩

end Sacf
