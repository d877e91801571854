import Verif.Cases.Threads
import Verif.Props.Races

/-! Cases for `Props/Shared.lean`. -/

namespace Sacf

/-- two loops with different weights and one with an unknown name, on one correlator -/
def racing : List (Task Q × Option Nat) :=
  [(.on linear, some 0), (.on squared, some 0), (.on (.find (.str "natural") (.str "squared")), some 0)]

theorem racing_valid (c : Corr Q) : ValidRefs [c] racing := by
  intro p hp x hx
  simp only [racing, List.mem_cons, List.not_mem_nil, or_false] at hp
  rcases hp with rfl | rfl | rfl <;> simp at hx <;> subst hx <;> simp

/-- defined behaviour -/
def definedOut : Out (Corr Q) Unit → Bool
  | .ub => false
  | _ => true

theorem definedOut_ne {r : Out (Corr Q) Unit} (h : definedOut r = true) : r ≠ .ub := by
  rintro rfl
  simp [definedOut] at h

theorem racing_loops {c : Corr Q} (h1 : definedOut (findOn .fabs (.str "natural") (.str "fractional") c) = true)
    (h2 : definedOut (findOn .fabs (.str "natural") (.str "fractional_squared") c) = true)
    (h3 : definedOut (findOn .fabs (.str "natural") (.str "squared") c) = true) : LoopsOn .fabs c 0 racing := by
  intro t task ht
  match t with
  | 0 =>
    simp only [racing, List.getElem?_cons_zero, Option.some.injEq, Prod.mk.injEq, and_true] at ht
    exact ⟨_, _, ht.symm, definedOut_ne h1⟩
  | 1 =>
    simp only [racing, List.getElem?_cons_succ, List.getElem?_cons_zero, Option.some.injEq, Prod.mk.injEq, and_true] at ht
    exact ⟨_, _, ht.symm, definedOut_ne h2⟩
  | 2 =>
    simp only [racing, List.getElem?_cons_succ, List.getElem?_cons_zero, Option.some.injEq, Prod.mk.injEq, and_true] at ht
    exact ⟨_, _, ht.symm, definedOut_ne h3⟩
  | n + 3 => simp [racing] at ht

/-- C92_columns_partial, C92_exceptions, C92_ends: the interleaving of `C92_false` with a third thread; the columns come from both loops, and the
first loop has ended because it has been run often enough -/
example : ∃ (d : DS Q) (c : Corr Q) (w : World Q) (c' : Corr Q), Reached .fabs d c ∧
    (World.init [c] racing).run .fabs (List.replicate 25 1 ++ List.replicate 90 0 ++ List.replicate 20 2 ++ List.replicate 60 1) = .ok w ∧
    w.result 1 = some (.ok () c') ∧ c'.correlations = .ok [q [1, 1/7, 1/28, -2/35, -3/7, -12/35]] ∧
    (∃ s, findOn .fabs (.str "natural") (.str "fractional_squared") c = .ok () s ∧ c'.lagTimeseries = s.lagTimeseries) ∧
    (∀ n < c'.lagTimeseries.length, ∃ sel' wt' s', NamesOn 0 racing sel' wt' ∧ Leaves .fabs c sel' wt' s' ∧
        ∀ j v, c'.EntryIs j n v ↔ s'.EntryIs j n v) ∧
    (∃ s, findOn .fabs (.str "natural") (.str "squared") c = .exn (.keyError "squared") s) ∧ (w.result 0).isSome := by
  obtain ⟨d, c, hd, hr, h1, h2, h3, h5, h4⟩ := corrAfter halves (by simp [halves]) (fun c =>
    definedOut (findOn .fabs (.str "natural") (.str "fractional") c) = true ∧
    definedOut (findOn .fabs (.str "natural") (.str "fractional_squared") c) = true ∧
    definedOut (findOn .fabs (.str "natural") (.str "squared") c) = true ∧ c.lagTimeseries.length = 9 ∧
    okThen (fun w => okThen (fun c' => decide (w.result 1 = some (.ok () c') ∧ w.result 2 = some (.exn (.keyError "squared") c') ∧
      c'.correlations = .ok [q [1, 1/7, 1/28, -2/35, -3/7, -12/35]])) (match w.result 1 with | some (.ok _ c') => .ok c' | _ => .ub))
      ((World.init [c] racing).run .fabs (List.replicate 25 1 ++ List.replicate 90 0 ++ List.replicate 20 2 ++ List.replicate 60 1))
      = true) (by decide +kernel)
  obtain ⟨w, hw, h4⟩ := okThen_ok h4
  obtain ⟨c', _, h4⟩ := okThen_ok h4
  obtain ⟨r1, r2, r3⟩ := of_decide_eq_true h4
  have hl := racing_loops h1 h2 h3
  obtain ⟨s, e1, e2, e3⟩ := C92_columns_partial .fabs d hd c hr [c] racing (racing_valid c) 0 rfl hl _ w hw 1 _ _ rfl c' r1
  exact ⟨d, c, w, c', hr, hw, r1, r3, ⟨s, e1, e2⟩, e3,
    C92_exceptions .fabs d hd c hr [c] racing (racing_valid c) 0 rfl hl _ w hw 2 _ _ rfl _ c' r2,
    C92_ends .fabs d hd c hr [c] racing (racing_valid c) 0 rfl hl _ w hw 0 _ _ rfl (by rw [h5]; decide +kernel)⟩

/-- C92_defined: every schedule of the three -/
example : ∃ (d : DS Q) (c : Corr Q), Reached .fabs d c ∧ ∀ sched, ∃ w, (World.init [c] racing).run .fabs sched = .ok w := by
  obtain ⟨d, c, hd, hr, h1, h2, h3⟩ := corrAfter halves (by simp [halves]) (fun c =>
    definedOut (findOn .fabs (.str "natural") (.str "fractional") c) = true ∧
    definedOut (findOn .fabs (.str "natural") (.str "fractional_squared") c) = true ∧
    definedOut (findOn .fabs (.str "natural") (.str "squared") c) = true) (by decide +kernel)
  exact ⟨d, c, hr, fun sched => C92_defined .fabs d hd c hr
    [(.str "natural", .str "fractional"), (.str "natural", .str "fractional_squared"), (.str "natural", .str "squared")]
    (by
      intro p hp
      simp only [List.mem_cons, List.not_mem_nil, or_false] at hp
      rcases hp with rfl | rfl | rfl
      · exact definedOut_ne h1
      · exact definedOut_ne h2
      · exact definedOut_ne h3) sched⟩

/-- the same loop in three threads -/
def thrice : List (Task Q × Option Nat) := [(.on squared, some 0), (.on squared, some 0), (.on squared, some 0)]

/-- C92_same_names: in the middle of the third loop the first two have ended -/
example : ∃ (d : DS Q) (c : Corr Q) (w : World Q) (c' : Corr Q), Reached .fabs d c ∧
    (World.init [c] thrice).run .fabs (List.replicate 20 1 ++ List.replicate 90 0 ++ List.replicate 30 2 ++ List.replicate 60 1) = .ok w ∧
    (w.result 2).isNone ∧ w.result 1 = some (.ok () c') ∧ .ok () c' = findOn .fabs (.str "natural") (.str "fractional_squared") c ∧
    c'.correlations = .ok [q [1, 6/35, 1/28, -2/35, -3/7, -12/35]] := by
  obtain ⟨d, c, hd, hr, h1, h4⟩ := corrAfter halves (by simp [halves]) (fun c =>
    definedOut (findOn .fabs (.str "natural") (.str "fractional_squared") c) = true ∧
    okThen (fun w => okThen (fun c' => decide (w.result 1 = some (.ok () c') ∧ (w.result 2).isNone ∧
      c'.correlations = .ok [q [1, 6/35, 1/28, -2/35, -3/7, -12/35]])) (match w.result 1 with | some (.ok _ c') => .ok c' | _ => .ub))
      ((World.init [c] thrice).run .fabs (List.replicate 20 1 ++ List.replicate 90 0 ++ List.replicate 30 2 ++ List.replicate 60 1))
      = true) (by decide +kernel)
  obtain ⟨w, hw, h4⟩ := okThen_ok h4
  obtain ⟨c', _, h4⟩ := okThen_ok h4
  obtain ⟨r1, r2, r3⟩ := of_decide_eq_true h4
  refine ⟨d, c, w, c', hr, hw, r2, r1, C92_same_names .fabs d hd c hr [c] thrice ?_ 0 rfl _ _ (definedOut_ne h1) ?_ _ w hw 1 rfl _ r1, r3⟩
  · intro p hp x hx
    simp only [thrice, List.mem_cons, List.not_mem_nil, or_false] at hp
    rcases hp with rfl | rfl | rfl <;> simp at hx <;> subst hx <;> simp
  · intro t task ht
    match t with
    | 0 => simp [thrice] at ht; exact ht.symm
    | 1 => simp [thrice] at ht; exact ht.symm
    | 2 => simp [thrice] at ht; exact ht.symm
    | n + 3 => simp [thrice] at ht

/-- C92_consistent: the threads of `C92_false_settings`, stopped before the loop writes outside the buffers -/
example : ∃ (c : Corr Q) (w : World Q) (c' : Corr Q),
    (World.init [c] [(.on linear, some 0), (.on (.setMaxLag (.float (.fin (1/2)))), some 0), (.on squared, some 0)]).run .fabs
      (List.replicate 8 0 ++ [1] ++ List.replicate 60 2 ++ List.replicate 3 0) = .ok w ∧ w.heap = [c'] ∧ c.lagTimeseries.length = 9 ∧
      c'.lagTimeseries.length = 2 ∧ ∃ rows, c'.correlations = .ok rows ∧ rows.length = c'.ds.N ∧ ∀ row ∈ rows, row.length = c'.lagTimeseries.length := by
  obtain ⟨d, c, hd, hr, h0, h4⟩ := corrAfter halves (by simp [halves]) (fun c => c.lagTimeseries.length = 9 ∧
    okThen (fun w => okThen (fun c' => decide (w.heap = [c'] ∧ c'.lagTimeseries.length = 2)) (match w.heap with | [c'] => .ok c' | _ => .ub))
      ((World.init [c] [(.on linear, some 0), (.on (.setMaxLag (.float (.fin (1/2)))), some 0), (.on squared, some 0)]).run .fabs
      (List.replicate 8 0 ++ [1] ++ List.replicate 60 2 ++ List.replicate 3 0)) = true) (by decide +kernel)
  obtain ⟨w, hw, h4⟩ := okThen_ok h4
  obtain ⟨c', _, h4⟩ := okThen_ok h4
  obtain ⟨r1, r2⟩ := of_decide_eq_true h4
  refine ⟨c, w, c', hw, r1, h0, r2, C92_consistent .fabs [c] (by simpa using ⟨d, hd, hr⟩) _ ?_ ?_ _ w hw c' (by simp [r1])⟩
  · intro p hp x hx
    simp only [List.mem_cons, List.not_mem_nil, or_false] at hp
    rcases hp with rfl | rfl | rfl <;> simp at hx <;> subst hx <;> simp
  · intro p hp
    simp only [List.mem_cons, List.not_mem_nil, or_false] at hp
    rcases hp with rfl | rfl | rfl <;> simp [Task.Usual, linear, squared]

end Sacf
