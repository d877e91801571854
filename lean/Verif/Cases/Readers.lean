import Verif.Cases.Shared
import Verif.Props.Readers

/-! Cases for `Props/Readers.lean`. -/

namespace Sacf

/-- C98_moment_partial: the second loop has written two columns, the first one the first of them; the other slots are as before -/
example : ∃ (d : DS Q) (c : Corr Q) (w : World Q) (s : Corr Q), Reached .fabs d c ∧
    (World.init [c] racing).run .fabs (List.replicate 18 1 ++ List.replicate 11 0) = .ok w ∧ w.heap[0]? = some s ∧
    s.lagTimeseries = q [0, 1/2, 0, 0, 0, 0, 0, 0, 0] ∧
    ∃ s' P, w.heap[0]? = some s' ∧ P ≤ s'.lagTimeseries.length ∧
      (∀ i < P, ∃ sel wt s₁, NamesOn 0 racing sel wt ∧ Leaves .fabs c sel wt s₁ ∧ s'.lagTimeseries[i]? = s₁.lagTimeseries[i]? ∧
        ∀ j v, s'.EntryIs j i v ↔ s₁.EntryIs j i v) ∧
      ∀ i, P ≤ i → i < s'.lagTimeseries.length → s'.lagTimeseries[i]? = c.lagTimeseries[i]? ∧ ∀ j v, s'.EntryIs j i v ↔ c.EntryIs j i v := by
  obtain ⟨d, c, hd, hr, h1, h2, h3, h4⟩ := corrAfter halves (by simp [halves]) (fun c =>
    definedOut (findOn .fabs (.str "natural") (.str "fractional") c) = true ∧
    definedOut (findOn .fabs (.str "natural") (.str "fractional_squared") c) = true ∧
    definedOut (findOn .fabs (.str "natural") (.str "squared") c) = true ∧
    okThen (fun w => match w.heap[0]? with
      | some s => decide (s.lagTimeseries = q [0, 1/2, 0, 0, 0, 0, 0, 0, 0])
      | _ => false) ((World.init [c] racing).run .fabs (List.replicate 18 1 ++ List.replicate 11 0)) = true) (by decide +kernel)
  obtain ⟨w, hw, h4⟩ := okThen_ok h4
  split at h4
  · rename_i s hs
    obtain ⟨s', rows, k1, _, _, _, P, k2, k3, k4⟩ :=
      C98_moment_partial .fabs d hd c hr [c] racing (racing_valid c) 0 rfl (racing_loops h1 h2 h3) _ w hw
    exact ⟨d, c, w, s, hr, hw, hs, of_decide_eq_true h4, s', P, k1, k2, k3, k4⟩
  · simp at h4

/-- C98_settled_partial: the first loop has returned, the second is then run on -/
example : ∃ (d : DS Q) (c : Corr Q) (w w' : World Q) (s : Corr Q), Reached .fabs d c ∧
    (World.init [c] racing).run .fabs (List.replicate 18 1 ++ List.replicate 60 0) = .ok w ∧ w.run .fabs (List.replicate 10 1) = .ok w' ∧
    w.result 0 = some (.ok () s) ∧ s.lagTimeseries = q [0, 1/2, 1, 3/2, 2, 5/2] ∧
    ∃ s' rows, w'.heap[0]? = some s' ∧ s'.lagTimeseries = s.lagTimeseries ∧ s'.correlations = .ok rows ∧ ∀ row ∈ rows, row.length = 6 := by
  obtain ⟨d, c, hd, hr, h1, h2, h3, h4⟩ := corrAfter halves (by simp [halves]) (fun c =>
    definedOut (findOn .fabs (.str "natural") (.str "fractional") c) = true ∧
    definedOut (findOn .fabs (.str "natural") (.str "fractional_squared") c) = true ∧
    definedOut (findOn .fabs (.str "natural") (.str "squared") c) = true ∧
    okThen (fun w => okThen (fun _ => match w.result 0 with
      | some (.ok _ s) => decide (s.lagTimeseries = q [0, 1/2, 1, 3/2, 2, 5/2])
      | _ => false) (w.run .fabs (List.replicate 10 1)))
      ((World.init [c] racing).run .fabs (List.replicate 18 1 ++ List.replicate 60 0)) = true) (by decide +kernel)
  obtain ⟨w, hw, h4⟩ := okThen_ok h4
  obtain ⟨w', hw', h4⟩ := okThen_ok h4
  split at h4
  · rename_i s hs
    have h5 := of_decide_eq_true h4
    obtain ⟨s', rows, _, k2, k3, k4, k5⟩ :=
      C98_settled_partial .fabs d hd c hr [c] racing (racing_valid c) 0 rfl (racing_loops h1 h2 h3) _ _ w w' hw hw' 0 _ _ rfl s hs
    exact ⟨d, c, w, w', s, hr, hw, hw', hs, h5, s', rows, k2, k3, k4, fun row hrow => by rw [k5 row hrow, h5]; rfl⟩
  · simp at h4

end Sacf
