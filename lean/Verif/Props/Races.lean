import Verif.Cases.Objects
import Verif.Props.Shared
import Mathlib.Data.List.Permutation

/-!
# C92: what goes wrong

Two threads on one `Correlator` that want different things.
-/

namespace Sacf

/-- lags 0, 1/2, 1, 3/2, 2, 5/2 -/
def halves : List (SCall Q) :=
  [.setMinLag (.float (.fin 0)), .setMaxLag (.float (.fin (5/2))), .setLagResolution (.float (.fin (1/2)))]

/-- the loop with the linear weight -/
def linear : SCall Q := .find (.str "natural") (.str "fractional")

/-- the loop with the squared weight -/
def squared : SCall Q := .find (.str "natural") (.str "fractional_squared")

/-- the contents after the calls, one after the other -/
def tableAfter (c : Corr Q) (calls : List (SCall Q)) : Res (List (List Q)) :=
  (runSession .fabs c calls).bind fun p => p.1.correlations

/-- the correlator of the object with times 0, 1, 3 and values 1, 2, 6 after some calls -/
theorem corrAfter (calls : List (SCall Q)) (hcl : ∀ x ∈ calls, x ≠ SCall.clear) (P : Corr Q → Prop) [∀ c, Decidable (P c)]
    (h : okThen (fun z => okThen (fun p => decide (P p.1)) (runSession .fabs z.2 calls)) (newOf (q [0, 1, 3]) [q [1, 2, 6]]) = true) :
    ∃ d c, Constructed d ∧ Reached .fabs d c ∧ P c := by
  obtain ⟨d, c0, hd, hc, h1⟩ := corr136 (fun _ c => okThen (fun p => decide (P p.1)) (runSession .fabs c calls) = true) (by
    obtain ⟨z, hz, h1⟩ := okThen_ok h
    rw [hz]
    exact decide_eq_true h1)
  obtain ⟨p, hp, h2⟩ := okThen_ok h1
  exact ⟨d, p.1, hd, ⟨c0, calls, p.2, hc, hcl, hp⟩, of_decide_eq_true h2⟩

/-- **C92** is false of calls with different names: both return, and the table is neither that of the one nor that of the other order; it
has columns from both. -/
theorem C92_false : ∃ (d : DS Q) (c : Corr Q) (sched : List Nat) (w : World Q) (c' : Corr Q), Constructed d ∧ Reached .fabs d c ∧
    (World.init [c] [(.on linear, some 0), (.on squared, some 0)]).run .fabs sched = .ok w ∧
    w.result 0 = some (.ok () c') ∧ w.result 1 = some (.ok () c') ∧
    tableAfter c [linear, squared] = .ok [q [1, 6/35, 1/28, -2/35, -3/7, -12/35]] ∧
    tableAfter c [squared, linear] = .ok [q [1, 1/7, 1/28, -1/21, -3/7, -2/7]] ∧
    c'.correlations = .ok [q [1, 1/7, 1/28, -2/35, -3/7, -12/35]] := by
  obtain ⟨d, c, hd, hr, h1, h2, h3⟩ := corrAfter halves (by simp [halves]) (fun c =>
    tableAfter c [linear, squared] = .ok [q [1, 6/35, 1/28, -2/35, -3/7, -12/35]] ∧
    tableAfter c [squared, linear] = .ok [q [1, 1/7, 1/28, -1/21, -3/7, -2/7]] ∧
    okThen (fun w => okThen (fun c' => decide (w.result 0 = some (.ok () c') ∧ w.result 1 = some (.ok () c') ∧
      c'.correlations = .ok [q [1, 1/7, 1/28, -2/35, -3/7, -12/35]])) (match w.result 0 with | some (.ok _ c') => .ok c' | _ => .ub))
      ((World.init [c] [(.on linear, some 0), (.on squared, some 0)]).run .fabs (List.replicate 25 1 ++ List.replicate 60 0 ++ List.replicate 60 1))
      = true) (by decide +kernel)
  obtain ⟨w, hw, h3⟩ := okThen_ok h3
  obtain ⟨c', _, h3⟩ := okThen_ok h3
  obtain ⟨h3, h4, h5⟩ := of_decide_eq_true h3
  exact ⟨d, c, _, w, c', hd, hr, hw, h3, h4, h1, h2, h5⟩

/-- **C92** is false of calls that change the settings: two loops and an assignment to `max_lag` are fine one after the other in any order, but
have undefined behaviour when the second loop ends while the first one is running. -/
theorem C92_false_settings : ∃ (d : DS Q) (c : Corr Q) (sched : List Nat), Constructed d ∧ Reached .fabs d c ∧
    (∀ calls : List (SCall Q), calls.Perm [linear, .setMaxLag (.float (.fin (1/2))), squared] → ∃ p, runSession .fabs c calls = .ok p) ∧
    (World.init [c] [(.on linear, some 0), (.on (.setMaxLag (.float (.fin (1/2)))), some 0), (.on squared, some 0)]).run .fabs sched = .ub := by
  obtain ⟨d, c, hd, hr, h1, h2⟩ := corrAfter halves (by simp [halves]) (fun c =>
    (∀ calls ∈ [linear, .setMaxLag (.float (.fin (1/2))), squared].permutations', okThen (fun _ => true) (runSession .fabs c calls) = true) ∧
    (match (World.init [c] [(.on linear, some 0), (.on (.setMaxLag (.float (.fin (1/2)))), some 0), (.on squared, some 0)]).run .fabs
      (List.replicate 8 0 ++ [1] ++ List.replicate 60 2 ++ List.replicate 60 0) with | .ub => true | _ => false) = true) (by decide +kernel)
  refine ⟨d, c, List.replicate 8 0 ++ [1] ++ List.replicate 60 2 ++ List.replicate 60 0, hd, hr, fun calls hp => ?_, ?_⟩
  · obtain ⟨p, hp, _⟩ := okThen_ok (h1 calls (List.mem_permutations'.2 hp))
    exact ⟨p, hp⟩
  · split at h2
    · assumption
    · simp at h2

end Sacf
