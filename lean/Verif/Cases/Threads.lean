import Verif.Cases.Objects
import Verif.Props.Threads

/-! Cases for `Props/Threads.lean`. -/

namespace Sacf

variable {F : Type} [Arith F]

/-- what a call without `return_correlator` has returned -/
def pairOf : Option (Res (PyResult F)) → Option (List F × CorrOut F)
  | some (.ok (.pair lags out)) => some (lags, out)
  | _ => Option.none

/-- the exception a call has raised -/
def raisedOf : Option (Res (PyResult F)) → Option Exc
  | some (.exn e) => some e
  | _ => Option.none

/-- defined behaviour -/
def defined {α : Type} : Res α → Bool
  | .ub => false
  | _ => true

theorem defined_ne {α : Type} {r : Res α} (h : defined r = true) : r ≠ .ub := by
  rintro rfl
  simp [defined] at h

/-- three threads on one object: two weights, and a name that is not known -/
def three (d : DS Q) : List (Job Q) :=
  [{ ds := d, minLag := .float (.fin 0), maxLag := .float (.fin 2), lagRes := .float (.fin 1) },
   { ds := d, minLag := .float (.fin (1/2)), maxLag := .float (.fin (3/2)), lagRes := .float (.fin 1), wt := .str "fractional_squared" },
   { ds := d, wt := .str "squared" }]

/-- the threads, not started -/
def threeWorld (d : DS Q) : World Q := World.init [] ((three d).map fun j => (.ac j, Option.none))

theorem three_valid (d : DS Q) : ValidRefs ([] : List (Corr Q)) ((three d).map fun j => (.ac j, Option.none)) := by
  intro p hp x hx
  simp only [List.mem_map] at hp
  obtain ⟨j, _, rfl⟩ := hp
  simp at hx

/-- turn and turn about -/
def inTurn (n k : Nat) : List Nat := (List.replicate k (List.range n)).flatten

/-- C91_outcome: after fifty rounds all three have ended, each as if alone; after twelve only the first has -/
example : ∃ (d : DS Q) (w v : World Q), (threeWorld d).run .fabs (inTurn 3 50) = .ok w ∧ (threeWorld d).run .fabs (inTurn 3 12) = .ok v ∧
    (pairOf (v.outcome 0)).isSome ∧ (v.outcome 1).isNone ∧ (v.outcome 2).isNone ∧
    pairOf (w.outcome 0) = some (q [0, 1, 2], .flat (q [1, 1/28, -3/7])) ∧
    pairOf (w.outcome 1) = some (q [0, 1/2, 3/2], .flat (q [1, 6/35, -2/35])) ∧
    raisedOf (w.outcome 2) = some (.keyError "squared") ∧
    ∀ t r j, (three d)[t]? = some j → w.outcome t = some r → r = j.alone .fabs := by
  obtain ⟨d, c, hd, hc, h1, h2⟩ := corr136 (fun d _ => okThen (fun v => decide ((pairOf (v.outcome 0)).isSome ∧ (v.outcome 1).isNone ∧ (v.outcome 2).isNone))
      ((threeWorld d).run .fabs (inTurn 3 12)) = true ∧
    okThen (fun w => decide (pairOf (w.outcome 0) = some (q [0, 1, 2], .flat (q [1, 1/28, -3/7])) ∧
      pairOf (w.outcome 1) = some (q [0, 1/2, 3/2], .flat (q [1, 6/35, -2/35])) ∧ raisedOf (w.outcome 2) = some (.keyError "squared")))
      ((threeWorld d).run .fabs (inTurn 3 50)) = true) (by decide +kernel)
  obtain ⟨v, hv, h1⟩ := okThen_ok h1
  obtain ⟨w, hw, h2⟩ := okThen_ok h2
  simp only [decide_eq_true_eq] at h1 h2
  exact ⟨d, w, v, hw, hv, h1.1, h1.2.1, h1.2.2, h2.1, h2.2.1, h2.2.2, fun t r j hj hr =>
    C91_outcome .fabs [] _ (three_valid d) _ w hw t j (by simp [hj]) r hr⟩

/-- C91_undefined, C91_ends: every schedule of the three; the second has ended whenever it has been run often enough -/
example : ∃ d : DS Q, (∀ sched, ∃ w, (threeWorld d).run .fabs sched = .ok w) ∧
    ∃ n, ∀ sched w, (threeWorld d).run .fabs sched = .ok w → n ≤ sched.count 1 →
      pairOf (w.outcome 1) = some (q [0, 1/2, 3/2], .flat (q [1, 6/35, -2/35])) := by
  obtain ⟨d, c, hd, hc, h1, h2⟩ := corr136 (fun d _ => (∀ j ∈ three d, defined (j.alone .fabs) = true) ∧
    ((three d)[1]?.map fun j => pairOf (some (j.alone .fabs))) = some (some (q [0, 1/2, 3/2], .flat (q [1, 6/35, -2/35])))) (by decide +kernel)
  refine ⟨d, fun sched => C91_undefined .fabs (three d) (fun j hj => defined_ne (h1 j hj)) sched, ?_⟩
  cases hj : (three d)[1]? with
  | none => rw [hj] at h2; simp at h2
  | some j =>
    rw [hj] at h2
    simp only [Option.map_some, Option.some.injEq] at h2
    obtain ⟨n, hn⟩ := C91_ends .fabs j
    exact ⟨n, fun sched w hw hc => by rw [hn [] _ (three_valid d) sched w hw 1 (by simp [hj]) hc, h2]⟩

/-- two correlators, a loop on each -/
def twoWorld (c : Corr Q) : World Q := World.init [c, c]
  [(.on (.find (.str "natural") (.str "fractional")), some 0), (.on (.find (.str "fast") (.str "fractional_squared")), some 1),
    (.on (.setAlpha (.float (.fin 7))), some 1)]

/-- C91_own_correlator: the first loop, whatever the other threads do to the second correlator -/
example : ∃ (c : Corr Q) (w : World Q) (r : Out (Corr Q) Unit), (twoWorld c).run .fabs (inTurn 3 70) = .ok w ∧ w.result 0 = some r ∧
    r = findOn .fabs (.str "natural") (.str "fractional") c ∧ (w.result 1).isSome := by
  obtain ⟨d, c, hd, hc, h⟩ := corr136 (fun d c => okThen (fun w => decide ((w.result 0).isSome ∧ (w.result 1).isSome))
    ((twoWorld c).run .fabs (inTurn 3 70)) = true) (by decide +kernel)
  obtain ⟨w, hw, h⟩ := okThen_ok h
  simp only [decide_eq_true_eq] at h
  obtain ⟨r, hr⟩ := Option.isSome_iff_exists.1 h.1
  refine ⟨c, w, r, hw, hr, C91_own_correlator .fabs [c, c] _ ?_ _ w hw 0 0 _ c rfl rfl ?_ r hr, h.2⟩
  · intro p hp x hx
    simp only [List.mem_cons, List.not_mem_nil, or_false] at hp
    rcases hp with rfl | rfl | rfl <;> simp at hx <;> subst hx <;> simp
  · intro u task hu hx
    match u, hu with
    | 1, _ => simp at hx
    | 2, _ => simp at hx
    | n + 3, _ => simp at hx

end Sacf
