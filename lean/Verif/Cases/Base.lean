import Verif.Props.Stability

/-!
# Objects and results used in the cases

The modules under `Cases` apply the theorems of the module of the same name under `Props` to concrete inputs, discharging every hypothesis.
-/

namespace Sacf

variable {F : Type} [Arith F]

/-- an object from lists of the same length -/
theorem object (t v : List F) (ht : t ≠ []) (h : v.length = t.length) : ∃ d, mkFlat t v = .ok d ∧ d.timeseries = t ∧ d.HasRow 0 v := by
  obtain ⟨d, hd, h1, h2, _⟩ := C03_round_trip t [v] ht (by simp) (by simpa [Rect] using h)
  exact ⟨d, (C03_flat_is_one_row t v []).1.trans hd, h1, _, h2, rfl⟩

/-- an object from a table -/
theorem tableObject (t : List F) (rows : List (List F)) (ht : t ≠ []) (hr : rows ≠ []) (h : ∀ r ∈ rows, r.length = t.length) :
    ∃ d, mkTable t rows = .ok d ∧ d.timeseries = t ∧ ∀ j row, rows[j]? = some row → d.HasRow j row := by
  obtain ⟨d, hd, h1, h2, _⟩ := C03_round_trip t rows ht hr h
  exact ⟨d, hd, h1, fun j row hj => ⟨_, h2, hj⟩⟩

theorem wT_gap : IsMinGap 3 wT 1 := by
  refine ⟨⟨0, 1, by norm_num, by norm_num, by decide +kernel⟩, fun i j hij hj => ?_⟩
  interval_cases j <;> interval_cases i <;> decide +kernel

/-- the test `P` of the result of a computation that must return -/
def okThen {α : Type} (P : α → Bool) : Res α → Bool
  | .ok x => P x
  | _ => false

theorem okThen_ok {α : Type} {P : α → Bool} {z : Res α} (h : okThen P z = true) : ∃ x, z = .ok x ∧ P x = true := by
  cases z with
  | ok x => exact ⟨x, rfl, h⟩
  | exn e => simp [okThen] at h
  | ub => simp [okThen] at h
  | diverge => simp [okThen] at h

/-- object and result of a call on a table -/
def callOf (a : AbsFn) (t : List F) (rows : List (List F)) (g : LagArgs F) (sel wt : String) : Res (DS F × AcResult F) :=
  (mkTable t rows).bind fun d => (autocorrelation a d g sel wt).bind fun r => .ok (d, r)

theorem callOf_ok (a : AbsFn) (t : List F) (rows : List (List F)) (g : LagArgs F) (sel wt : String) (P : DS F → AcResult F → Prop) [∀ d r, Decidable (P d r)]
    (h : okThen (fun z => decide (P z.1 z.2)) (callOf a t rows g sel wt) = true) :
    ∃ d r, mkTable t rows = .ok d ∧ autocorrelation a d g sel wt = .ok r ∧ P d r := by
  obtain ⟨⟨d, r⟩, hz, hP⟩ := okThen_ok h
  obtain ⟨d', h1, h2⟩ := Res.bind_eq_ok.1 hz
  obtain ⟨r', h3, h4⟩ := Res.bind_eq_ok.1 h2
  simp only [Res.ok.injEq, Prod.mk.injEq] at h4
  obtain ⟨rfl, rfl⟩ := h4
  exact ⟨d', r', h1, h3, of_decide_eq_true hP⟩

/-- object and `Correlator` of a table -/
def newOf (t : List F) (rows : List (List F)) : Res (DS F × Corr F) := (mkTable t rows).bind fun d => (Corr.new d).bind fun c => .ok (d, c)

theorem newOf_ok (t : List F) (rows : List (List F)) (P : DS F → Corr F → Prop) [∀ d c, Decidable (P d c)]
    (h : okThen (fun z => decide (P z.1 z.2)) (newOf t rows) = true) :
    ∃ d c, mkTable t rows = .ok d ∧ Corr.new d = .ok c ∧ P d c := by
  obtain ⟨⟨d, c⟩, hz, hP⟩ := okThen_ok h
  obtain ⟨d', h1, h2⟩ := Res.bind_eq_ok.1 hz
  obtain ⟨c', h3, h4⟩ := Res.bind_eq_ok.1 h2
  simp only [Res.ok.injEq, Prod.mk.injEq] at h4
  obtain ⟨rfl, rfl⟩ := h4
  exact ⟨d', c', h1, h3, of_decide_eq_true hP⟩

theorem known_gaussian : KnownWeight "gaussian" := .inl rfl
theorem known_fractional : KnownWeight "fractional" := .inr (.inl rfl)
theorem known_squared : KnownWeight "fractional_squared" := .inr (.inr rfl)

end Sacf
