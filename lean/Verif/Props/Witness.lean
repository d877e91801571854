import Verif.Props.Fast
import Mathlib.Tactic.IntervalCases

/-!
# Concrete runs meeting the hypotheses

The theorems about results are stated for any `NaturalRun` / `FastRun`.  Here are two runs that are such, and what some
of the theorems say of them.
-/

namespace Sacf

/-- times 0, 1, 3 -/
def wT (i : ℕ) : ℚ := [0, 1, 3].getD i 0
/-- values 1, 2, 6 -/
def wX (i : ℕ) : ℚ := [1, 2, 6].getD i 0
/-- times 0, 1, 2, 3 -/
def wT' (i : ℕ) : ℚ := 0 + i * 1
/-- values 1, 2, 6, 3 -/
def wX' (i : ℕ) : ℚ := [1, 2, 6, 3].getD i 0

theorem wT_inc : Increasing 3 wT := by
  intro i j hij hj
  interval_cases j <;> interval_cases i <;> decide

theorem wT'_inc : Increasing 4 wT' := by
  intro i j hij hj
  unfold wT'
  have : (i : ℚ) < j := by exact_mod_cast hij
  linarith

/-- evaluates a call, exposing the object and the result -/
def runOf (t v : List Q) (sel wt : String) : Res (DS Q × AcResult Q) :=
  (mkFlat t v).bind fun d => (autocorrelation .fabs d {} sel wt).bind fun r => .ok (d, r)

theorem runOf_ok {t v : List Q} {sel wt : String} {P : DS Q → AcResult Q → Prop} [∀ d r, Decidable (P d r)]
    (h : (match runOf t v sel wt with | .ok (d, r) => decide (P d r) | _ => false) = true) :
    ∃ d r, mkFlat t v = .ok d ∧ autocorrelation .fabs d {} sel wt = .ok r ∧ P d r := by
  unfold runOf at h
  cases hd : mkFlat t v with
  | ok d =>
    rw [hd] at h
    simp only [Res.ok_bind] at h
    cases hr : autocorrelation .fabs d {} sel wt with
    | ok r =>
      rw [hr] at h
      exact ⟨d, r, rfl, hr, by simpa using h⟩
    | exn e => rw [hr] at h; simp at h
    | ub => rw [hr] at h; simp at h
    | diverge => rw [hr] at h; simp at h
  | exn e => rw [hd] at h; simp at h
  | ub => rw [hd] at h; simp at h
  | diverge => rw [hd] at h; simp at h

/-- a run with natural selection -/
theorem naturalRun_witness : ∃ d r, NaturalRun (dm := 10 ^ 100) (f32 := id) (ex := fun x => 1 / (1 - x)) d {}
    "fractional" r 3 wT 0 wX 1 ∧ r.lags = q [-3, -2, -1, 0, 1, 2, 3] ∧
    r.corrs = .flat (q [-13/42, -1/21, 17/28, 1, 1/28, -3/7, -3/7]) := by
  obtain ⟨d, r, h1, h2, h3, h4, h5, h6, h7⟩ := runOf_ok (t := samples 3 wT) (v := samples 3 wX) (sel := "natural")
    (wt := "fractional") (P := fun d r => d.timeseries = samples 3 wT ∧ d.data2d = .ok [samples 3 wX] ∧
      r.corr.alpha = .fin 1 ∧ r.lags = q [-3, -2, -1, 0, 1, 2, 3] ∧
      r.corrs = .flat (q [-13/42, -1/21, 17/28, 1, 1/28, -3/7, -3/7])) (by decide +kernel)
  exact ⟨d, r, ⟨.flat h1, h3, wT_inc, ⟨_, h4, rfl⟩, h2, by unfold KnownWeight; simp, h5, one_pos⟩, h6, h7⟩

/-- a run with fast selection, on a regular grid -/
theorem fastRun_witness : ∃ d r, FastRun (dm := 10 ^ 100) (f32 := id) (ex := fun x => 1 / (1 - x)) d {}
    "fractional" r 4 wT' 0 wX' (3/2) ∧ r.lags = q [-3, -2, -1, 0, 1, 2, 3] ∧
    r.corrs = .flat (q [1/3, 3/7, 3/5, 1, 10/49, 6/49, 0]) := by
  obtain ⟨d, r, h1, h2, h3, h4, h5, h6, h7⟩ := runOf_ok (t := samples 4 wT') (v := samples 4 wX') (sel := "fast")
    (wt := "fractional") (P := fun d r => d.timeseries = samples 4 wT' ∧ d.data2d = .ok [samples 4 wX'] ∧
      r.corr.alpha = .fin (3/2) ∧ r.lags = q [-3, -2, -1, 0, 1, 2, 3] ∧
      r.corrs = .flat (q [1/3, 3/7, 3/5, 1, 10/49, 6/49, 0])) (by decide +kernel)
  exact ⟨d, r, ⟨.flat h1, h3, wT'_inc, ⟨_, h4, rfl⟩, h2, by unfold KnownWeight; simp, h5, by norm_num⟩, h6, h7⟩

theorem wX'_sumSq : sumSq 4 wX' ≠ 0 := by decide +kernel

/-- `C36_negative_lag_partial` and `C36_zero_lag_partial` at the lags -2 and 0 of the witness -/
example : ∃ r : AcResult Q, r.At 0 1 (.fin (-2)) (.fin (3/7)) ∧ r.At 0 3 (.fin 0) (.fin 1) := by
  obtain ⟨d, r, h, hl, _⟩ := fastRun_witness
  have h1 := C36_negative_lag_partial h (fun _ _ => rfl) wX'_sumSq 1 (-2) (by rw [hl]; rfl) (by norm_num) (by norm_num)
  have h2 := C36_zero_lag_partial h (fun _ _ => rfl) wX'_sumSq (by decide) 3 (by rw [hl]; rfl) (by norm_num)
  have e1 : weight (fun x : ℚ => 1 / (1 - x)) "fractional" (3/2) |(-2 : ℚ)| = 3/7 := by decide +kernel
  have e2 : 1 - dev 4 wX' (4 - 1) ^ 2 / sumSq 4 wX' = 1 := by decide +kernel
  rw [e1] at h1
  rw [e2] at h2
  exact ⟨r, h1, h2⟩

/-- `C36_regular_partial` at lag 1 -/
example : ∃ r : AcResult Q, r.At 0 4 (.fin 1) (.fin (10/49)) := by
  obtain ⟨d, r, h, hl, _⟩ := fastRun_witness
  have h1 := C36_regular_partial 0 1 one_pos h (fun _ _ => rfl) wX'_sumSq (by decide) 4 1 (by rw [hl]; decide +kernel) (by norm_num)
  have e1 : (∑ i ∈ Finset.range (4 - 1 - 1), if 1 + i < 4 - 1 - 1 then dev 4 wX' i * dev 4 wX' (1 + i)
      else weight (fun x : ℚ => 1 / (1 - x)) "fractional" (3/2) ((1 + i : ℕ) * 1) * dev 4 wX' i * dev 4 wX' 0) / sumSq 4 wX'
      = 10/49 := by decide +kernel
  rw [e1] at h1
  exact ⟨r, by simpa using h1⟩

end Sacf
