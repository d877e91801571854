import Verif.Props.ValueUnit
import Verif.Cases.Base

/-! Cases for `Props/ValueUnit.lean`. -/

set_option linter.unusedSectionVars false

namespace Sacf

/-- a computable test for safe weights -/
def safeB : B → Bool
  | .nan => true
  | .fin v => decide (0 ≤ v ∧ v ≤ 1 ∧ ((v * pow2 560).num : ℚ) * pow2 (-560) = v)
  | _ => false

theorem safeB_ok {w : B} (h : safeB w = true) : SafeWeight w := by
  cases w with
  | nan => exact .inl rfl
  | fin v =>
    have := of_decide_eq_true h
    exact .inr ⟨v, rfl, this.1, this.2.1, _, this.2.2.symm⟩
  | ninf => simp [safeB] at h
  | pinf => simp [safeB] at h

/-- the values 0.1, missing, 0.7, 3 and 4, 5, 6, 0 -/
def vuRows : List (List B) := [[.fin (b64 (1/10)), .nan, .fin (b64 (7/10)), .fin 3], [.fin 4, .fin 5, .fin 6, .fin 0]]

theorem vuRows_range : ∀ row ∈ vuRows, row.length ≤ 2 ^ 53 ∧ ∀ x ∈ row, x = .nan ∨ ∃ v, x = .fin v ∧ b64 v = v ∧
    (v = 0 ∨ pow2 (-97) ≤ |v| ∧ |v| ≤ pow2 127 ∧ pow2 (-97) ≤ |v * pow2 (-40)| ∧ |v * pow2 (-40)| ≤ pow2 127) := by
  intro row hrow
  simp only [vuRows, List.mem_cons, List.not_mem_nil, or_false] at hrow
  rcases hrow with rfl | rfl
  · refine ⟨by decide, fun x hx => ?_⟩
    simp only [List.mem_cons, List.not_mem_nil, or_false] at hx
    rcases hx with rfl | rfl | rfl | rfl
    · exact .inr ⟨_, rfl, by decide +kernel, .inr (by decide +kernel)⟩
    · exact .inl rfl
    · exact .inr ⟨_, rfl, by decide +kernel, .inr (by decide +kernel)⟩
    · exact .inr ⟨_, rfl, by decide +kernel, .inr (by decide +kernel)⟩
  · refine ⟨by decide, fun x hx => ?_⟩
    simp only [List.mem_cons, List.not_mem_nil, or_false] at hx
    rcases hx with rfl | rfl | rfl | rfl
    · exact .inr ⟨_, rfl, by decide +kernel, .inr (by decide +kernel)⟩
    · exact .inr ⟨_, rfl, by decide +kernel, .inr (by decide +kernel)⟩
    · exact .inr ⟨_, rfl, by decide +kernel, .inr (by decide +kernel)⟩
    · exact .inr ⟨0, rfl, by decide +kernel, .inl rfl⟩

/-- finite, and at most `c` in size -/
def finB (c : ℚ) : B → Bool
  | .fin v => decide (|v| ≤ c)
  | _ => false

theorem finB_ok {c : ℚ} {x : B} (h : finB c x = true) : ∃ v, x = .fin v ∧ |v| ≤ c := by
  cases x with
  | fin v => exact ⟨v, rfl, of_decide_eq_true h⟩
  | nan => simp [finB] at h
  | ninf => simp [finB] at h
  | pinf => simp [finB] at h

def partOf : B → ℚ
  | .fin v => v
  | _ => 0

/-- C100_fractional: two rows, one value missing, the unit multiplied by 2^40 (values divided), default lags, fast selection -/
example : ∃ d d' : DS B, d.data2d = .ok vuRows ∧ d'.data2d = .ok (vuRows.map fun row => row.map (inUnit (-40))) ∧
    acOut .fabs d' {} "fast" "fractional_squared" = acOut .fabs d {} "fast" "fractional_squared" := by
  obtain ⟨d, r, hd, hr, h1, h2, h3, h4, h5⟩ := callOf_ok .fabs (b [0, 1/2, 3/2, 2]) vuRows {} "fast" "fractional_squared"
    (fun d r => d.data2d = .ok vuRows ∧ d.timeseries = b [0, 1/2, 3/2, 2] ∧ d.normT.all (finB (pow2 1)) = true ∧ r.lags.all (finB (pow2 1)) = true ∧
      r.corr.alpha = .fin (partOf r.corr.alpha) ∧ pow2 (1 - 190) ≤ partOf r.corr.alpha) (by decide +kernel)
  obtain ⟨d', hd', h1', h2', _⟩ := C03_round_trip (b [0, 1/2, 3/2, 2]) (vuRows.map fun row => row.map (inUnit (-40))) (by decide) (by decide)
    (by simp [Rect, vuRows, b])
  exact ⟨d, d', h1, h2', C100_fractional (.table hd) (.table hd') (h2.trans h1'.symm) (-40) vuRows h1 h2' vuRows_range _ _ _ (.inr rfl) 1 (by norm_num)
    (by norm_num) (fun t ht => finB_ok (List.all_eq_true.1 h3 t ht))
    (fun r' hr' => by
      obtain rfl := Res.ok.inj (hr.symm.trans hr')
      exact ⟨fun k hk => finB_ok (List.all_eq_true.1 h4 k hk), _, h5⟩)⟩

/-- all weights that can occur in a call are safe -/
def allSafe (a : AbsFn) (wt : String) (d : DS B) (r : AcResult B) : Bool :=
  r.lags.all fun k => d.normT.all fun t => d.normT.all fun u =>
    match a.app (Arith.sub t (Arith.add u k)) with
    | .ok δ => safeB (fweight wt r.corr.alpha δ)
    | _ => true

/-- C100_unit: Gaussian weights, `abs` of `int` -/
example : ∃ d d' : DS B, d.data2d = .ok vuRows ∧ d'.data2d = .ok (vuRows.map fun row => row.map (inUnit (-40))) ∧
    acOut .intAbs d' {} "natural" "gaussian" = acOut .intAbs d {} "natural" "gaussian" := by
  obtain ⟨d, r, hd, hr, h1, h2, h3⟩ := callOf_ok .intAbs (b [1/10, 1/2, 17/10, 2]) vuRows {} "natural" "gaussian"
    (fun d r => d.data2d = .ok vuRows ∧ d.timeseries = b [1/10, 1/2, 17/10, 2] ∧ allSafe .intAbs "gaussian" d r = true) (by decide +kernel)
  obtain ⟨d', hd', h1', h2', _⟩ := C03_round_trip (b [1/10, 1/2, 17/10, 2]) (vuRows.map fun row => row.map (inUnit (-40))) (by decide) (by decide)
    (by simp [Rect, vuRows, b])
  refine ⟨d, d', h1, h2', C100_unit .intAbs (.table hd) (.table hd') (h2.trans h1'.symm) (-40) vuRows h1 h2' ?_ {} _ _ ?_⟩
  · intro row hrow
    obtain ⟨hl, hx⟩ := vuRows_range row hrow
    exact ⟨hl, fun x hxm => inFloatRange_of_double (hx x hxm)⟩
  · intro r' hr' k hk t ht u hu δ hδ
    obtain rfl := Res.ok.inj (hr.symm.trans hr')
    have := List.all_eq_true.1 (List.all_eq_true.1 (List.all_eq_true.1 h3 k hk) t ht) u hu
    rw [hδ] at this
    exact safeB_ok this

end Sacf
