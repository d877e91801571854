import Verif.Props.Acf
import Verif.Props.Invariance
import Verif.Lemmas.Grid

/-!
# What a result depends on (C50, C51, C52, C55)
-/

set_option linter.unusedSectionVars false

namespace Sacf

open Arith

section lawfree
variable {F : Type} [Arith F]

/-! ## C50 -/

/-- **C50** (any arithmetic): two calls on the same data that report the same lag, with the same `alpha` argument and
functions, report the same correlation for it, whatever the range and resolution. -/
theorem C50_lag_only (a : AbsFn) (d : DS F) (hd : Constructed d) (g g' : LagArgs F) (hα : g.alpha = g'.alpha)
    (sel wt : String) (r r' : AcResult F) (hr : autocorrelation a d g sel wt = .ok r)
    (hr' : autocorrelation a d g' sel wt = .ok r') (j n n' : ℕ) (k v v' : F) (h : r.At j n k v)
    (h' : r'.At j n' k v') : v = v' := by
  have key : ∀ (g : LagArgs F) (r : AcResult F), autocorrelation a d g sel wt = .ok r → ∀ (n : ℕ) (v : F),
      r.At j n k v → ∃ ps, lagPlan a sel wt d.normT (g.alpha.getD d.tMedian) k = .ok ps ∧
        v = corrValue (d.nrow j) (normOfRow (d.drow j) (d.dataMean.getD j zero)) ps := by
    intro g r hr n v ⟨hn, row, hrow, hv⟩
    obtain ⟨_, L, hL, hlags, hc, _⟩ := autocorrelation_ok hd.wf hr
    rw [hlags, List.getElem?_map, Option.map_eq_some_iff] at hn
    obtain ⟨p, hp, rfl⟩ := hn
    rw [corrOut_rows hc, List.getElem?_map, Option.map_eq_some_iff] at hrow
    obtain ⟨j', hj', rfl⟩ := hrow
    have hj : j' = j := by
      have := List.getElem?_eq_some_iff.1 hj'
      obtain ⟨_, h⟩ := this
      simpa using h.symm
    subst hj
    unfold DS.acRow at hv
    rw [List.getElem?_map, hp, Option.map_some, Option.some.injEq] at hv
    exact ⟨p.2, acPlan_ok hL p (List.mem_iff_getElem?.2 ⟨n, hp⟩), hv.symm⟩
  obtain ⟨ps, h1, h2⟩ := key g r hr n v h
  obtain ⟨ps', h1', h2'⟩ := key g' r' hr' n' v' h'
  rw [hα, h1'] at h1
  simp only [Res.ok.injEq] at h1
  rw [h2, h2', h1]

/-- lag 1 in a default call and in a call over `[-1, 2]` with step 2: the same value -/
example : ((mkFlat (q [0, 1, 3]) (q [1, 2, 6])).bind fun d => (autocorrelation .fabs d).bind fun r =>
    (autocorrelation .fabs d { minLag := some (.fin (-1)), maxLag := some (.fin 2), lagRes := some (.fin 2) }).bind
      fun r' => .ok (r.lags[4]?, r.corrs.rows.map (·[4]?), r'.lags, r'.corrs.rows))
    = .ok (some (.fin 1), [some (.fin (1/28))], q [-1, 0, 1], [q [17/28, 1, 1/28]]) := by decide +kernel

/-! ## C51 -/

theorem setUp_err (t v e : List F) (N M : ℕ) :
    setUp t v e N M = (setUp t v [] N M).bind fun d => .ok { d with err := e } := by
  unfold setUp
  split
  · rfl
  · split
    · rfl
    · simp only [Res.bind_assoc, Res.ok_bind]

theorem setUp_err_acOut (a : AbsFn) (t v e : List F) (N : ℕ) (g : LagArgs F) (sel wt : String)
    (h1 : ∀ d, setUp t v e N t.length = .ok d → Constructed d)
    (h2 : ∀ d, setUp t v [] N t.length = .ok d → Constructed d) :
    (setUp t v e N t.length).bind (fun d => acOut a d g sel wt)
      = (setUp t v [] N t.length).bind (fun d => acOut a d g sel wt) := by
  have he := setUp_err t v e N t.length
  cases h : setUp t v [] N t.length with
  | ok d =>
    rw [h, Res.ok_bind] at he
    rw [he, Res.ok_bind, Res.ok_bind]
    exact acOut_congr a (h1 _ he) (h2 _ h) rfl rfl g sel wt
  | exn x => rw [h] at he; rw [he]; rfl
  | ub => rw [h] at he; rw [he]; rfl
  | diverge => rw [h] at he; rw [he]; rfl

/-- **C51** (any arithmetic): the errors have no influence on the result; flat lists. -/
theorem C51_errors_unused (a : AbsFn) (t v e : List F) (g : LagArgs F) (sel wt : String) :
    (mkFlatErr t v e).bind (fun d => acOut a d g sel wt) = (mkFlat t v).bind (fun d => acOut a d g sel wt) :=
  setUp_err_acOut a t v e 1 g sel wt (fun _ => .flatErr) (fun _ => .flat)

/-- **C51** (any arithmetic): the errors have no influence on the result; tables. -/
theorem C51_errors_unused_table (a : AbsFn) (t : List F) (rows errs : List (List F)) (g : LagArgs F)
    (sel wt : String) :
    (mkTableErr t rows errs).bind (fun d => acOut a d g sel wt)
      = (mkTable t rows).bind (fun d => acOut a d g sel wt) :=
  setUp_err_acOut a t rows.flatten errs.flatten rows.length g sel wt (fun _ => .tableErr) (fun _ => .table)

example : ((mkFlatErr (q [0, 1, 3]) (q [1, 2, 6]) (q [5, 0, 1/2])).bind fun d => acOut .fabs d {} "natural" "fractional")
    = .ok (q [-3, -2, -1, 0, 1, 2, 3], .flat (q [-13/42, -1/21, 17/28, 1, 1/28, -3/7, -3/7])) := by decide +kernel

end lawfree

section exact
variable {K : Type} [Field K] [LinearOrder K] [IsStrictOrderedRing K] [FloorRing K]
variable {dm : K} {f32 ex : K → K}
variable {d : DS (Exact dm f32 ex)} {g : LagArgs (Exact dm f32 ex)} {wt : String} {r : AcResult (Exact dm f32 ex)}
  {M j : ℕ} {t x : ℕ → K} {α : K}

/-! ## C52 -/

theorem NaturalRun.pos (h : NaturalRun d g wt r M t j x α) : 0 < M := (built_times h.built h.times).1

/-- **C52**: at a lag longer than the observed span no pair of samples remains and the correlation is zero. -/
theorem C52_beyond (h : NaturalRun d g wt r M t j x α) (hf : ∀ i < M, f32 (x i) = x i) (hv : sumSq M x ≠ 0)
    (n : ℕ) (k : K) (hn : r.lags[n]? = some (.fin k)) (hk : t (M - 1) - t 0 < k) :
    r.At j n (.fin k) (.fin 0) := by
  obtain ⟨s, hs⟩ := selects_exists M t k
  have := C47_formula h hf hv n k hn s hs
  unfold sacf at this
  rw [Finset.sum_filter, Finset.sum_eq_zero, zero_div] at this
  · exact this
  · intro i hi
    have hi := Finset.mem_range.1 hi
    have := h.inc.le (Nat.zero_le i) hi
    rw [if_neg (by linarith)]

/-- **C52**: at the lag equal to the observed span exactly one pair remains, the first and the last sample. -/
theorem C52_span (h : NaturalRun d g wt r M t j x α) (hf : ∀ i < M, f32 (x i) = x i) (hv : sumSq M x ≠ 0)
    (he : wt = "gaussian" → ex 0 = 1) (n : ℕ) (hn : r.lags[n]? = some (.fin (t (M - 1) - t 0))) :
    r.At j n (.fin (t (M - 1) - t 0)) (.fin (dev M x 0 * dev M x (M - 1) / sumSq M x)) := by
  have hM := h.pos
  have only : ∀ i < M, t i + (t (M - 1) - t 0) ≤ t (M - 1) → i = 0 := by
    intro i hi hle
    by_contra hne
    have := h.inc 0 i (by omega) hi
    linarith
  have hs : Selects M t (t (M - 1) - t 0) (fun _ => M - 1) := by
    intro i hi hle
    obtain rfl := only i hi hle
    have := selects_zero h.inc (M - 1) (by omega) (by simp)
    rw [add_zero] at this
    rwa [show t 0 + (t (M - 1) - t 0) = t (M - 1) by ring]
  have := C47_formula h hf hv n _ hn _ hs
  unfold sacf at this
  rw [Finset.sum_filter, Finset.sum_eq_single 0] at this
  · rw [if_pos (by linarith), show t 0 + (t (M - 1) - t 0) = t (M - 1) by ring, sub_self, abs_zero,
      weight_zero h.wt_known he, one_mul] at this
    exact this
  · intro i hi hne
    rw [if_neg fun hle => hne (only i (Finset.mem_range.1 hi) hle)]
  · intro h0; exact absurd (Finset.mem_range.2 hM) h0

/-- **C52 is not symmetric**: at every lag of at most minus the span all samples are matched with the first one. -/
theorem C52_before (h : NaturalRun d g wt r M t j x α) (hf : ∀ i < M, f32 (x i) = x i) (hv : sumSq M x ≠ 0)
    (n : ℕ) (k : K) (hn : r.lags[n]? = some (.fin k)) (hk : k ≤ -(t (M - 1) - t 0)) :
    r.At j n (.fin k)
      (.fin (dev M x 0 * (∑ i ∈ Finset.range M, weight ex wt α (t 0 - t i - k) * dev M x i) / sumSq M x)) := by
  have hM := h.pos
  have hle : ∀ i < M, t i + k ≤ t 0 := by
    intro i hi
    have := h.inc.le (show i ≤ M - 1 by omega) (by omega)
    linarith
  have h0 : ∀ i < M, t 0 ≤ t i := fun i hi => h.inc.le (Nat.zero_le i) hi
  have hs : Selects M t k (fun _ => 0) := by
    intro i hi _
    refine ⟨hM, fun l hl => ?_⟩
    have h1 := hle i hi
    have h2 := h0 l hl
    rw [abs_of_nonneg (by linarith), abs_of_nonneg (by linarith)]
    rcases Nat.eq_zero_or_pos l with rfl | hl0
    · right; exact ⟨rfl, le_refl _⟩
    · left
      have := h.inc 0 l hl0 hl
      linarith
  have := C47_formula h hf hv n k hn _ hs
  unfold sacf at this
  rw [Finset.sum_filter_of_ne] at this
  · convert this using 3
    rw [Finset.mul_sum]
    apply Finset.sum_congr rfl
    intro i hi
    have := hle i (Finset.mem_range.1 hi)
    rw [abs_of_nonneg (by linarith), show t 0 - (t i + k) = t 0 - t i - k by ring]
    ring
  · intro i hi _
    have := hle i (Finset.mem_range.1 hi)
    have := h0 (M - 1) (by omega)
    linarith

/-- span 3, so lag 4 is beyond: zero; at lag 3 the product of the extremes -/
example : ((mkFlat (q [0, 1, 3]) (q [1, 2, 6])).bind fun d =>
    acOut .fabs d ⟨some (.fin (-4)), some (.fin 4), some (.fin 4), none⟩ "natural" "fractional")
      = .ok (q [-4, 0, 4], .flat (q [-17/140, 1, 0])) := by decide +kernel
example : ((mkFlat (q [0, 1, 3]) (q [1, 2, 6])).bind fun d =>
    acOut .fabs d ⟨some (.fin 3), some (.fin 3), none, none⟩ "natural" "fractional")
      = .ok (q [0, 3], .flat (q [1, -3/7])) := by decide +kernel

end exact

end Sacf
