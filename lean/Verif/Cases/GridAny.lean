import Verif.Props.GridAny
import Verif.Cases.Levels
import Verif.Cases.Smooth
import Verif.Props.MissingRounded

/-!
# Concrete cases for regular grids with the Gaussian weight
-/

namespace Sacf

open Finset

/-- `M` samples at times 5, 8, 11, …, Gaussian weight with `alpha = 7`, for any library exponential -/
theorem regular_gauss {ex : ℚ → ℚ} {fu : Bool} (hex : ∀ x : ℚ, x ≤ 0 → |(ex x : ℝ) - Real.exp x| ≤ (pow2 (-53) : ℚ)) (M : ℕ) (hM : 2 ≤ M) (hM' : M ≤ 1000) (y : ℕ → ℚ) :
    ∃ (d : DS (D64 ex fu)) (r : AcResult (D64 ex fu)), Regular64 d M 5 3 0 ∧ d.HasRow 0 (samples M y) ∧ Run64 d { alpha := some (.fin 7) } "gaussian" r 7 0 ∧
      ∀ m < M, r.lags[M - 1 + m]? = some (.fin ((m * 3 : ℤ) * pow2 0)) := by
  obtain ⟨d, hd, ht, hrow, _⟩ := C03_round_trip (F := D64 ex fu) (samples M fun i => ((5 + i * 3 : ℤ) : ℚ) * pow2 0) [samples M y]
    (by intro h0; have := congrArg List.length h0; simp [samples] at this; omega) (by simp) (by simp [Rect, samples])
  have hc : Constructed d := .table hd
  have hMz : (M : ℤ) ≤ 1000 := by exact_mod_cast hM'
  obtain ⟨r, hr, hl⟩ := C60_regular_lags (exactUnit64 (ex := ex) (fu := fu) 0 (by norm_num) (by norm_num)) d hc M 5 3 (by norm_num) ht hM
    (by norm_num; omega) (by omega) (fun n hn => round_int64 n (by norm_num at hn ⊢; omega)) (some (.fin 7)) "gaussian" (by unfold KnownWeight; simp)
  refine ⟨d, r, ⟨hc, ht, by norm_num, by norm_num, by norm_num, hM, by omega, by norm_num; omega⟩, ⟨_, hrow, rfl⟩,
    .inr ⟨rfl, hr, (result_params hc.wf hr).2.2.2, by decide +kernel, by decide +kernel, by decide +kernel, by norm_num, hex⟩, fun m hm => ?_⟩
  rw [hl, List.getElem?_map, List.getElem?_range (by omega)]
  simp only [Option.map_some, Option.some.injEq, XF.fin.injEq]
  congr 2
  have : (((M - 1 + m : ℕ) : ℤ) - (M - 1)) = m := by omega
  rw [this]

theorem values4 {ex : ℚ → ℚ} {fu : Bool} {d : DS (D64 ex fu)} {y : ℕ → ℚ} (hrow : d.HasRow 0 (samples 4 y))
    (h : (∀ i < 4, |y i| ≤ 11 ∧ roundTo 24 (-149) (y i) = y i) ∧ 122 * pow2 (-51) * ((4 : ℕ) * 11 ^ 2) ≤ sumSq 4 y) : Values64 d 4 0 y 11 (pow2 (-51)) :=
  ⟨hrow, fun i hi => (h.1 i hi).1, by decide +kernel, by decide +kernel, by decide +kernel, by decide +kernel, .inr fun i hi => (h.1 i hi).2, h.2⟩

theorem three_ticks (m : ℕ) : (((m : ℕ) * 3 : ℤ) : ℚ) * pow2 0 = ((m * 3 : ℕ) : ℚ) := by
  rw [pow2_zero, mul_one]; push_cast; rfl

/-- C30_binary64_any_weight: values 1, 2, 6, 3 at times 5, 8, 11, 14, Gaussian weight, `alpha = 7`, lag 3 -/
example : ∃ (ex : ℚ → ℚ) (r : AcResult (D64 ex true)) (v : ℚ), r.At 0 4 (.fin 3) (.fin v) ∧ |v - -1/14| ≤ pow2 (-30) := by
  obtain ⟨ex, hex⟩ := lib_exists
  obtain ⟨d, r, ht, hrow, hr, hl⟩ := regular_gauss (fu := true) hex 4 (by norm_num) (by norm_num) wX'
  obtain ⟨v, h1, h2⟩ := C30_binary64_any_weight ht (values4 hrow (by decide +kernel)) hr 4 1 (by norm_num) (hl 1 (by norm_num))
  rw [show autoCov 4 wX' 1 / sumSq 4 wX' = -1/14 by decide +kernel] at h2
  exact ⟨ex, r, v, by simpa [pow2_zero] using h1, h2.trans (by decide +kernel)⟩

/-- 3, 6, 2, 1 -/
def gridR (i : ℕ) : ℚ := [3, 6, 2, 1].getD i 0

/-- C74_binary64_any_weight: 1, 2, 6, 3 and 3, 6, 2, 1 -/
example : ∃ (ex : ℚ → ℚ) (r r' : AcResult (D64 ex true)) (v v' : ℚ), r.At 0 4 (.fin 3) (.fin v) ∧ r'.At 0 4 (.fin 3) (.fin v') ∧ |v - v'| ≤ pow2 (-30) := by
  obtain ⟨ex, hex⟩ := lib_exists
  obtain ⟨d, r, ht, hrow, hr, hl⟩ := regular_gauss (fu := true) hex 4 (by norm_num) (by norm_num) wX'
  obtain ⟨d', r', ht', hrow', hr', hl'⟩ := regular_gauss (fu := true) hex 4 (by norm_num) (by norm_num) gridR
  obtain ⟨v, v', h1, h1', h2⟩ := C74_binary64_any_weight ht ht' (values4 hrow (by decide +kernel)) hr hr' hrow' (by decide +kernel) 4 4 1 (by norm_num)
    (hl 1 (by norm_num)) (hl' 1 (by norm_num))
  exact ⟨ex, r, r', v, v', by simpa [pow2_zero] using h1, by simpa [pow2_zero] using h1', h2.trans (by decide +kernel)⟩

theorem wP_period : ∀ i, i + 2 < 2 * 2 → wP (i + 2) = wP i := by
  intro i hi
  have : i < 2 := by omega
  interval_cases i <;> rfl

/-- C75_binary64_any_weight and C82_binary64_any_weight: 1, 3, 1, 3, lags 6 and 9 -/
example : ∃ (ex : ℚ → ℚ) (r : AcResult (D64 ex true)) (v v' : ℚ), r.At 0 5 (.fin 6) (.fin v) ∧ |v - 1/2| ≤ pow2 (-30) ∧ r.At 0 6 (.fin 9) (.fin v') ∧
    |v'| ≤ v + pow2 (-30) := by
  obtain ⟨ex, hex⟩ := lib_exists
  obtain ⟨d, r, ht, hrow, hr, hl⟩ := regular_gauss (fu := true) hex 4 (by norm_num) (by norm_num) wP
  have hv := values4 hrow (by decide +kernel)
  obtain ⟨v, h1, h2⟩ := C75_binary64_any_weight (a := 2) (P := 2) ht hv hr wP_period 5 1 (by norm_num) (hl 2 (by norm_num))
  obtain ⟨u, v', h3, h4, h5⟩ := C82_binary64_any_weight (a := 2) (P := 2) ht hv hr wP_period 1 3 5 6 (by norm_num) (by norm_num) (hl 2 (by norm_num)) (hl 3 (by norm_num))
  cases At_unique h1 h3
  rw [show (1 - ((1 : ℕ) : ℚ) / (2 : ℕ)) = 1/2 by norm_num] at h2
  refine ⟨ex, r, v, v', by simpa [pow2_zero] using h1, h2.trans (by decide +kernel), ?_, h5.trans (add_le_add le_rfl (by decide +kernel))⟩
  rw [three_ticks] at h4
  simpa using h4

/-- C76_binary64_any_weight and C80_binary64_any_weight: 1, 2, 6, 3 -/
example : ∃ (ex : ℚ → ℚ) (r : AcResult (D64 ex true)) (v : ℕ → ℚ), (∀ m < 4, r.At 0 (3 + m) (.fin ((m * 3 : ℤ) * pow2 0)) (.fin (v m))) ∧
    |∑ m ∈ Ico 1 4, v m + 1/2| ≤ pow2 (-30) ∧ -pow2 (-30) ≤ ∑ a ∈ range 2, ∑ b ∈ range 2, v ((a - b) + (b - a)) := by
  obtain ⟨ex, hex⟩ := lib_exists
  obtain ⟨d, r, ht, hrow, hr, hl⟩ := regular_gauss (fu := true) hex 4 (by norm_num) (by norm_num) wX'
  have hv := values4 hrow (by decide +kernel)
  obtain ⟨v, h1, h2⟩ := C76_binary64_any_weight ht hv hr (fun m => 3 + m) hl
  obtain ⟨u, h3, h4⟩ := C80_binary64_any_weight ht hv hr (fun m => 3 + m) hl
  have e1 : ∀ m < 4, v m = u m := fun m hm => XF.fin.inj (At_unique (h1 m hm) (h3 m hm))
  refine ⟨ex, r, v, h1, h2.trans (by decide +kernel), ?_⟩
  have h5 := h4 2 (by norm_num) fun _ => 1
  have e2 : ∑ a ∈ range 2, ∑ b ∈ range 2, (1 : ℚ) * 1 * u ((a - b) + (b - a)) = ∑ a ∈ range 2, ∑ b ∈ range 2, v ((a - b) + (b - a)) :=
    sum_congr rfl fun a ha => sum_congr rfl fun b hb => by
      rw [mem_range] at ha hb
      rw [e1 _ (by omega)]
      ring
  rw [e2] at h5
  refine le_trans ?_ h5
  decide +kernel

/-- C83_binary64_any_weight and C84_binary64_any_weight: 2, 5, 8, 11 and 1, 5, 1, 1, lag 3 -/
example : ∃ (ex : ℚ → ℚ) (r r' : AcResult (D64 ex true)) (v v' : ℚ), r.At 0 4 (.fin 3) (.fin v) ∧ |v - 1/4| ≤ pow2 (-30) ∧
    r'.At 0 4 (.fin 3) (.fin v') ∧ |v' - -5/12| ≤ pow2 (-30) ∧ |v'| ≤ 67/100 := by
  obtain ⟨ex, hex⟩ := lib_exists
  obtain ⟨d, r, ht, hrow, hr, hl⟩ := regular_gauss (fu := true) hex 4 (by norm_num) (by norm_num) rampX
  obtain ⟨d', r', ht', hrow', hr', hl'⟩ := regular_gauss (fu := true) hex 4 (by norm_num) (by norm_num) spikeX
  obtain ⟨v, h1, h2⟩ := C83_binary64_any_weight ht (values4 hrow (by decide +kernel)) hr 2 3 rampX_eq 4 1 (by norm_num) (hl 1 (by norm_num))
  obtain ⟨v', h1', h2', h3'⟩ := C84_binary64_any_weight ht' (values4 hrow' (by decide +kernel)) hr' 1 4 1 (by norm_num) spikeX_eq 4 1 (by norm_num) (by norm_num)
    (hl' 1 (by norm_num))
  have e1 : (((4 : ℕ) : ℚ) - (1 : ℕ)) * ((((4 : ℕ) : ℚ) - (1 : ℕ)) ^ 2 - 1 - 3 * ((1 : ℕ) : ℚ) ^ 2) / (((4 : ℕ) : ℚ) * (((4 : ℕ) : ℚ) ^ 2 - 1)) = 1/4 := by norm_num
  have e2 : ((((4 : ℕ) : ℚ) - (1 : ℕ)) / (4 : ℕ) - ((if 1 + 1 < 4 then 1 else 0) + if 1 ≤ 1 then 1 else 0)) / (((4 : ℕ) : ℚ) - 1) = -5/12 := by norm_num
  rw [e1] at h2
  rw [e2] at h2'
  exact ⟨ex, r, r', v, v', by simpa [pow2_zero] using h1, h2.trans (by decide +kernel), by simpa [pow2_zero] using h1', h2'.trans (by decide +kernel),
    h3'.trans (by decide +kernel)⟩

/-- C95_binary64_any_weight: two samples, and the same with their mean before, between and after, lags 1 and 2 steps, and lag 1 of the longer one -/
example : ∃ (ex : ℚ → ℚ) (r r' : AcResult (D64 ex true)) (v v' v'' : ℚ), r.At 0 2 (.fin 3) (.fin v) ∧ r'.At 0 5 (.fin 6) (.fin v') ∧ |v - v'| ≤ pow2 (-30) ∧
    r'.At 0 4 (.fin 3) (.fin v'') ∧ |v''| ≤ pow2 (-30) := by
  obtain ⟨ex, hex⟩ := lib_exists
  obtain ⟨d, r, ht, hrow, hr, hl⟩ := regular_gauss (fu := true) hex 2 (by norm_num) (by norm_num) pairX
  obtain ⟨d', r', ht', hrow', hr', hl'⟩ := regular_gauss (fu := true) hex 4 (by norm_num) (by norm_num) pairPad
  have hv : Values64 d 2 0 pairX 3 (pow2 (-51)) := ⟨hrow, by decide +kernel, by decide +kernel,
    by decide +kernel, by decide +kernel, by decide +kernel, .inr (by decide +kernel), by decide +kernel⟩
  obtain ⟨k, k'⟩ := C95_binary64_any_weight ht ht' hv (values4 hrow' (by decide +kernel)) hr hr' pair_placed
  obtain ⟨v, v', h1, h2, h3⟩ := k 1 2 5 (by norm_num) (hl 1 (by norm_num)) (hl' 2 (by norm_num))
  obtain ⟨v'', h4, h5⟩ := k' 1 4 (by norm_num) (by omega) (hl' 1 (by norm_num))
  exact ⟨ex, r, r', v, v', v'', by simpa [pow2_zero] using h1, by simpa [pow2_zero] using h2, h3.trans (by decide +kernel), by simpa [pow2_zero] using h4,
    h5.trans (by decide +kernel)⟩

/-- C96_binary64_any_weight and C97_binary64_any_weight: 1, 2, 6, 3, lag 6 -/
example : ∃ (ex : ℚ → ℚ) (r : AcResult (D64 ex true)) (v : ℚ), r.At 0 5 (.fin 6) (.fin v) ∧ |v - -3/7| ≤ pow2 (-30) ∧ |v| ≤ 1/2 + pow2 (-30) := by
  obtain ⟨ex, hex⟩ := lib_exists
  obtain ⟨d, r, ht, hrow, hr, hl⟩ := regular_gauss (fu := true) hex 4 (by norm_num) (by norm_num) wX'
  have hv := values4 hrow (by decide +kernel)
  obtain ⟨v, h1, h2⟩ := C96_binary64_any_weight ht hv hr 5 2 (by norm_num) (hl 2 (by norm_num))
  obtain ⟨u, h3, h4⟩ := C97_binary64_any_weight ht hv hr 5 2 (by norm_num) (by norm_num) (hl 2 (by norm_num))
  cases At_unique h1 h3
  have e1 : 1 - (∑ i ∈ range (4 - 2), (wX' (i + 2) - wX' i) ^ 2 + (∑ i ∈ range 2, dev 4 wX' i ^ 2 + ∑ i ∈ range 2, dev 4 wX' (4 - 2 + i) ^ 2)) / (2 * sumSq 4 wX')
      = -3/7 := by decide +kernel
  rw [e1] at h2
  refine ⟨ex, r, v, by simpa [pow2_zero] using h1, h2.trans (by decide +kernel), ?_⟩
  rw [show (((4 - 1) / 2 : ℕ) : ℝ) + 2 = 3 by norm_num, Real.cos_pi_div_three] at h4
  have e2 : (500 * pow2 (-51) * ((4 : ℕ) * 11 ^ 2 / sumSq 4 wX') : ℚ) ≤ pow2 (-30) := by decide +kernel
  have h5 := h4.trans (add_le_add le_rfl ((Rat.cast_le (K := ℝ)).2 e2))
  rw [← Rat.cast_le (K := ℝ)]
  push_cast
  exact h5

/-- C104_binary64_any_weight: 3, 1, 1, 3, lag 3 -/
example : ∃ (ex : ℚ → ℚ) (r : AcResult (D64 ex true)) (v : ℚ), r.At 0 4 (.fin 3) (.fin v) ∧ |v - -1/4| ≤ pow2 (-30) := by
  obtain ⟨ex, hex⟩ := lib_exists
  obtain ⟨d, r, ht, hrow, hr, hl⟩ := regular_gauss (fu := true) hex 4 (by norm_num) (by norm_num) lvT
  obtain ⟨v, h1, h2⟩ := C104_binary64_any_weight (H := fun i => 1 ≤ i ∧ i < 1 + 2) (h := 2) ht (values4 hrow (by decide +kernel)) hr lvT_eq (by norm_num) (by decide)
    (by norm_num) (by norm_num) 4 1 (by norm_num) (hl 1 (by norm_num))
  refine ⟨ex, r, v, by simpa [pow2_zero] using h1, (le_of_eq ?_).trans (h2.trans (by decide +kernel))⟩
  congr 2
  decide +kernel

open Real in
/-- C102_binary64_any_weight: a hundred samples of a cosine with period 4, lag 60 -/
example : ∃ (ex : ℚ → ℚ) (r : AcResult (D64 ex true)) (v : ℚ), r.At 0 119 (.fin 60) (.fin v) ∧ |(v : ℝ) - 4/5| ≤ 1/40 := by
  obtain ⟨ex, hex⟩ := lib_exists
  obtain ⟨d, r, ht, hrow, hr, hl⟩ := regular_gauss (fu := true) hex 100 (by norm_num) (by norm_num) quarter
  have hv : Values64 d 100 0 quarter 1 (pow2 (-40)) := ⟨hrow, by decide +kernel, by decide +kernel, by decide +kernel, by decide +kernel,
    by decide +kernel, .inr (by decide +kernel), by decide +kernel⟩
  have hE : 1 / sin (π / 2) + 6 / ((100 : ℕ) * sin (π / 2 / 2) ^ 2) = 28/25 := by
    rw [show π / 2 / 2 = π / 4 by ring, sin_pi_div_four, sin_pi_div_two, div_pow, Real.sq_sqrt (by norm_num)]
    norm_num
  obtain ⟨v, h3, h4⟩ := C102_binary64_any_weight (ω := π / 2) (c := 0) (a := 1) (φ := 0) ht hv hr one_ne_zero (by positivity) (by linarith [pi_pos]) 0
    (fun i _ => by rw [quarter_cos]; simp) (by rw [hE]; norm_num) 0 le_rfl one_pos (by rw [hE]; norm_num) 119 20 (by norm_num) (hl 20 (by norm_num))
  rw [hE, show π / 2 * ((20 : ℕ) : ℝ) = (5 : ℕ) * (2 * π) by push_cast; ring, cos_nat_mul_two_pi] at h4
  have e : (((20 : ℕ) * 3 : ℤ) : ℚ) * pow2 0 = 60 := by decide +kernel
  rw [e] at h3
  have hb : ((500 * pow2 (-40) * ((100 : ℕ) * 1 ^ 2 / sumSq 100 quarter) : ℚ) : ℝ) ≤ ((1/1000 : ℚ) : ℝ) := Rat.cast_le.2 (by decide +kernel)
  refine ⟨ex, r, v, h3, ?_⟩
  rw [show (1 - ((20 : ℕ) : ℝ) / ((100 : ℕ) : ℝ)) * 1 = 4/5 by norm_num] at h4
  refine h4.trans ((add_le_add le_rfl hb).trans ?_)
  norm_num

end Sacf
