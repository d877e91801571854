import Verif.Props.Classical

/-!
# Cases for sums, padding, the structure function and the bounds at long lags
-/

namespace Sacf

/-- a run on `M` samples with `alpha = 1` -/
theorem grid_witness {M : ℕ} {u y : ℕ → ℚ} {L : List Q} (hu : Increasing M u)
    (h : okSat (fun d r => decide (d.timeseries = samples M u ∧ d.data2d = .ok [samples M y] ∧ r.corr.alpha = .fin 1 ∧ r.lags = L))
      (runArgs (samples M u : List Q) (samples M y) "fractional" { alpha := some (.fin 1) }) = true) :
    ∃ d r, NaturalRun (K := ℚ) (dm := 10 ^ 100) (f32 := id) (ex := fun x => 1 / (1 - x)) d { alpha := some (.fin 1) } "fractional" r M u 0 y 1 ∧ r.lags = L := by
  obtain ⟨d, r, h1, h2, h3⟩ := runArgs_ok h
  obtain ⟨h3, h4, h5, h6⟩ := of_decide_eq_true h3
  exact ⟨d, r, ⟨.flat h1, h3, hu, ⟨_, h4, rfl⟩, h2, by unfold KnownWeight; simp, h5, one_pos⟩, h6⟩

theorem regular_inc (M : ℕ) (t0 δ : ℚ) (hδ : 0 < δ) : Increasing M fun i : ℕ => t0 + i * δ := by
  intro i i' h _
  have : (i : ℚ) < i' := by exact_mod_cast h
  have := mul_lt_mul_of_pos_right this hδ
  simpa using this

/-- values 1, 2, 6, 3 plus values 1, 5, 1, 1 -/
def sumX (i : ℕ) : ℚ := [2, 7, 7, 4].getD i 0
/-- and the difference -/
def diffX (i : ℕ) : ℚ := [0, -3, 5, 2].getD i 0

/-- C94_sum and C94_parallelogram: times 0, 1, 3, 7, lag 2.25 -/
example : (∃ (r₁ r₂ r₃ : AcResult Q) (a b c : ℚ), r₁.At 0 1 (.fin (9/4)) (.fin a) ∧ r₂.At 0 1 (.fin (9/4)) (.fin b) ∧ r₃.At 0 1 (.fin (9/4)) (.fin c) ∧
      c * 18 = a * 14 + b * 12 + 488/77) ∧
    ∃ (r₁ r₂ r₃ r₄ : AcResult Q) (a b c e : ℚ), r₁.At 0 1 (.fin (9/4)) (.fin a) ∧ r₂.At 0 1 (.fin (9/4)) (.fin b) ∧ r₃.At 0 1 (.fin (9/4)) (.fin c) ∧
      r₄.At 0 1 (.fin (9/4)) (.fin e) ∧ c * 18 + e * 34 = 2 * (a * 14 + b * 12) := by
  obtain ⟨d₁, r₁, h₁, l₁⟩ := lag_witness kT wX' (9/4) "fractional" (by unfold KnownWeight; simp) kT_inc (by decide +kernel)
  obtain ⟨d₂, r₂, h₂, l₂⟩ := lag_witness kT spikeX (9/4) "fractional" (by unfold KnownWeight; simp) kT_inc (by decide +kernel)
  obtain ⟨d₃, r₃, h₃, l₃⟩ := lag_witness kT sumX (9/4) "fractional" (by unfold KnownWeight; simp) kT_inc (by decide +kernel)
  obtain ⟨d₄, r₄, h₄, l₄⟩ := lag_witness kT diffX (9/4) "fractional" (by unfold KnownWeight; simp) kT_inc (by decide +kernel)
  have e₁ : sumSq 4 wX' = 14 := by decide +kernel
  have e₂ : sumSq 4 spikeX = 12 := by decide +kernel
  have e₃ : sumSq 4 sumX = 18 := by decide +kernel
  have e₄ : sumSq 4 diffX = 34 := by decide +kernel
  obtain ⟨a, b, c, k₁, k₂, k₃, k, _⟩ := C94_sum h₁ h₂ h₃ (by decide +kernel) (fun _ _ => rfl) (fun _ _ => rfl) (fun _ _ => rfl) (by rw [e₁]; norm_num)
    (by rw [e₂]; norm_num) (by rw [e₃]; norm_num) (9/4) 1 1 1 l₁ l₂ l₃ kS kT_selects
  obtain ⟨a', b', c', e', k₁', k₂', k₃', k₄', k'⟩ := C94_parallelogram h₁ h₂ h₃ h₄ (by decide +kernel) (by decide +kernel) (fun _ _ => rfl) (fun _ _ => rfl)
    (fun _ _ => rfl) (fun _ _ => rfl) (by rw [e₁]; norm_num) (by rw [e₂]; norm_num) (by rw [e₃]; norm_num) (by rw [e₄]; norm_num) (9/4) 1 1 1 1 l₁ l₂ l₃ l₄
  rw [e₁, e₂, e₃] at k k'
  rw [e₄] at k'
  refine ⟨⟨r₁, r₂, r₃, a, b, c, k₁, k₂, k₃, k.trans ?_⟩, ⟨r₁, r₂, r₃, r₄, a', b', c', e', k₁', k₂', k₃', k₄', k'⟩⟩
  congr 1
  decide +kernel

/-- values 1, 1, -1, -1 and 1, -1, -1, 1, which have nothing in common at lag 0 and at lag 2 -/
def stepX (i : ℕ) : ℚ := [1, 1, -1, -1].getD i 0
def waveX (i : ℕ) : ℚ := [1, -1, -1, 1].getD i 0
def stepWave (i : ℕ) : ℚ := [2, 0, -2, 0].getD i 0

/-- C94_sum, second part: at lag 2 the correlation of the sum is the mean -/
example : ∃ (r₁ r₂ r₃ : AcResult Q) (a b c : ℚ), r₁.At 0 1 (.fin 2) (.fin a) ∧ r₂.At 0 1 (.fin 2) (.fin b) ∧ r₃.At 0 1 (.fin 2) (.fin c) ∧
      c = (a * 4 + b * 4) / (4 + 4) := by
  obtain ⟨d₁, r₁, h₁, l₁⟩ := lag_witness (fun i : ℕ => 0 + i * 1) stepX 2 "fractional" (by unfold KnownWeight; simp) (regular_inc 4 0 1 one_pos) (by decide +kernel)
  obtain ⟨d₂, r₂, h₂, l₂⟩ := lag_witness (fun i : ℕ => 0 + i * 1) waveX 2 "fractional" (by unfold KnownWeight; simp) (regular_inc 4 0 1 one_pos) (by decide +kernel)
  obtain ⟨d₃, r₃, h₃, l₃⟩ := lag_witness (fun i : ℕ => 0 + i * 1) stepWave 2 "fractional" (by unfold KnownWeight; simp) (regular_inc 4 0 1 one_pos)
    (by decide +kernel)
  have e₁ : sumSq 4 stepX = 4 := by decide +kernel
  have e₂ : sumSq 4 waveX = 4 := by decide +kernel
  obtain ⟨a, b, c, k₁, k₂, k₃, _, k⟩ := C94_sum h₁ h₂ h₃ (by decide +kernel) (fun _ _ => rfl) (fun _ _ => rfl) (fun _ _ => rfl) (by rw [e₁]; norm_num)
    (by rw [e₂]; norm_num) (by decide +kernel) 2 1 1 1 l₁ l₂ l₃ (fun i => i + 2)
    (by have := (sacf_regular (K := ℚ) (t0 := 0) (δ := 1) (w := fun _ => 1) one_pos rfl 4 2 (by norm_num) stepX 1).1
        norm_num at this ⊢
        exact this)
  rw [e₁, e₂] at k
  exact ⟨r₁, r₂, r₃, a, b, c, k₁, k₂, k₃, k (by decide +kernel) (by decide +kernel)⟩

/-- values 1, 3 and the same padded and interleaved with the mean -/
def pairX (i : ℕ) : ℚ := [1, 3].getD i 0
def pairPad (i : ℕ) : ℚ := [2, 1, 2, 3].getD i 0

theorem pair_placed : Placed 2 4 1 2 pairX pairPad where
  step := by norm_num
  pos := by norm_num
  fits := by norm_num
  value := by decide +kernel
  rest := by decide +kernel

/-- C95_padding: 1, 3 two units apart, and 2, 1, 2, 3 one unit apart: the same at lag 2, zero at lags 1 and 3 -/
example : ∃ (r₁ r₂ : AcResult Q) (v : ℚ), r₁.At 0 2 (.fin 2) (.fin v) ∧ r₂.At 0 5 (.fin 2) (.fin v) ∧ r₂.At 0 4 (.fin 1) (.fin 0) ∧
    r₂.At 0 6 (.fin 3) (.fin 0) := by
  obtain ⟨d₁, r₁, h₁, l₁⟩ := grid_witness (M := 2) (u := fun i : ℕ => 0 + i * ((2 : ℕ) * 1)) (y := pairX) (L := q [-2, 0, 2])
    (regular_inc 2 0 _ (by norm_num)) (by decide +kernel)
  obtain ⟨d₂, r₂, h₂, l₂⟩ := grid_witness (M := 4) (u := fun i : ℕ => 5 + i * 1) (y := pairPad) (L := q [-3, -2, -1, 0, 1, 2, 3])
    (regular_inc 4 5 1 one_pos) (by decide +kernel)
  obtain ⟨k, k'⟩ := C95_padding h₁ h₂ one_pos pair_placed (fun _ _ => rfl) (fun _ _ => rfl) (by decide +kernel) (by decide) (by decide)
  obtain ⟨v, k₁, k₂⟩ := k 1 2 5 (by norm_num) (by rw [l₁]; decide +kernel) (by rw [l₂]; decide +kernel)
  have k₃ := k' 1 4 (by norm_num) (by omega) (by rw [l₂]; decide +kernel)
  have k₄ := k' 3 6 (by norm_num) (by omega) (by rw [l₂]; decide +kernel)
  exact ⟨r₁, r₂, v, by simpa using k₁, by simpa using k₂, by simpa using k₃, by simpa using k₄⟩

/-- C96_structure, C97_half, C97_bound: values 1, 2, 6, 3 at lags 1, 2 and 1 -/
example : (∃ (r : AcResult Q) (v : ℚ), r.At 0 4 (.fin 1) (.fin v) ∧ v = 1 - (26 + (4 + 0)) / 28) ∧
    (∃ (r : AcResult Q) (v : ℚ), r.At 0 5 (.fin 2) (.fin v) ∧ |v| ≤ 1/2) ∧
    ∃ (r : AcResult Q) (v : ℚ), r.At 0 4 (.fin 1) (.fin v) ∧ |(v : ℝ)| ≤ Real.cos (Real.pi / 5) := by
  obtain ⟨d, r, h, hl⟩ := regular_witness wX' 1 one_pos (by decide +kernel)
  obtain ⟨v, k₁, k, _⟩ := C96_structure h one_pos (fun _ _ => rfl) (by decide +kernel) (by decide) 1 4 (by norm_num) (by rw [hl]; decide +kernel)
  obtain ⟨v', k₂, k'⟩ := C97_half h one_pos (fun _ _ => rfl) (by decide +kernel) (by decide) 2 5 (by norm_num) (by norm_num) (by rw [hl]; decide +kernel)
  obtain ⟨v'', k₃, k''⟩ := C97_bound h one_pos (fun _ _ => rfl) (by decide +kernel) (by decide) 1 4 (by norm_num) (by norm_num) (by rw [hl]; decide +kernel)
  refine ⟨⟨r, v, by simpa using k₁, k.trans (by decide +kernel)⟩, ⟨r, v', by simpa using k₂, k'⟩, ⟨r, v'', by simpa using k₃, k''.trans (le_of_eq (by norm_num))⟩⟩

/-- values 3, 2, 2, 1 -/
def endsX (i : ℕ) : ℚ := [3, 2, 2, 1].getD i 0

/-- C97_attained -/
example : ∃ r : AcResult Q, r.At 0 6 (.fin 3) (.fin (-(1/2))) := by
  obtain ⟨d, r, h, hl⟩ := regular_witness endsX 1 one_pos (by decide +kernel)
  have := C97_attained h one_pos (by norm_num) 2 1 one_ne_zero (by decide +kernel) (fun _ _ => rfl) (by decide) 6 (by rw [hl]; decide +kernel)
  exact ⟨r, by simpa using this⟩

/-- times 5, 11 and times 5, 8, 11, 14 -/
theorem pair_object : ∃ d : DS Sacf.B, Regular64 d 2 5 6 0 ∧ d.HasRow 0 (samples 2 pairX) := by
  obtain ⟨d, hd, ht, hrow, _⟩ := C03_round_trip (F := Sacf.B) (samples 2 fun i => ((5 + i * 6 : ℤ) : ℚ) * pow2 0) [samples 2 pairX]
    (by simp [samples]) (by simp) (by simp [Rect, samples])
  exact ⟨d, ⟨.table hd, ht, by norm_num, by norm_num, by norm_num, by norm_num, by norm_num, by norm_num⟩, _, hrow, rfl⟩

/-- C94_binary64 -/
example : ∃ (r₁ r₂ r₃ : AcResult Sacf.B) (a b c : ℚ), r₁.At 0 4 (.fin 3) (.fin a) ∧ r₂.At 0 4 (.fin 3) (.fin b) ∧ r₃.At 0 4 (.fin 3) (.fin c) ∧
    |c * 18 - (a * 14 + b * 12 + 2)| ≤ pow2 (-30) := by
  obtain ⟨d₁, c₁, t₁, w₁⟩ := signal_object wX'
  obtain ⟨d₂, c₂, t₂, w₂⟩ := signal_object spikeX
  obtain ⟨d₃, c₃, t₃, w₃⟩ := signal_object sumX
  have v₁ : Values64 d₁ 4 0 wX' 6 (pow2 (-51)) := ⟨w₁, by decide +kernel, by decide +kernel,
    by decide +kernel, by decide +kernel, by decide +kernel, .inr (by decide +kernel), by decide +kernel⟩
  have v₂ : Values64 d₂ 4 0 spikeX 5 (pow2 (-51)) := ⟨w₂, by decide +kernel, by decide +kernel,
    by decide +kernel, by decide +kernel, by decide +kernel, .inr (by decide +kernel), by decide +kernel⟩
  have v₃ : Values64 d₃ 4 0 sumX 7 (pow2 (-51)) := ⟨w₃, by decide +kernel, by decide +kernel,
    by decide +kernel, by decide +kernel, by decide +kernel, .inr (by decide +kernel), by decide +kernel⟩
  obtain ⟨r₁, r₂, r₃, _, _, _, k⟩ := C94_binary64 (signal_times c₁ t₁) (signal_times c₂ t₂) (signal_times c₃ t₃) v₁ v₂ v₃ (by decide +kernel)
  obtain ⟨a, b, c, k₁, k₂, k₃, k⟩ := k 1 (by norm_num)
  have e₁ : sumSq 4 wX' = 14 := by decide +kernel
  have e₂ : sumSq 4 spikeX = 12 := by decide +kernel
  have e₃ : sumSq 4 sumX = 18 := by decide +kernel
  have e₄ : ∑ i ∈ Finset.range (4 - 1), (dev 4 wX' i * dev 4 spikeX (i + 1) + dev 4 spikeX i * dev 4 wX' (i + 1)) = 2 := by decide +kernel
  rw [e₁, e₂, e₃, e₄] at k
  exact ⟨r₁, r₂, r₃, a, b, c, by simpa [pow2_zero] using k₁, by simpa [pow2_zero] using k₂, by simpa [pow2_zero] using k₃, k.trans (by decide +kernel)⟩

/-- C95_binary64: lag 6 of both, and lag 3 of the finer -/
example : ∃ (r₁ r₂ : AcResult Sacf.B) (v v' v'' : ℚ), r₁.At 0 2 (.fin 6) (.fin v) ∧ r₂.At 0 5 (.fin 6) (.fin v') ∧ |v - v'| ≤ pow2 (-30) ∧
    r₂.At 0 4 (.fin 3) (.fin v'') ∧ |v''| ≤ pow2 (-30) := by
  obtain ⟨d₁, t₁, w₁⟩ := pair_object
  obtain ⟨d₂, c₂, t₂, w₂⟩ := signal_object pairPad
  have v₁ : Values64 d₁ 2 0 pairX 3 (pow2 (-51)) := ⟨w₁, by decide +kernel, by decide +kernel,
    by decide +kernel, by decide +kernel, by decide +kernel, .inr (by decide +kernel), by decide +kernel⟩
  have v₂ : Values64 d₂ 4 0 pairPad 3 (pow2 (-51)) := ⟨w₂, by decide +kernel, by decide +kernel,
    by decide +kernel, by decide +kernel, by decide +kernel, .inr (by decide +kernel), by decide +kernel⟩
  obtain ⟨r₁, r₂, _, _, k, k'⟩ := C95_binary64 t₁ (signal_times c₂ t₂) v₁ v₂ pair_placed
  obtain ⟨v, v', k₁, k₂, k⟩ := k 1 (by norm_num)
  obtain ⟨v'', k₃, k'⟩ := k' 1 (by norm_num) (by omega)
  exact ⟨r₁, r₂, v, v', v'', by simpa [pow2_zero] using k₁, by simpa [pow2_zero] using k₂, k.trans (by decide +kernel), by simpa [pow2_zero] using k₃,
    k'.trans (by decide +kernel)⟩

/-- C96_binary64 and C97_binary64 -/
example : ∃ (r r' : AcResult Sacf.B) (v v' : ℚ), r.At 0 4 (.fin 3) (.fin v) ∧ |v - (1 - (26 + (4 + 0)) / 28)| ≤ pow2 (-35) ∧
    r'.At 0 4 (.fin 3) (.fin v') ∧ |(v' : ℝ)| ≤ Real.cos (Real.pi / 5) + (pow2 (-35) : ℚ) := by
  obtain ⟨d, hc, ht, hrow⟩ := signal_object wX'
  have hv : Values64 d 4 0 wX' 6 (pow2 (-51)) := ⟨hrow, by decide +kernel, by decide +kernel,
    by decide +kernel, by decide +kernel, by decide +kernel, .inr (by decide +kernel), by decide +kernel⟩
  obtain ⟨r, _, k⟩ := C96_binary64 (signal_times hc ht) hv
  obtain ⟨r', _, k'⟩ := C97_binary64 (signal_times hc ht) hv
  obtain ⟨v, k₁, k⟩ := k 1 (by norm_num)
  obtain ⟨v', k₂, k'⟩ := k' 1 (by norm_num) (by norm_num)
  refine ⟨r, r', v, v', by simpa [pow2_zero] using k₁, ?_, by simpa [pow2_zero] using k₂, k'.trans (add_le_add (le_of_eq ?_) ?_)⟩
  · refine le_trans (le_of_eq ?_) (k.trans (show _ ≤ _ by decide +kernel))
    congr 2
    decide +kernel
  · norm_num
  · exact Rat.cast_le.2 (by decide +kernel)

end Sacf
