import Verif.Props.Sinusoid
import Verif.Cases.Classical

/-!
# Cases for smooth signals and sinusoids
-/

namespace Sacf

open Real

/-! ## Smooth signals -/

/-- distance to the nearest even number: a triangle wave of period 2 -/
def triangle {K : Type} [Field K] [LinearOrder K] [IsStrictOrderedRing K] [FloorRing K] (t : K) : K := |t - 2 * round (t / 2)|

theorem triangle_lipschitz {K : Type} [Field K] [LinearOrder K] [IsStrictOrderedRing K] [FloorRing K] : Lipschitz (triangle : K → K) 1 := by
  have key : ∀ a b : K, triangle a ≤ triangle b + |a - b| := fun a b => by
    have h1 : triangle a ≤ |a - 2 * (round (b / 2) : K)| := by
      have := round_le (a / 2) (round (b / 2))
      unfold triangle
      have e1 : a - 2 * (round (a / 2) : K) = 2 * (a / 2 - round (a / 2)) := by ring
      have e2 : a - 2 * (round (b / 2) : K) = 2 * (a / 2 - round (b / 2)) := by ring
      rw [e1, e2, abs_mul, abs_mul]
      exact mul_le_mul_of_nonneg_left this (abs_nonneg _)
    refine h1.trans ?_
    have := abs_add_le (b - 2 * (round (b / 2) : K)) (a - b)
    rw [show b - 2 * (round (b / 2) : K) + (a - b) = a - 2 * round (b / 2) by ring] at this
    exact this
  intro a b
  rw [one_mul, abs_le]
  have h1 := key a b
  have h2 := key b a
  rw [abs_sub_comm b a] at h2
  constructor <;> linarith

theorem triangle_period {K : Type} [Field K] [LinearOrder K] [IsStrictOrderedRing K] [FloorRing K] (a : K) : triangle (a + 2) = triangle a := by
  unfold triangle
  rw [show (a + 2) / 2 = a / 2 + 1 by ring, round_add_one]
  push_cast
  congr 1
  ring

/-- times 0, 1, 5/2, 4 -/
def triT (i : ℕ) : ℚ := [0, 1, 5/2, 4].getD i 0
/-- the triangle wave there -/
def triX (i : ℕ) : ℚ := [0, 1, 1/2, 0].getD i 0
/-- the nearest samples 2 later -/
def triS (i : ℕ) : ℕ := [2, 2, 0, 0].getD i 0

theorem tri_run : ∃ d r, NaturalRun (dm := 10 ^ 100) (f32 := id) (ex := fun x => 1 / (1 - x)) d ⟨some (.fin 2), some (.fin 2), none, some (.fin (1/64))⟩
    "fractional" r 4 triT 0 triX (1/64) ∧ r.lags[1]? = some (.fin 2) := by
  obtain ⟨d, r, h1, h2, h3⟩ := runArgs_ok (t := (samples 4 triT : List Q)) (v := samples 4 triX) (wt := "fractional")
    (g := ⟨some (.fin 2), some (.fin 2), none, some (.fin (1/64))⟩)
    (P := fun d r => decide (d.timeseries = samples 4 triT ∧ d.data2d = .ok [samples 4 triX] ∧ r.corr.alpha = .fin (1/64) ∧ r.lags = q [0, 2])) (by decide +kernel)
  obtain ⟨h3, h4, h5, h6⟩ := of_decide_eq_true h3
  exact ⟨d, r, ⟨.flat h1, h3, by intro i j hij hj; interval_cases j <;> interval_cases i <;> decide +kernel, ⟨_, h4, rfl⟩, h2,
    by unfold KnownWeight; simp, h5, by norm_num⟩, by rw [h6]; rfl⟩

/-- C101_signal and C101_period: no two of the times 0, 1, 2.5, 4 are a period of the triangle wave apart -/
example : ∃ (r : AcResult Q) (v v' : ℚ), r.At 0 1 (.fin 2) (.fin v) ∧
    |v - signalAcf 4 triT triX (weight (fun x => 1 / (1 - x)) "fractional" (1/64)) triS triangle 2| ≤ 1/24 ∧
    r.At 0 1 (.fin 2) (.fin v') ∧ |v' - squaresAcf 4 triT triX (weight (fun x => 1 / (1 - x)) "fractional" (1/64)) triS 2| ≤ 1/24 := by
  obtain ⟨d, r, h, hl⟩ := tri_run
  have hs : Selects 4 triT 2 triS := by
    unfold Selects IsNearest
    decide +kernel
  obtain ⟨v, h1, h2⟩ := C101_signal h (fun h => absurd h (by decide)) (fun _ _ => rfl) (by decide +kernel) triangle 1 0 zero_le_one triangle_lipschitz (by decide +kernel)
    (2/5) (by norm_num) (by decide +kernel) 1 2 hl triS hs (1/2) (by norm_num) (by decide +kernel)
  obtain ⟨v', h3, h4⟩ := C101_period h (fun h => absurd h (by decide)) (fun _ _ => rfl) (by decide +kernel) triangle 1 0 zero_le_one triangle_lipschitz (by decide +kernel)
    (2/5) (by norm_num) (by decide +kernel) 1 2 triangle_period hl triS hs (1/2) (by norm_num) (by decide +kernel)
  exact ⟨r, v, v', h1, h2.trans (by norm_num), h3, h4.trans (by norm_num)⟩

/-- the same times in units of `2^-10` -/
def triτ (i : ℕ) : ℤ := [0, 1024, 2560, 4096].getD i 0

/-- C101_binary64 and C101_binary64_period: the same in binary64 -/
example : ∃ (r : AcResult B) (v v' : ℚ), r.At 0 1 (.fin 2) (.fin v) ∧
    |(v : ℝ) - signalAcf 4 (realTime triτ (-10)) (fun i => (triX i : ℝ)) (weight Real.exp "fractional" ((1/64 : ℚ) : ℝ)) triS triangle 2| ≤ 1/24 ∧
    r.At 0 1 (.fin 2) (.fin v') ∧ |(v' : ℝ) - squaresAcf 4 (realTime triτ (-10)) (fun i => (triX i : ℝ)) (weight Real.exp "fractional" ((1/64 : ℚ) : ℝ)) triS 2| ≤ 1/24 := by
  obtain ⟨d, r, h1, h2, h3⟩ := runArgs_ok (t := (samples 4 (fun i => (triτ i : ℚ) * pow2 (-10)) : List B)) (v := samples 4 triX) (wt := "fractional")
    (g := ⟨some (.fin 2), some (.fin 2), none, some (.fin (1/64))⟩)
    (P := fun d r => decide (d.timeseries = samples 4 (fun i => (triτ i : ℚ) * pow2 (-10)) ∧ d.data2d = .ok [samples 4 triX] ∧ r.corr.alpha = .fin (1/64) ∧
      r.lags = [.fin 0, .fin 2])) (by decide +kernel)
  obtain ⟨h3, h4, h5, h6⟩ := of_decide_eq_true h3
  have ht : Times64 d 4 triτ (-10) := ⟨.flat h1, h3, by intro i j hij hj; interval_cases j <;> interval_cases i <;> decide +kernel,
    by norm_num, by norm_num, by norm_num, by norm_num⟩
  have hv : Values64 d 4 0 triX 1 (pow2 (-50)) := ⟨⟨_, h4, rfl⟩, by decide +kernel, by decide +kernel, by decide +kernel, by decide +kernel, by decide +kernel,
    .inr (by decide +kernel), by decide +kernel⟩
  have hr : Run64 d _ "fractional" r (1/64) (-10) := .inl ⟨h2, h5, by decide +kernel, .inl rfl⟩
  have e2 : ((2048 : ℤ) : ℚ) * pow2 (-10) = 2 := by decide +kernel
  have hl : r.lags[1]? = some (.fin (((2048 : ℤ) : ℚ) * pow2 (-10))) := by rw [h6, e2]; rfl
  have hs : Selects 4 (fun i => (triτ i : ℚ) * pow2 (-10)) (((2048 : ℤ) : ℚ) * pow2 (-10)) triS := by
    unfold Selects IsNearest
    decide +kernel
  have hx : ∀ i < 4, |(triX i : ℝ) - triangle (realTime triτ (-10) i)| ≤ 0 := fun i hi => by
    have : ∀ i < 4, triX i = triangle ((triτ i : ℚ) * pow2 (-10)) := by decide +kernel
    have hcast : ∀ x : ℚ, ((triangle x : ℚ) : ℝ) = triangle (x : ℝ) := fun x => by
      unfold triangle
      have : round ((x : ℝ) / 2) = round (x / 2) := by
        rw [← Rat.round_cast (α := ℝ)]
        push_cast
        rfl
      rw [this]
      push_cast
      rfl
    rw [this i hi, hcast]
    unfold realTime
    simp
  have hD : ∀ i < 4, triτ i + 2048 ≤ triτ (4 - 1) → |realTime triτ (-10) (triS i) - (realTime triτ (-10) i + (((2048 : ℤ) : ℚ) * pow2 (-10) : ℚ))| ≤ 1/2 := fun i hi hk => by
    have h7 : ∀ i < 4, triτ i + 2048 ≤ triτ (4 - 1) → |(triτ (triS i) : ℚ) * pow2 (-10) - ((triτ i : ℚ) * pow2 (-10) + ((2048 : ℤ) : ℚ) * pow2 (-10))| ≤ 1/2 := by
      decide +kernel
    unfold realTime
    have h8 : ((|(triτ (triS i) : ℚ) * pow2 (-10) - ((triτ i : ℚ) * pow2 (-10) + ((2048 : ℤ) : ℚ) * pow2 (-10))| : ℚ) : ℝ) ≤ ((1/2 : ℚ) : ℝ) := Rat.cast_le.2 (h7 i hi hk)
    rw [Rat.cast_abs, Rat.cast_sub, Rat.cast_add] at h8
    refine h8.trans (by norm_num)
  have hσ : (2/5 : ℝ) ^ 2 * (4 : ℕ) ≤ ((sumSq 4 triX : ℚ) : ℝ) := by
    have : (2/5 : ℚ) ^ 2 * (4 : ℕ) ≤ sumSq 4 triX := by decide +kernel
    have h9 : (((2/5 : ℚ) ^ 2 * (4 : ℕ) : ℚ) : ℝ) ≤ ((sumSq 4 triX : ℚ) : ℝ) := Rat.cast_le.2 this
    refine le_trans (le_of_eq ?_) h9
    norm_num
  obtain ⟨v, k1, k2⟩ := C101_binary64 ht hv hr triangle 1 0 zero_le_one triangle_lipschitz hx (2/5) (by norm_num) hσ 1 2048 hl (by decide +kernel) triS hs
    (1/2) (by norm_num) hD (3/2) (by norm_num) (by decide +kernel)
  obtain ⟨v', k3, k4⟩ := C101_binary64_period ht hv hr triangle 1 0 zero_le_one triangle_lipschitz hx (2/5) (by norm_num) hσ 1 2048
    (by rw [e2]; push_cast; exact triangle_period) hl (by decide +kernel) triS hs (1/2) (by norm_num) hD (3/2) (by norm_num) (by decide +kernel)
  rw [e2] at k1 k2 k3 k4
  have hb : ((250 * pow2 (-50) * ((4 : ℕ) * 1 ^ 2 / sumSq 4 triX) * (1 + 3/2) : ℚ) : ℝ) ≤ ((1/1000 : ℚ) : ℝ) := Rat.cast_le.2 (by decide +kernel)
  have hm : min (((1/64 : ℚ)) : ℝ) (1/2) = 1/64 := by norm_num
  rw [hm] at k2 k4
  refine ⟨r, v, v', k1, ?_, k3, ?_⟩
  · refine le_trans (le_of_eq ?_) (k2.trans ((add_le_add le_rfl hb).trans ?_))
    · norm_num
    · norm_num
  · refine le_trans (le_of_eq ?_) (k4.trans ((add_le_add le_rfl hb).trans ?_))
    · norm_num
    · norm_num

/-! ## Sinusoids -/

/-- a call over the reals, with `alpha = 1` and otherwise default arguments, on any values at the times 0, 1, …, `M - 1`: it returns, and every step is a lag -/
theorem real_run {M : ℕ} (hM : 2 ≤ M) (hM' : M ≤ 2 ^ 29) (x : ℕ → ℝ) :
    ∃ d r, NaturalRun (K := ℝ) (dm := M) (f32 := id) (ex := Real.exp) d { alpha := some (.fin 1) } "fractional" r M (fun i : ℕ => 0 + i * 1) 0 x 1 ∧
      ∀ m < M, ∃ n : ℕ, r.lags[n]? = some (.fin (m * 1)) := by
  have hinc : Increasing M fun i : ℕ => (0 : ℝ) + i * 1 := by
    intro i i' h _
    have : (i : ℝ) < i' := by exact_mod_cast h
    simpa using this
  obtain ⟨d, hd, ht, hrow, _⟩ := C03_round_trip (F := Exact (K := ℝ) M id Real.exp) (samples M fun i : ℕ => (0 : ℝ) + i * 1) [samples M x]
    (by simp [samples]; omega) (by simp) (by simp [Rect, samples])
  have hc : Constructed d := .table hd
  have hcast : ((M - 1 : ℕ) : ℝ) = M - 1 := by rw [Nat.cast_sub (by omega)]; norm_num
  have hgap : IsMinGap M (fun i : ℕ => (0 : ℝ) + i * 1) 1 := by
    refine ⟨⟨0, 1, by norm_num, by omega, by norm_num⟩, fun i j hij hj => ?_⟩
    have : (i : ℝ) + 1 ≤ j := by exact_mod_cast hij
    simp
    linarith
  have hspan : (0 : ℝ) + ((M - 1 : ℕ) : ℝ) * 1 - (0 + ((0 : ℕ) : ℝ) * 1) ≤ M := by rw [hcast]; norm_num
  have hfl : ⌊2 * ((0 : ℝ) + ((M - 1 : ℕ) : ℝ) * 1 - (0 + ((0 : ℕ) : ℝ) * 1)) / 1⌋ + 3 < 2 ^ 31 := by
    have e : 2 * ((0 : ℝ) + ((M - 1 : ℕ) : ℝ) * 1 - (0 + ((0 : ℕ) : ℝ) * 1)) / 1 = ((2 * (M - 1 : ℕ) : ℤ) : ℝ) := by push_cast; ring
    rw [e, Int.floor_intCast]
    omega
  obtain ⟨r, hr⟩ : ∃ r, autocorrelation .fabs d { alpha := some (.fin 1) } "natural" "fractional" = .ok r := by
    rcases C21_default_range_partial d hc M _ ht hM hinc hspan 1 hgap hfl { alpha := some (.fin 1) } "fractional" (by unfold KnownWeight; simp)
      (by simp) (by simp) (by simp) with h | ⟨h, _⟩
    · exact h
    · exact absurd rfl h
  obtain ⟨hM0, hn, _⟩ := built_times hc ht
  obtain ⟨δ', h1, h2, hpos⟩ := findMinDiff_gap (dm := (M : ℝ)) (f32 := id) (ex := Real.exp) hM (hinc.sub_const ((0 : ℝ) + ((0 : ℕ) : ℝ) * 1)) (by simp)
  have h2' : IsMinGap M (fun i : ℕ => (0 : ℝ) + i * 1) δ' := by
    obtain ⟨⟨i, j, hij, hj, he⟩, h3⟩ := h2
    refine ⟨⟨i, j, hij, hj, by linarith⟩, fun i j hij hj => ?_⟩
    have := h3 i j hij hj
    linarith
  have := hgap.unique h2'
  subst this
  obtain ⟨n, L, _, _, _, hcorr⟩ := autocorrelation_ok hc.wf hr
  have hlast : lastD d.normT = .fin ((M : ℝ) - 1) := by rw [hn, samples_last hM0, hcast]; simp
  have f1 : r.corr.minLag = .fin (-((M : ℝ) - 1)) := by rw [hcorr, setUp_fields]; simp [Corr.store, Corr.fresh, hlast]
  have f2 : r.corr.maxLag = .fin ((M : ℝ) - 1) := by rw [hcorr, setUp_fields]; simp [Corr.store, Corr.fresh, hlast]
  have f3 : r.corr.lagRes = .fin 1 := by rw [hcorr, setUp_fields, ← h1, ← hn]; simp [Corr.store, Corr.fresh]
  have f4 : r.corr.alpha = .fin 1 := by rw [hcorr, setUp_fields]; simp [Corr.store, Corr.fresh]
  refine ⟨d, r, ⟨hc, ht, hinc, ⟨_, hrow, rfl⟩, hr, by unfold KnownWeight; simp, f4, one_pos⟩, fun m hm => ?_⟩
  obtain ⟨ks, k1, _, k3⟩ := C17_grid .fabs d hc _ "natural" "fractional" r hr _ _ _ f1 f2 f3 one_pos
  have hmem : (m : ℝ) ∈ ks := by
    rw [k3]
    refine .inl ⟨M - 1 + m, ?_, ?_⟩
    · push_cast; rw [hcast]; ring
    · have : (m : ℝ) + 1 ≤ M := by exact_mod_cast hm
      linarith
  obtain ⟨n, hn⟩ := List.getElem?_of_mem hmem
  exact ⟨n, by rw [k1, List.getElem?_map, hn, mul_one]; rfl⟩

/-- C102_sinusoid: a hundred samples of any sinusoid with 0.5 per step -/
example (c a φ : ℝ) (ha : a ≠ 0) : ∃ (r : AcResult (Exact (K := ℝ) (100 : ℕ) id Real.exp)) (n : ℕ) (v : ℝ),
    r.At 0 n (.fin ((30 : ℕ) * 1)) (.fin v) ∧ |v - (1 - (30 : ℕ) / (100 : ℕ)) * cos (1/2 * (30 : ℕ))| ≤ 1/10 := by
  obtain ⟨d, r, h, hl⟩ := real_run (M := 100) (by norm_num) (by norm_num) fun i => c + a * cos (1/2 * i + φ)
  obtain ⟨n, hn⟩ := hl 30 (by norm_num)
  have s1 : (0.46 : ℝ) < sin (1/2) := by
    have := sin_gt_sub_cube (x := 1/2) (by norm_num)
    norm_num at this ⊢
    linarith
  have s2 : (0.24 : ℝ) < sin (1/2/2) := by
    have := sin_gt_sub_cube (x := 1/4) (by norm_num)
    norm_num at this ⊢
    linarith
  have hE : 1 / sin (1/2) + 6 / ((100 : ℕ) * sin (1/2/2) ^ 2) ≤ 4 := by
    have h1 : 1 / sin (1/2) ≤ 1 / 0.46 := one_div_le_one_div_of_le (by norm_num) s1.le
    have h2 : 6 / ((100 : ℕ) * sin (1/2/2) ^ 2) ≤ 6 / (100 * 0.24 ^ 2) := by
      refine div_le_div_of_nonneg_left (by norm_num) (by norm_num) ?_
      push_cast
      exact mul_le_mul_of_nonneg_left (pow_le_pow_left₀ (by norm_num) s2.le 2) (by norm_num)
    norm_num at h1 h2 ⊢
    linarith
  obtain ⟨v, h1, h2⟩ := C102_sinusoid (ω := 1/2) h one_pos (fun _ _ => rfl) (by decide) ha (by norm_num) (by linarith [two_le_pi]) (fun _ _ => rfl)
    (lt_of_le_of_lt hE (by norm_num)) 30 n (by norm_num) hn
  refine ⟨r, n, v, h1, h2.trans ?_⟩
  rw [div_le_iff₀ (by push_cast; push_cast at hE; linarith)]
  push_cast at hE ⊢
  linarith

/-- C102_whole_periods: a period of three samples -/
example : ∃ (r : AcResult (Exact (K := ℝ) (12 : ℕ) id Real.exp)) (n : ℕ) (v : ℝ), r.At 0 n (.fin ((3 : ℕ) * 1)) (.fin v) ∧ v = 3/4 := by
  obtain ⟨d, r, h, hl⟩ := real_run (M := 12) (by norm_num) (by norm_num) fun i => 5 + 2 * cos (2 * π * (4 : ℕ) / (12 : ℕ) * i + 1)
  obtain ⟨n, hn⟩ := hl 3 (by norm_num)
  have := C102_whole_periods h one_pos (fun _ _ => rfl) (by decide) two_ne_zero 4 (by norm_num) (by norm_num) (fun _ _ => rfl) 3 n (by norm_num) hn
  refine ⟨r, n, _, this, ?_⟩
  have e : 2 * π * (4 : ℕ) / (12 : ℕ) * (3 : ℕ) = 2 * π := by push_cast; ring
  rw [e, cos_two_pi, sin_two_pi]
  norm_num

/-- the cosine of quarter turns -/
def quarter (i : ℕ) : ℚ := [1, 0, -1, 0].getD (i % 4) 0

theorem quarter_cos (i : ℕ) : (quarter i : ℝ) = cos (π / 2 * i + 0) := by
  have h := Nat.mod_add_div i 4
  have h4 : i % 4 < 4 := Nat.mod_lt _ (by norm_num)
  generalize i % 4 = a at h h4
  generalize i / 4 = c at h
  have e : π / 2 * (i : ℝ) + 0 = π / 2 * a + c * (2 * π) := by rw [← h]; push_cast; ring
  have hm : i % 4 = a := by omega
  rw [e, cos_add_nat_mul_two_pi, quarter, hm]
  interval_cases a
  · simp
  · simp
  · rw [show π / 2 * ((2 : ℕ) : ℝ) = π by push_cast; ring, cos_pi]; norm_num
  · rw [show π / 2 * ((3 : ℕ) : ℝ) = π / 2 + π by push_cast; ring, cos_add_pi, cos_pi_div_two]; norm_num

/-- C102_binary64: a hundred samples, four per period, at the times 5, 8, 11, … -/
example : ∃ (d : DS B) (r : AcResult B) (v : ℚ), autocorrelation .fabs d {} "natural" "fractional" = .ok r ∧
    r.At 0 119 (.fin 60) (.fin v) ∧ |v - 4/5| ≤ 1/40 := by
  obtain ⟨d, hd, ht, hrow, _⟩ := C03_round_trip (F := B) (samples 100 fun i => ((5 + i * 3 : ℤ) : ℚ) * pow2 0) [samples 100 quarter] (by decide) (by simp)
    (by simp [Rect, samples])
  have h1 : Regular64 d 100 5 3 0 := ⟨.table hd, ht, by norm_num, by norm_num, by norm_num, by norm_num, by norm_num, by norm_num⟩
  have hv : Values64 d 100 0 quarter 1 (pow2 (-40)) := ⟨⟨_, hrow, rfl⟩, by decide +kernel, by decide +kernel, by decide +kernel, by decide +kernel,
    by decide +kernel, .inr (by decide +kernel), by decide +kernel⟩
  have hE : 1 / sin (π / 2) + 6 / ((100 : ℕ) * sin (π / 2 / 2) ^ 2) = 28/25 := by
    rw [show π / 2 / 2 = π / 4 by ring, sin_pi_div_four, sin_pi_div_two, div_pow, Real.sq_sqrt (by norm_num)]
    norm_num
  obtain ⟨r, hr, h2⟩ := C102_binary64 (ω := π / 2) (c := 0) (a := 1) (φ := 0) h1 hv one_ne_zero (by positivity) (by linarith [pi_pos]) 0
    (fun i _ => by rw [quarter_cos]; simp) (by rw [hE]; norm_num) 0 le_rfl one_pos (by rw [hE]; norm_num)
  obtain ⟨v, h3, h4⟩ := h2 20 (by norm_num)
  rw [hE, show π / 2 * ((20 : ℕ) : ℝ) = (5 : ℕ) * (2 * π) by push_cast; ring, cos_nat_mul_two_pi] at h4
  have e : (((20 : ℕ) * 3 : ℤ) : ℚ) * pow2 0 = 60 := by decide +kernel
  rw [e] at h3
  have hb : ((500 * pow2 (-40) * ((100 : ℕ) * 1 ^ 2 / sumSq 100 quarter) : ℚ) : ℝ) ≤ ((1/1000 : ℚ) : ℝ) := Rat.cast_le.2 (by decide +kernel)
  refine ⟨d, r, v, hr, h3, ?_⟩
  have h5 : |(v : ℝ) - 4/5| ≤ 1/40 := by
    rw [show (1 - ((20 : ℕ) : ℝ) / ((100 : ℕ) : ℝ)) * 1 = 4/5 by norm_num] at h4
    refine h4.trans ((add_le_add le_rfl hb).trans ?_)
    norm_num
  have h6 : ((|v - 4/5| : ℚ) : ℝ) ≤ ((1/40 : ℚ) : ℝ) := by push_cast; exact h5
  exact Rat.cast_le.1 h6

end Sacf
