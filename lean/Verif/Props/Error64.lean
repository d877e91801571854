import Verif.Props.Error
import Verif.Props.Construct
import Mathlib.Tactic.IntervalCases

/-!
# C61 in binary64
-/

namespace Sacf

theorem roundTo_accurate {p : ℕ} {emin : ℤ} (x : ℚ) :
    |roundTo p emin x - x| ≤ pow2 (-p) * |x| + pow2 (emin - 1) := by
  by_cases hx : x = 0
  · subst hx
    rw [roundTo_zero]
    simpa using (pow2_pos (emin - 1)).le
  refine (roundTo_error x).trans ?_
  have e1 : ∀ n : ℤ, pow2 n / 2 = pow2 (n - 1) := fun n => by
    have : pow2 n = pow2 (n - 1) * pow2 1 := by rw [← pow2_add]; congr 1; ring
    rw [this, pow2_one]; ring
  rw [e1]
  have h1 := pow2_pos (emin - 1)
  have h2 : 0 ≤ pow2 (-p) * |x| := mul_nonneg (pow2_pos _).le (abs_nonneg x)
  rcases max_choice (ilog2 |x| - (p - 1 : ℤ)) emin with h | h
  · have : lastPlace p emin x = ilog2 |x| - (p - 1 : ℤ) := h
    rw [this]
    have e2 : ilog2 |x| - (p - 1 : ℤ) - 1 = -p + ilog2 |x| := by ring
    rw [e2, pow2_add]
    have := mul_le_mul_of_nonneg_left (ilog2_spec (abs_pos.2 hx)).1 (pow2_pos (-p)).le
    linarith
  · have : lastPlace p emin x = emin := h
    rw [this]
    linarith

variable {ex : ℚ → ℚ} {fu : Bool}

theorem accurate64 : Accurate (Rnd.binary64 ex fu) (pow2 (-53)) (pow2 (-1075)) Sacf.big :=
  ⟨(pow2_pos _).le, (pow2_pos _).le, fun x hx => ⟨_, d64_round hx, roundTo_accurate x⟩⟩

/-- `FLT_MAX` -/
def bigF : ℚ := (2 ^ 24 - 1) * pow2 104

theorem toFloat64 {x : ℚ} (h : |x| ≤ bigF) : (Arith.toFloat (.fin x) : D64 ex fu) = .fin (roundTo 24 (-149) x) := by
  have hb : roundTo 24 (-149) bigF = bigF := by
    have := roundTo_fixed (p := 24) (emin := -149) (n := 2 ^ 24 - 1) (e := 104) (by norm_num) (by norm_num) (by norm_num)
    have e : ((2 ^ 24 - 1 : ℤ) : ℚ) * pow2 104 = bigF := by unfold bigF; norm_num
    rwa [e] at this
  rw [abs_le] at h
  have h1 := roundTo_mono (p := 24) (emin := -149) (by norm_num) h.2
  have h2 := roundTo_mono (p := 24) (emin := -149) (by norm_num) h.1
  rw [roundTo_neg, hb] at h2
  rw [hb] at h1
  show (XF.clip (some bigF) (roundTo 24 (-149) x) : D64 ex fu) = _
  unfold XF.clip
  simp only
  rw [if_neg (not_lt.2 h1), if_neg (not_lt.2 h2)]

theorem pow2_le_big : pow2 1023 ≤ Sacf.big := by
  have e1 : pow2 1023 = 2 ^ 52 * pow2 971 := by
    have : (1023 : ℤ) = ((52 : ℕ) : ℤ) + 971 := by norm_num
    rw [this, pow2_add, pow2_nat]; norm_num
  unfold Sacf.big
  rw [e1]
  have := pow2_pos 971
  nlinarith

theorem moderate64 {M : ℕ} {V A : ℚ} (h1 : 1 ≤ M) (h29 : M ≤ 2 ^ 29) (hV : M * pow2 (-53) ≤ V) (hV' : 100 * V ≤ 1)
    (hA : pow2 (-126) ≤ A) (hA' : A ≤ pow2 127) :
    Moderate (Rnd.binary64 ex fu) (pow2 (-53)) (pow2 (-1075)) Sacf.big V A M := by
  have hA0 : 0 < A := lt_of_lt_of_le (pow2_pos _) hA
  have hMle : (M : ℚ) ≤ pow2 29 := by
    have : pow2 29 = 2 ^ 29 := by rw [show (29 : ℤ) = ((29 : ℕ) : ℤ) from rfl, pow2_nat]; norm_num
    rw [this]; exact_mod_cast h29
  have hA2 : A ^ 2 ≤ pow2 254 := by
    have : pow2 254 = pow2 127 * pow2 127 := by rw [← pow2_add]; rfl
    rw [this, sq]; exact mul_le_mul hA' hA' hA0.le (pow2_pos _).le
  have hA2' : pow2 (-252) ≤ A ^ 2 := by
    have : pow2 (-252) = pow2 (-126) * pow2 (-126) := by rw [← pow2_add]; rfl
    rw [this, sq]; exact mul_le_mul hA hA (pow2_pos _).le hA0.le
  have hMA : (M : ℚ) * A ≤ pow2 156 := by
    have : pow2 156 = pow2 29 * pow2 127 := by rw [← pow2_add]; rfl
    rw [this]; exact mul_le_mul hMle hA' hA0.le (pow2_pos _).le
  have hMA2 : (M : ℚ) * A ^ 2 ≤ pow2 283 := by
    have : pow2 283 = pow2 29 * pow2 254 := by rw [← pow2_add]; rfl
    rw [this]; exact mul_le_mul hMle hA2 (by positivity) (pow2_pos _).le
  refine ⟨accurate64, h1, ?_, hA0, by linarith, hV', pow2_mono (by norm_num), ?_, ?_, ?_, ?_, ?_⟩
  · have := round_int64 (ex := ex) (fu := fu) (M : ℤ) (by
      rw [abs_of_nonneg (by omega)]
      have : (M : ℤ) ≤ 2 ^ 29 := by exact_mod_cast h29
      norm_num at this ⊢; omega)
    simpa using this
  · refine (show pow2 (-1075) ≤ pow2 (-53) * pow2 (-126) by rw [← pow2_add]; exact pow2_mono (by norm_num)).trans ?_
    exact mul_le_mul_of_nonneg_left hA (pow2_pos _).le
  · refine (show pow2 (-1075) ≤ pow2 (-53) * pow2 (-252) by rw [← pow2_add]; exact pow2_mono (by norm_num)).trans ?_
    exact mul_le_mul_of_nonneg_left hA2' (pow2_pos _).le
  · refine (mul_le_mul_of_nonneg_left hMA2 (pow2_pos _).le).trans ?_
    rw [← pow2_add]; exact pow2_mono (by norm_num)
  · have e : 4 * pow2 156 = pow2 158 := by
      rw [show (158 : ℤ) = ((2 : ℕ) : ℤ) + 156 by norm_num, pow2_add, pow2_nat]; norm_num
    have := pow2_mono (show (158 : ℤ) ≤ 1023 by norm_num)
    linarith [pow2_le_big]
  · have e : 16 * pow2 283 = pow2 287 := by
      rw [show (287 : ℤ) = ((4 : ℕ) : ℤ) + 283 by norm_num, pow2_add, pow2_nat]; norm_num
    have := pow2_mono (show (287 : ℤ) ≤ 1023 by norm_num)
    have := pow2_pos 283
    linarith [pow2_le_big]

/-- what the error bound asks of the sizes, in binary64 -/
theorem sizes64 {M : ℕ} (hM : 1 ≤ M) (hM29 : M ≤ 2 ^ 29) {A V : ℚ} (hA : pow2 (-126) ≤ A) (hA' : A ≤ pow2 127)
    (hV : M * pow2 (-53) ≤ V) (hV' : 100 * V ≤ 1) {N : ℚ} (hκ : 122 * V * (M * A ^ 2) ≤ N) :
    Moderate (Rnd.binary64 ex fu) (pow2 (-53)) (pow2 (-1075)) Sacf.big V A M ∧
    0 < N ∧ 2 ≤ N * Sacf.big ∧ 24 * (M * A ^ 2) ≤ N * Sacf.big ∧ 4 ≤ Sacf.big := by
  have hmod := moderate64 (ex := ex) (fu := fu) hM hM29 hV hV' hA hA'
  obtain ⟨hu0, hη, hM1, huV, hV0, h1, h2, huA, h3, h4, h5, h6, h7, h8, h9⟩ := hmod.facts
  have hMA : 0 < M * A ^ 2 := by linarith
  have hVpos : 0 < V := lt_of_lt_of_le (pow2_pos (-53)) huV
  have hN : 0 < N := lt_of_lt_of_le (mul_pos (mul_pos (by norm_num) hVpos) hMA) hκ
  have hA2' : pow2 (-252) ≤ A ^ 2 := by
    have : pow2 (-252) = pow2 (-126) * pow2 (-126) := by rw [← pow2_add]; rfl
    rw [this, sq]; exact mul_le_mul hA hA (pow2_pos _).le hmod.pos.le
  have hbig := pow2_le_big
  have hVbig : pow2 970 ≤ V * Sacf.big := by
    have : pow2 970 = pow2 (-53) * pow2 1023 := by rw [← pow2_add]; rfl
    rw [this]; exact mul_le_mul huV hbig (pow2_pos _).le hV0
  have hNbig : 122 * (pow2 970 * (M * A ^ 2)) ≤ N * Sacf.big := by
    have hb0 : 0 < Sacf.big := lt_of_lt_of_le (pow2_pos _) hbig
    have e1 := mul_le_mul_of_nonneg_right hκ hb0.le
    have e2 := mul_le_mul_of_nonneg_right hVbig hMA.le
    linarith
  have hone : (1 : ℚ) ≤ pow2 970 := by rw [← pow2_zero]; exact pow2_mono (by norm_num)
  refine ⟨hmod, hN, ?_, ?_, ?_⟩
  · have e1 : pow2 718 = pow2 970 * pow2 (-252) := by rw [← pow2_add]; rfl
    have e2 : (1 : ℚ) ≤ pow2 718 := by rw [← pow2_zero]; exact pow2_mono (by norm_num)
    have e3 := mul_le_mul_of_nonneg_left (hA2'.trans h8) (pow2_pos 970).le
    linarith
  · have := mul_le_mul_of_nonneg_right hone hMA.le
    linarith
  · have e1 : (4 : ℚ) = pow2 2 := by rw [show (2 : ℤ) = ((2 : ℕ) : ℤ) from rfl, pow2_nat]; norm_num
    rw [e1]; exact (pow2_mono (by norm_num)).trans hbig

/-- narrowing to `float` -/
theorem narrow64 {A y : ℚ} (hA' : A ≤ pow2 127) (hy : |y| ≤ A) : (Arith.toFloat (.fin y) : D64 ex fu) = .fin (roundTo 24 (-149) y) := by
  refine toFloat64 (hy.trans (hA'.trans ?_))
  have e1 : pow2 127 = 2 ^ 23 * pow2 104 := by
    rw [show (127 : ℤ) = ((23 : ℕ) : ℤ) + 104 by norm_num, pow2_add, pow2_nat]; norm_num
  unfold bigF
  rw [e1]
  have := pow2_pos 104
  nlinarith

/-- what the error bound asks of the values, in binary64 -/
theorem facts64 {M : ℕ} (hM : 1 ≤ M) (hM29 : M ≤ 2 ^ 29) {A V : ℚ} (hA : pow2 (-126) ≤ A) (hA' : A ≤ pow2 127)
    (hV : M * pow2 (-53) ≤ V) (hV' : 100 * V ≤ 1) {x : ℕ → ℚ} (hx : ∀ i < M, |x i| ≤ A)
    (hVf : pow2 (-24) ≤ V ∨ ∀ i < M, roundTo 24 (-149) (x i) = x i) (hκ : 122 * V * (M * A ^ 2) ≤ sumSq M x) :
    Moderate (Rnd.binary64 ex fu) (pow2 (-53)) (pow2 (-1075)) Sacf.big V A M ∧
    (∀ i < M, Near (Arith.toFloat (.fin (x i) : D64 ex fu)) (x i) (2 * (V * A))) ∧
    0 < sumSq M x ∧ 2 ≤ sumSq M x * Sacf.big ∧ 24 * (M * A ^ 2) ≤ sumSq M x * Sacf.big ∧ 4 ≤ Sacf.big := by
  obtain ⟨hmod, hN⟩ := sizes64 (ex := ex) (fu := fu) hM hM29 hA hA' hV hV' hκ
  obtain ⟨hu0, hη, hM1, huV, hV0, _⟩ := hmod.facts
  refine ⟨hmod, fun i hi => ?_, hN⟩
  rw [narrow64 hA' (hx i hi)]
  refine ⟨_, rfl, ?_⟩
  rcases hVf with hV24 | hfl
  · refine (roundTo_accurate (x i)).trans ?_
    have e1 : pow2 (-(24 : ℕ)) * |x i| ≤ V * A := mul_le_mul hV24 (hx i hi) (abs_nonneg _) hV0
    have e2 : pow2 (-149 - 1) ≤ V * A := by
      have : pow2 (-149 - 1) = pow2 (-24) * pow2 (-126) := by rw [← pow2_add]; rfl
      rw [this]; exact mul_le_mul hV24 hA (pow2_pos _).le hV0
    linarith
  · rw [hfl i hi, sub_self, abs_zero]
    have := mul_nonneg hV0 hmod.pos.le
    linarith

/-- the largest time difference over a time scale that is not tiny in comparison -/
theorem ratio64 {e : ℤ} {α : ℚ} (hα : pow2 (e - 400) ≤ α) : ((2 ^ 53 : ℤ) : ℚ) * pow2 e / α ≤ pow2 453 := by
  have hα0 : 0 < α := lt_of_lt_of_le (pow2_pos _) hα
  rw [div_le_iff₀ hα0]
  have e1 : ((2 ^ 53 : ℤ) : ℚ) * pow2 e = pow2 453 * pow2 (e - 400) := by
    have : ((2 ^ 53 : ℤ) : ℚ) = pow2 53 := by rw [show (53 : ℤ) = ((53 : ℕ) : ℤ) from rfl, pow2_nat]; norm_num
    rw [this, ← pow2_add, ← pow2_add]; congr 1; ring
  rw [e1]
  exact mul_le_mul_of_nonneg_left hα (pow2_pos _).le

theorem scale64 {e : ℤ} {α : ℚ} (hα : pow2 (e - 400) ≤ α) :
    4 * (((2 ^ 53 : ℤ) : ℚ) * pow2 e / α + (((2 ^ 53 : ℤ) : ℚ) * pow2 e / α) ^ 2) ≤ Sacf.big := by
  have hαp : 0 < α := lt_of_lt_of_le (pow2_pos _) hα
  have e1 := ratio64 hα
  have e0 : 0 ≤ ((2 ^ 53 : ℤ) : ℚ) * pow2 e / α := div_nonneg (mul_nonneg (by norm_num) (pow2_pos _).le) hαp.le
  have e2 := pow_le_pow_left₀ e0 e1 2
  have e3 : pow2 453 ≤ pow2 453 ^ 2 := by
    have : (1 : ℚ) ≤ pow2 453 := by rw [← pow2_zero]; exact pow2_mono (by norm_num)
    nlinarith
  have e4 : 8 * pow2 453 ^ 2 = pow2 909 := by
    rw [show (909 : ℤ) = ((3 : ℕ) : ℤ) + (453 + 453) by norm_num, pow2_add, pow2_nat, pow2_add]; ring
  have := pow2_mono (show (909 : ℤ) ≤ 1023 by norm_num)
  have := pow2_le_big
  linarith

/-- **C61 in binary64, any time stamps**: `M ≤ 2^29` samples at increasing times `τ i · 2^e`, not necessarily regular; any lag grid and a
time scale `α ≥ 2^(e-400)`; a lag `k 2^e` such that `|k|` plus the time span is at most `2^53` units; both fractional weight functions.
The computed value is within `250 V κ (1 + |ρ|)` of the defining formula `ρ`, evaluated exactly. -/
theorem C61_binary64_irregular (e : ℤ) (he : -1074 ≤ e) (he' : e ≤ 970) (d : DS (D64 ex fu)) (hd : Constructed d) (M : ℕ) (τ : ℕ → ℤ)
    (ht : d.timeseries = samples M fun i => (τ i : ℚ) * pow2 e) (hinc : IncreasingZ M τ) (hM : 1 ≤ M) (hM29 : M ≤ 2 ^ 29)
    (A V : ℚ) (hA : pow2 (-126) ≤ A) (hA' : A ≤ pow2 127) (hV : M * pow2 (-53) ≤ V) (hV' : 100 * V ≤ 1)
    (j : ℕ) (x : ℕ → ℚ) (hrow : d.HasRow j (samples M x)) (hx : ∀ i < M, |x i| ≤ A)
    (hVf : pow2 (-24) ≤ V ∨ ∀ i < M, roundTo 24 (-149) (x i) = x i) (hκ : 122 * V * (M * A ^ 2) ≤ sumSq M x)
    (ga : LagArgs (D64 ex fu)) (wt : String) (hw : wt = "fractional" ∨ wt = "fractional_squared") (r : AcResult (D64 ex fu))
    (hr : autocorrelation .fabs d ga "natural" wt = .ok r) (α : ℚ) (hα : r.corr.alpha = .fin α) (hα0 : pow2 (e - 400) ≤ α)
    (n : ℕ) (k : ℤ) (hn : r.lags[n]? = some (.fin (k * pow2 e))) (hk : |k| + (τ (M - 1) - τ 0) ≤ 2 ^ 53)
    (s : ℕ → ℕ) (hs : Selects M (fun i => (τ i : ℚ) * pow2 e) (k * pow2 e) s) :
    ∃ v : ℚ, r.At j n (.fin (k * pow2 e)) (.fin v) ∧
      |v - sacf M (fun i => (τ i : ℚ) * pow2 e) x (weight ex wt α) s (sumSq M x) (k * pow2 e)|
        ≤ 250 * V * (M * A ^ 2 / sumSq M x) *
          (1 + |sacf M (fun i => (τ i : ℚ) * pow2 e) x (weight ex wt α) s (sumSq M x) (k * pow2 e)|) := by
  obtain ⟨hmod, hf, hN, hb1, hb2, hb3⟩ := facts64 (ex := ex) (fu := fu) hM hM29 hA hA' hV hV' hx hVf hκ
  have hαp : 0 < α := lt_of_lt_of_le (pow2_pos _) hα0
  exact C61_error (exactUnit64 (ex := ex) (fu := fu) e he he') hmod d hd τ ht hinc j hrow hx hf ga wt hw r hr α hα hαp n k hn hk
    hκ hN hb1 hb2 hb3 (scale64 hα0) s hs

/-- the Gaussian weight in binary64, with a library `exp` within `2^-52` of the rational function `f` on negative arguments -/
theorem binary64_gaussian (e : ℤ) (he : -1074 ≤ e) (he' : e ≤ 458) (d : DS (D64 ex fu)) (hd : Constructed d) (M : ℕ) (τ : ℕ → ℤ)
    (ht : d.timeseries = samples M fun i => (τ i : ℚ) * pow2 e) (hinc : IncreasingZ M τ) (hM : 1 ≤ M) (hM29 : M ≤ 2 ^ 29)
    (A V : ℚ) (hA : pow2 (-126) ≤ A) (hA' : A ≤ pow2 127) (hV : M * pow2 (-53) ≤ V) (hV' : 100 * V ≤ 1)
    (j : ℕ) (x : ℕ → ℚ) (hrow : d.HasRow j (samples M x)) (hx : ∀ i < M, |x i| ≤ A)
    (hVf : pow2 (-24) ≤ V ∨ ∀ i < M, roundTo 24 (-149) (x i) = x i) (hκ : 122 * V * (M * A ^ 2) ≤ sumSq M x)
    (ga : LagArgs (D64 ex fu)) (r : AcResult (D64 ex fu))
    (hr : autocorrelation .fabs d ga "natural" "gaussian" = .ok r) (α : ℚ) (hα : r.corr.alpha = .fin α)
    (hα0 : pow2 (e - 400) ≤ α) (hα1 : pow2 (-500) ≤ α) (hα2 : α ≤ pow2 500)
    (f : ℚ → ℚ) (σ : ℚ) (hfe : ExpLike f σ) (hσ : 100 * σ ≤ pow2 (-53)) (hacc : ∀ x ≤ 0, |ex x - f x| ≤ pow2 (-52))
    (n : ℕ) (k : ℤ) (hn : r.lags[n]? = some (.fin (k * pow2 e))) (hk : |k| + (τ (M - 1) - τ 0) ≤ 2 ^ 53)
    (s : ℕ → ℕ) (hs : Selects M (fun i => (τ i : ℚ) * pow2 e) (k * pow2 e) s) :
    ∃ v : ℚ, r.At j n (.fin (k * pow2 e)) (.fin v) ∧
      |v - sacf M (fun i => (τ i : ℚ) * pow2 e) x (weight f "gaussian" α) s (sumSq M x) (k * pow2 e)|
        ≤ 250 * V * (M * A ^ 2 / sumSq M x) *
          (1 + |sacf M (fun i => (τ i : ℚ) * pow2 e) x (weight f "gaussian" α) s (sumSq M x) (k * pow2 e)|) := by
  obtain ⟨hmod, hf, hN, hb1, hb2, hb3⟩ := facts64 (ex := ex) (fu := fu) hM hM29 hA hA' hV hV' hx hVf hκ
  have hαp : 0 < α := lt_of_lt_of_le (pow2_pos _) hα0
  have hsq : ∀ {n m : ℤ}, n + n = m → pow2 n ^ 2 = pow2 m := fun h => by rw [← h, pow2_add, sq]
  have h8 : 8 * pow2 (-1075) = pow2 (-1072) := by
    rw [show (-1072 : ℤ) = ((3 : ℕ) : ℤ) + -1075 by norm_num, pow2_add, pow2_nat]; norm_num
  have hbig := pow2_le_big
  have hα2' : α ^ 2 ≤ pow2 1000 := (pow_le_pow_left₀ hαp.le hα2 2).trans_eq (hsq (by norm_num))
  have hα1' : pow2 (-1000) ≤ α ^ 2 := (hsq (by norm_num)).symm.trans_le (pow_le_pow_left₀ (pow2_pos _).le hα1 2)
  have hu0 := pow2_pos (-53)
  have h53 : ((2 ^ 53 : ℤ) : ℚ) = pow2 53 := by rw [show (53 : ℤ) = ((53 : ℕ) : ℤ) from rfl, pow2_nat]; norm_num
  refine C61_gaussian (exactUnit64 (ex := ex) (fu := fu) e he (by omega)) hmod d hd τ ht hinc j hrow hx hf ga r hr α hα hαp n k hn hk
    hκ hN hb1 hb2 hb3 f hfe hσ ?_ ?_ ?_ ?_ ?_ ?_ ?_ ?_ s hs
  · have e1 : 2 * pow2 (-53) = pow2 (-52) := by rw [← pow2_one, ← pow2_add]; rfl
    rw [e1]; exact hacc
  · rw [h8]; exact pow2_mono (by norm_num)
  · rw [h8]
    refine (show pow2 (-1072) ≤ pow2 (-53) * pow2 (-500) by rw [← pow2_add]; exact pow2_mono (by norm_num)).trans ?_
    exact mul_le_mul_of_nonneg_left hα1 hu0.le
  · rw [h8]
    refine (show pow2 (-1072) ≤ pow2 (-53) * pow2 (-1000) by rw [← pow2_add]; exact pow2_mono (by norm_num)).trans ?_
    exact mul_le_mul_of_nonneg_left hα1' hu0.le
  · have e1 : 2 * pow2 500 = pow2 501 := by rw [← pow2_one, ← pow2_add]; rfl
    have := pow2_mono (show (501 : ℤ) ≤ 1023 by norm_num)
    linarith
  · have e1 : 4 * pow2 1000 = pow2 1002 := by
      rw [show (1002 : ℤ) = ((2 : ℕ) : ℤ) + 1000 by norm_num, pow2_add, pow2_nat]; norm_num
    have := pow2_mono (show (1002 : ℤ) ≤ 1023 by norm_num)
    linarith
  · rw [h53, ← pow2_add, hsq rfl]
    exact (pow2_mono (by omega)).trans hbig
  · have e0 : 0 ≤ ((2 ^ 53 : ℤ) : ℚ) * pow2 e / α := div_nonneg (mul_nonneg (by norm_num) (pow2_pos _).le) hαp.le
    have e2 := pow_le_pow_left₀ e0 (ratio64 hα0) 2
    have e3 : 2 * ((((2 ^ 53 : ℤ) : ℚ) * pow2 e) ^ 2 / (2 * α ^ 2)) = (((2 ^ 53 : ℤ) : ℚ) * pow2 e / α) ^ 2 := by
      field_simp
    rw [e3]
    refine e2.trans ((hsq rfl).trans_le ((pow2_mono (by norm_num)).trans hbig))

/-- **C61 in binary64**: `M ≤ 2^29` samples at the times `(a + i p) 2^e`, values of size at most `A` with
`FLT_MIN ≤ A ≤ 2^127`, default call.  With `V = 2^-24`, or `V = M 2^-53` if the values are representable as `float`, every value at a lag
`m p 2^e ≥ 0` is within `500 V κ` of the textbook autocorrelation, `κ = M A² / Σ (x - mean)²`, if `122 V κ ≤ 1`. -/
theorem C61_binary64 (e : ℤ) (he : -1073 ≤ e) (he' : e ≤ 970) (d : DS (D64 ex fu)) (hd : Constructed d) (M : ℕ) (a p : ℤ) (hp : 0 < p)
    (ht : d.timeseries = samples M fun i => ((a + i * p : ℤ) : ℚ) * pow2 e) (hM : 2 ≤ M) (hM29 : M ≤ 2 ^ 29)
    (hB : M * p ≤ 2 ^ 51) (A V : ℚ) (hA : pow2 (-126) ≤ A) (hA' : A ≤ pow2 127) (hV : M * pow2 (-53) ≤ V) (hV' : 100 * V ≤ 1)
    (j : ℕ) (x : ℕ → ℚ) (hrow : d.HasRow j (samples M x)) (hx : ∀ i < M, |x i| ≤ A)
    (hVf : pow2 (-24) ≤ V ∨ ∀ i < M, roundTo 24 (-149) (x i) = x i)
    (hκ : 122 * V * (M * A ^ 2) ≤ sumSq M x) :
    ∃ r, autocorrelation .fabs d {} "natural" "fractional" = .ok r ∧ ∀ m < M, ∃ v : ℚ,
      r.At j (M - 1 + m) (.fin ((m * p : ℤ) * pow2 e)) (.fin v) ∧
      |v - autoCov M x m / sumSq M x| ≤ 500 * V * (M * A ^ 2 / sumSq M x) := by
  have hu := exactUnit64 (ex := ex) (fu := fu) (e - 1) (by omega) (by omega)
  have hpe : pow2 e = 2 * pow2 (e - 1) := by
    rw [← pow2_one, ← pow2_add]; congr 1; ring
  have hscale : ∀ z : ℤ, (z : ℚ) * pow2 e = ((2 * z : ℤ) : ℚ) * pow2 (e - 1) := by
    intro z; rw [hpe]; push_cast; ring
  have ht' : d.timeseries = samples M fun i => ((2 * a + i * (2 * p) : ℤ) : ℚ) * pow2 (e - 1) := by
    rw [ht]
    congr 1
    funext i
    rw [hscale]
    congr 2; ring
  have hM30 : M < 2 ^ 30 := by norm_num at hM29 ⊢; omega
  obtain ⟨r, hr, hl, _⟩ := C60_binary64 (ex := ex) e he he' d hd M a p hp ht hM hM30 hB
  refine ⟨r, hr, fun m hm => ?_⟩
  have hmed := regular_median hu hd hp ht' hM (by linarith)
  obtain ⟨_, _, _, p4⟩ := result_params hd.wf hr
  simp only [Option.getD_none] at p4
  rw [hmed] at p4
  have hpe1 := pow2_pos (e - 1)
  have hMp : (1 : ℚ) ≤ (((M : ℤ) - 1) * p : ℤ) := by
    exact_mod_cast (show (1 : ℤ) ≤ ((M : ℤ) - 1) * p by nlinarith)
  have hpos : (0 : ℚ) < (((M : ℤ) - 1) * p : ℤ) * pow2 (e - 1) := mul_pos (by linarith) hpe1
  obtain ⟨hmod, hf, hN, hb1, hb2, hb3⟩ := facts64 (ex := ex) (fu := fu) (show 1 ≤ M by omega) hM29 hA hA' hV hV' hx hVf hκ
  have hM1 : (1 : ℚ) ≤ M := by exact_mod_cast (show 1 ≤ M by omega)
  have hV0 : 0 ≤ V := (mul_nonneg (by linarith) (pow2_pos (-53)).le).trans hV
  have hbig := pow2_le_big
  have hidx : r.lags[M - 1 + m]? = some (.fin ((m * (2 * p) : ℤ) * pow2 (e - 1))) := by
    rw [hl, List.getElem?_map, List.getElem?_range (by omega)]
    simp only [Option.map_some, Option.some.injEq, XF.fin.injEq]
    have : (((M - 1 + m : ℕ) : ℤ) - (M - 1)) = m := by omega
    rw [this, hscale]
    congr 2; ring
  have htimes : (fun i : ℕ => ((2 * a + i * (2 * p) : ℤ) : ℚ) * pow2 (e - 1))
      = fun i : ℕ => (((2 * a : ℤ) : ℚ) * pow2 (e - 1)) + i * (((2 * p : ℤ) : ℚ) * pow2 (e - 1)) := by
    funext i; push_cast; ring
  have hlag : ((m * (2 * p) : ℤ) : ℚ) * pow2 (e - 1) = m * (((2 * p : ℤ) : ℚ) * pow2 (e - 1)) := by push_cast; ring
  obtain ⟨hsel, heq⟩ := sacf_regular (t0 := ((2 * a : ℤ) : ℚ) * pow2 (e - 1)) (δ := ((2 * p : ℤ) : ℚ) * pow2 (e - 1))
    (mul_pos (by exact_mod_cast (show (0 : ℤ) < 2 * p by omega)) hpe1)
    (w := weight (Rnd.binary64 ex fu).expK "fractional" ((((M : ℤ) - 1) * p : ℤ) * pow2 (e - 1)))
    (weight_zero (by unfold KnownWeight; simp) (by simp) _) M m hm x (sumSq M x)
  rw [← htimes, ← hlag] at hsel heq
  have hMpz : ((M - 1 : ℕ) : ℤ) * (2 * p) ≤ M * (2 * p) := mul_le_mul_of_nonneg_right (by omega) (by omega)
  have hmpz : (m : ℤ) * (2 * p) ≤ M * (2 * p) := mul_le_mul_of_nonneg_right (by omega) (by omega)
  obtain ⟨v, hv1, hv2⟩ := C61_error hu hmod d hd (fun i : ℕ => 2 * a + i * (2 * p)) ht' (fun i i' hij _ => by
      have : (i : ℤ) * (2 * p) < i' * (2 * p) := mul_lt_mul_of_pos_right (by exact_mod_cast hij) (by omega)
      simp only
      linarith) j hrow hx hf {} "fractional" (Or.inl rfl) r hr _ p4 hpos (M - 1 + m) (m * (2 * p)) hidx
    (by
      have h0 : 0 ≤ (m : ℤ) * (2 * p) := mul_nonneg (by omega) (by omega)
      rw [abs_of_nonneg h0]
      push_cast
      linarith) hκ hN hb1 hb2 hb3
    (by
      have e1 : ((2 ^ 53 : ℤ) : ℚ) * pow2 (e - 1) / ((((M : ℤ) - 1) * p : ℤ) * pow2 (e - 1)) ≤ pow2 53 := by
        rw [div_le_iff₀ hpos, ← mul_assoc]
        apply mul_le_mul_of_nonneg_right _ hpe1.le
        rw [show (53 : ℤ) = ((53 : ℕ) : ℤ) from rfl, pow2_nat]
        push_cast at hMp ⊢
        nlinarith
      have e0 : 0 ≤ ((2 ^ 53 : ℤ) : ℚ) * pow2 (e - 1) / ((((M : ℤ) - 1) * p : ℤ) * pow2 (e - 1)) :=
        div_nonneg (mul_nonneg (by norm_num) hpe1.le) hpos.le
      have e2 := pow_le_pow_left₀ e0 e1 2
      have e3 : pow2 53 ≤ pow2 53 ^ 2 := by
        have : (1 : ℚ) ≤ pow2 53 := by rw [← pow2_zero]; exact pow2_mono (by norm_num)
        nlinarith
      have e4 : 8 * pow2 53 ^ 2 = pow2 109 := by
        rw [show (109 : ℤ) = ((3 : ℕ) : ℤ) + (53 + 53) by norm_num, pow2_add, pow2_nat, pow2_add]; ring
      have := pow2_mono (show (109 : ℤ) ≤ 1023 by norm_num)
      linarith) _ hsel
  rw [heq] at hv2
  refine ⟨v, ?_, hv2.trans ?_⟩
  · rw [hscale]
    have e3 : (m : ℤ) * (2 * p) = 2 * (m * p) := by ring
    rw [e3] at hv1
    exact hv1
  · have hρ := autoCov_le (x := x) hm hN.ne'
    have : 0 ≤ 250 * V * (M * A ^ 2 / sumSq M x) := by positivity
    nlinarith

/-! ### a case -/

/-- the doubles nearest to 0.1, 0.2, 0.7, as rationals -/
def eX (i : ℕ) : ℚ := [b64 (1/10), b64 (2/10), b64 (7/10)].getD i 0

/-- C61_binary64 applied to the times 10, 10.25, 10.5 and these values (which are not `float`s), `A = 1`, `V = 2^-24` -/
example : ∃ d r, mkFlat (b [10, 10 + 1/4, 10 + 1/2]) (b [1/10, 2/10, 7/10]) = .ok d ∧ autocorrelation .fabs d = .ok r ∧
    ∃ v : ℚ, r.At 0 3 (.fin (1/4)) (.fin v) ∧ |v - autoCov 3 eX 1 / sumSq 3 eX| ≤ 1 / 2000 := by
  obtain ⟨d, hd, h1, h2⟩ : ∃ d, mkFlat (b [10, 10 + 1/4, 10 + 1/2]) (b [1/10, 2/10, 7/10]) = .ok d ∧
      d.timeseries = (samples 3 fun i => ((40 + i * 1 : ℤ) : ℚ) * pow2 (-2)) ∧ d.data2d = .ok [samples 3 eX] := by
    have key : ((mkFlat (b [10, 10 + 1/4, 10 + 1/2]) (b [1/10, 2/10, 7/10])).bind fun d => .ok (d.timeseries, d.data2d))
        = .ok ((samples 3 fun i => ((40 + i * 1 : ℤ) : ℚ) * pow2 (-2)), .ok [samples 3 eX]) := by decide +kernel
    obtain ⟨d, hd, he⟩ := Res.bind_eq_ok.1 key
    simp only [Res.ok.injEq, Prod.mk.injEq] at he
    exact ⟨d, hd, he.1, he.2⟩
  have hN : (1 / 5 : ℚ) ≤ sumSq 3 eX := by decide +kernel
  have h24 : pow2 (-24) = 1 / 2 ^ 24 := by decide +kernel
  obtain ⟨r, hr, hv⟩ := C61_binary64 (-2) (by norm_num) (by norm_num) d (.flat hd) 3 40 1 one_pos h1 (by norm_num)
    (by norm_num) (by norm_num) 1 (pow2 (-24)) (by decide +kernel) (by decide +kernel) (by decide +kernel) (by decide +kernel)
    0 eX ⟨_, h2, rfl⟩ (by decide +kernel) (Or.inl le_rfl) (by rw [h24]; norm_num; linarith)
  obtain ⟨v, hv1, hv2⟩ := hv 1 (by norm_num)
  refine ⟨d, r, hd, hr, v, ?_, hv2.trans ?_⟩
  · have e : (((1 : ℕ) : ℤ) * 1 : ℤ) * pow2 (-2) = (1/4 : ℚ) := by decide +kernel
    rw [e] at hv1
    exact hv1
  · rw [h24]
    have : ((3 : ℕ) : ℚ) * 1 ^ 2 / sumSq 3 eX ≤ 15 := by
      rw [div_le_iff₀ (by linarith)]; norm_num; linarith
    norm_num at this ⊢
    linarith

/-- times 0, 1, 3 -/
def eT (i : ℕ) : ℤ := [0, 1, 3].getD i 0
/-- values 1, 2, 4 -/
def eY (i : ℕ) : ℚ := [1, 2, 4].getD i 0

theorem eT_inc : IncreasingZ 3 eT := by
  intro i j hij hj
  interval_cases j <;> interval_cases i <;> decide

/-- the integers from -3 to 3 are lags of a default call with a given `alpha`, whatever the exponential function of the library -/
theorem irregular_case (y : ℕ → ℚ) {wt : String} (hw : KnownWeight wt) (α : ℚ := 1) : ∃ (d : DS (D64 ex fu)) (r : AcResult (D64 ex fu)),
    mkFlat (samples 3 fun i => (eT i : ℚ) * pow2 0) (samples 3 y) = .ok d ∧ Constructed d ∧
    d.timeseries = (samples 3 fun i => (eT i : ℚ) * pow2 0) ∧ d.HasRow 0 (samples 3 y) ∧
    autocorrelation .fabs d { alpha := some (.fin α) } "natural" wt = .ok r ∧ r.corr.alpha = .fin α ∧
    ∀ k : ℤ, -3 ≤ k → k ≤ 3 → ∃ n : ℕ, r.lags[n]? = some (.fin (k * pow2 0)) := by
  obtain ⟨d, hd, ht, hrow, _⟩ := C03_round_trip (F := D64 ex fu) (samples 3 fun i => (eT i : ℚ) * pow2 0) [samples 3 y]
    (by simp [samples]) (by simp) (by simp [Rect, samples])
  rw [← (C03_flat_is_one_row _ _ []).1] at hd
  have hc : Constructed d := .flat hd
  obtain ⟨r, hr, ks, hl, _, hmem⟩ := C60_default_lags (exactUnit64 (ex := ex) (fu := fu) 0 (by norm_num) (by norm_num)) d hc 3 eT ht
    (by norm_num) eT_inc 1 ⟨⟨0, 1, by decide⟩, fun i j hij hj => by interval_cases j <;> interval_cases i <;> decide⟩ (by decide) 6
    (by decide) (by norm_num) (fun n hn => round_int64 n (by norm_num at hn ⊢; omega)) (some (.fin α)) wt hw
  refine ⟨d, r, hd, hc, ht, ⟨_, hrow, rfl⟩, hr, (result_params hc.wf hr).2.2.2, fun k h1 h2 => ?_⟩
  have hk : (k : ℚ) * pow2 0 ∈ ks := by
    have e1 : eT (3 - 1) - eT 0 = 3 := by decide
    refine (hmem _).2 (.inl ⟨(k + 3).toNat, ?_, ?_⟩)
    · rw [e1]; omega
    · have : (-(eT (3 - 1) - eT 0) + ((k + 3).toNat : ℤ) * 1 : ℤ) = k := by rw [e1]; omega
      rw [this]
  have h3 : (.fin ((k : ℚ) * pow2 0) : D64 ex fu) ∈ r.lags := by
    rw [hl]; exact List.mem_map_of_mem hk
  exact List.mem_iff_getElem?.1 h3

theorem irregular_selects : Selects 3 (fun i => (eT i : ℚ) * pow2 0) ((2 : ℤ) * pow2 0) fun _ => 2 := by
  unfold Selects IsNearest
  decide +kernel

/-- C61_binary64_irregular applied to the times 0, 1, 3, values 1, 2, 4, `alpha = 1` and the lag 2.  Sample 0 is paired with sample 2 at
distance 1, weight 1/2, and sample 1 with sample 2 at distance 0: `ρ = (-10/9 - 5/9) / (14/3) = -5/14`. -/
example : ∃ (d : DS Sacf.B) (r : AcResult Sacf.B) (n : ℕ) (v : ℚ),
    autocorrelation .fabs d { alpha := some (.fin 1) } "natural" "fractional" = .ok r ∧ r.At 0 n (.fin 2) (.fin v) ∧
    |v - (-5/14)| ≤ 1 / 2000 := by
  obtain ⟨d, r, _, hc, ht, hrow, hr, hα, hlags⟩ := irregular_case (ex := fun x => 1 / (1 - x)) (fu := false) eY (wt := "fractional")
    (by unfold KnownWeight; simp)
  obtain ⟨n, hn⟩ := hlags 2 (by norm_num) (by norm_num)
  obtain ⟨v, hv1, hv2⟩ := C61_binary64_irregular (ex := fun x => 1 / (1 - x)) (fu := false) 0 (by norm_num) (by norm_num) d hc 3 eT ht
    eT_inc (by norm_num) (by norm_num) 4 (pow2 (-24)) (by decide +kernel) (by decide +kernel) (by decide +kernel)
    (by decide +kernel) 0 eY hrow (by decide +kernel) (.inl le_rfl) (by decide +kernel) _ "fractional" (.inl rfl) r hr 1 hα
    (by decide +kernel) n 2 hn (by decide) _ irregular_selects
  refine ⟨d, r, n, v, hr, by simpa [pow2_zero] using hv1, ?_⟩
  have e1 : sacf 3 (fun i => (eT i : ℚ) * pow2 0) eY (weight (fun x => 1 / (1 - x)) "fractional" 1) (fun _ => 2) (sumSq 3 eY)
    ((2 : ℤ) * pow2 0) = -5/14 := by decide +kernel
  rw [e1] at hv2
  refine hv2.trans ?_
  decide +kernel

end Sacf
