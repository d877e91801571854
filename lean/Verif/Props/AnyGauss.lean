import Verif.Props.AnyLags
import Verif.Props.ErrorExp
import Mathlib.Algebra.BigOperators.Field

/-!
# C70 in binary64 for the Gaussian weight: arbitrary doubles as time stamps, the real exponential
-/

set_option linter.unusedSectionVars false
set_option linter.unusedVariables false

namespace Sacf

open Arith Finset

/-- changing the exponential changes the correlation of the matched samples little -/
theorem matched_exp_close (m M : ℕ) (t x : ℕ → ℚ) (f : ℚ → ℚ) (σ : ℚ) (hf : ∀ x : ℚ, x ≤ 0 → |(f x : ℝ) - Real.exp x| ≤ σ) (α : ℚ)
    (s : ℕ → ℕ) (hN : 0 < sumSq M x) (k : ℚ) {A : ℚ} (hA : 0 ≤ A) (hm : m ≤ M) (hdev : ∀ i < M, |dev M x i| ≤ 2 * A) (hs : ∀ i < m, s i < M) :
    |((matchedAcf m M t x (weight f "gaussian" α) s (sumSq M x) k : ℚ) : ℝ) -
      matchedAcf m M (fun i => (t i : ℝ)) (fun i => (x i : ℝ)) (weight Real.exp "gaussian" (α : ℝ)) s (sumSq M fun i => (x i : ℝ)) (k : ℝ)|
      ≤ (4 * (M * A ^ 2 / sumSq M x) * σ : ℚ) := by
  have hσ : (0 : ℝ) ≤ σ := (abs_nonneg _).trans (hf 0 le_rfl)
  have hσ' : 0 ≤ σ := by exact_mod_cast hσ
  have hN' : (0 : ℝ) < (sumSq M x : ℚ) := by exact_mod_cast hN
  unfold matchedAcf
  rw [sumSq_cast, Rat.cast_div, ← sub_div, abs_div, abs_of_pos hN', div_le_iff₀ hN']
  have e0 : ((4 * (M * A ^ 2 / sumSq M x) * σ : ℚ) : ℝ) * (sumSq M x : ℚ) = ((M : ℚ) * (4 * A ^ 2 * σ) : ℚ) := by
    rw [← Rat.cast_mul]
    congr 1
    field_simp
  rw [e0, Rat.cast_sum, ← sum_sub_distrib]
  refine (abs_sum_le_sum_abs _ _).trans ?_
  have hterm : ∀ i ∈ range m, |((weight f "gaussian" α |t (s i) - (t i + k)| * dev M x i * dev M x (s i) : ℚ) : ℝ) -
      weight Real.exp "gaussian" (α : ℝ) |(t (s i) : ℝ) - ((t i : ℝ) + (k : ℝ))| * dev M (fun i => (x i : ℝ)) i * dev M (fun i => (x i : ℝ)) (s i)|
      ≤ ((4 * A ^ 2 * σ : ℚ) : ℝ) := by
    intro i hi
    rw [mem_range] at hi
    rw [dev_cast, dev_cast]
    have h0 : -(|t (s i) - (t i + k)| ^ 2 / (2 * α ^ 2)) ≤ 0 := neg_nonpos.2 (by positivity)
    have h1 := hf _ h0
    have e1 : weight f "gaussian" α |t (s i) - (t i + k)| = f (-(|t (s i) - (t i + k)| ^ 2 / (2 * α ^ 2))) := rfl
    have e2 : weight Real.exp "gaussian" (α : ℝ) |(t (s i) : ℝ) - ((t i : ℝ) + (k : ℝ))|
        = Real.exp ((-(|t (s i) - (t i + k)| ^ 2 / (2 * α ^ 2)) : ℚ) : ℝ) := by
      show Real.exp _ = _
      push_cast; rfl
    have hd : |dev M x i * dev M x (s i)| ≤ 4 * A ^ 2 := by
      rw [abs_mul]
      have := mul_le_mul (hdev i (by omega)) (hdev _ (hs i hi)) (abs_nonneg _) (by linarith)
      linarith
    have hd' : |((dev M x i : ℚ) : ℝ) * ((dev M x (s i) : ℚ) : ℝ)| ≤ ((4 * A ^ 2 : ℚ) : ℝ) := by exact_mod_cast hd
    rw [e1, e2]
    push_cast at h1 hd' ⊢
    generalize Real.exp _ = E at h1 ⊢
    rw [mul_assoc, mul_assoc, ← sub_mul, abs_mul, mul_comm (4 * (A : ℝ) ^ 2)]
    exact mul_le_mul h1 hd' (abs_nonneg _) hσ
  refine (sum_le_sum hterm).trans ?_
  rw [sum_const, card_range, nsmul_eq_mul]
  push_cast
  exact mul_le_mul_of_nonneg_right (by exact_mod_cast hm) (by positivity)

/-- the change of the exponential is absorbed by the error bound -/
theorem close_slack {u V κ Q v ρ' : ℚ} {ρ : ℝ} (hu0 : 0 ≤ u) (hV1 : u ≤ V) (hκ0 : 0 ≤ κ) (hκ1 : 122 * (V * κ) ≤ 1)
    (h3 : |v - ρ'| ≤ 250 * V * κ * (1 + |ρ'|) + 13 * κ * (10 * Q + u / 100)) (hcl : |(ρ' : ℝ) - ρ| ≤ (4 * κ * (u / 100) : ℚ)) :
    |(v : ℝ) - ρ| ≤ (251 * V * κ : ℚ) * (1 + |ρ|) + (130 * κ * Q : ℚ) := by
  have hVκ : u * κ ≤ V * κ := mul_le_mul_of_nonneg_right hV1 hκ0
  have hV0 : 0 ≤ V := hu0.trans hV1
  have h3' : |(v : ℝ) - ρ'| ≤ (250 * V * κ : ℚ) * (1 + |(ρ' : ℝ)|) + (13 * κ * (10 * Q + u / 100) : ℚ) := by exact_mod_cast h3
  have a0 : ((4 * κ * (u / 100) : ℚ) : ℝ) ≤ (V * κ / 25 : ℚ) := Rat.cast_le.2 (by linarith)
  have a1 : |(ρ' : ℝ)| ≤ |ρ| + (V * κ / 25 : ℚ) := by
    have : (ρ' : ℝ) = ρ + (ρ' - ρ) := by ring
    rw [this]
    exact (abs_add_le _ _).trans (by linarith)
  have a2 : |(v : ℝ) - ρ| ≤ |(v : ℝ) - ρ'| + |(ρ' : ℝ) - ρ| := abs_sub_le _ _ _
  have a3 : (0 : ℝ) ≤ (250 * V * κ : ℚ) := by exact_mod_cast (by positivity)
  have a4 := mul_le_mul_of_nonneg_left a1 a3
  have a5 : ((13 * κ * (10 * Q + u / 100) : ℚ) : ℝ) ≤ (130 * κ * Q + 13 * (V * κ) / 100 : ℚ) := Rat.cast_le.2 (by linarith)
  have a6 : ((250 * V * κ * (V * κ / 25) : ℚ) : ℝ) ≤ (V * κ / 10 : ℚ) := Rat.cast_le.2 (by
    have hVκ0 : 0 ≤ V * κ := mul_nonneg hV0 hκ0
    have : V * κ * (122 * (V * κ)) ≤ V * κ * 1 := mul_le_mul_of_nonneg_left hκ1 hVκ0
    linarith)
  have a7 : (0 : ℝ) ≤ (V * κ : ℚ) := by exact_mod_cast (by positivity)
  have a8 := mul_nonneg a7 (abs_nonneg ρ)
  push_cast at *
  linarith

variable {ex : ℚ → ℚ} {fu : Bool} {M : ℕ} {t x : ℕ → ℚ} {j : ℕ} {A V : ℚ}

/-- the time stamps as real numbers select as the rational ones -/
theorem nearly_cast {m : ℕ} {k ε : ℚ} {s : ℕ → ℕ} (h : NearlySelects M t k ε m s) :
    NearlySelects M (fun i => (t i : ℝ)) (k : ℝ) (ε : ℝ) m s := by
  refine ⟨h.le, fun i hi => ?_, fun i hi hi' => ?_, h.index, fun i hi n hn => ?_⟩
  · exact_mod_cast h.inside i hi
  · exact_mod_cast h.outside i hi hi'
  · exact_mod_cast h.nearest i hi n hn

theorem clear_cast {k ε : ℚ} {s : ℕ → ℕ} (h : ClearCut M t k ε s) : ClearCut M (fun i => (t i : ℝ)) (k : ℝ) (ε : ℝ) s := by
  refine ⟨fun i hi => ?_, fun i hi hle => ?_, fun i hi hle n hn hne => ?_⟩
  · exact_mod_cast h.edge i hi
  · exact h.index i hi (by exact_mod_cast hle)
  · exact_mod_cast h.gap i hi (by exact_mod_cast hle) n hn hne

/-- **C70 in binary64, Gaussian weight**: arbitrary doubles in order as time stamps, a time scale between `2^-500` and `2^500`, times and lags of span `D ≤ 2^500`,
and a library `exp` that errs by at most `2^-53` on negative arguments.  The value is that of the defining formula, evaluated with real numbers and the real
exponential, for a set of samples and a choice of partners that are right up to a few roundings of the times, up to `251 V κ (1 + |ρ|) + 130 κ q / α`
(`κ = M A² / Σ dev²`, `q = 2^-53 D + 2^-1075`). -/
theorem C70_binary64_gaussian (hex : ∀ x : ℚ, x ≤ 0 → |(ex x : ℝ) - Real.exp x| ≤ (pow2 (-53) : ℚ))
    {d : DS (D64 ex fu)} (ht : AnyTimes64 d M t) (hv : Values64 d M j x A V) (ga : LagArgs (D64 ex fu)) (r : AcResult (D64 ex fu))
    (hr : autocorrelation .fabs d ga "natural" "gaussian" = .ok r) (α : ℚ) (hα : r.corr.alpha = .fin α) (hα1 : pow2 (-500) ≤ α) (hα2 : α ≤ pow2 500)
    (n : ℕ) (k : ℚ) (hn : r.lags[n]? = some (.fin k)) (hD : t (M - 1) - t 0 + |k| ≤ pow2 500)
    (hDα : t (M - 1) - t 0 + |k| ≤ pow2 400 * α) :
    ∃ (m : ℕ) (s : ℕ → ℕ) (v : ℚ), NearlySelects M t k (10 * (pow2 (-53) * (t (M - 1) - t 0 + |k|) + pow2 (-1075))) m s ∧
      r.At j n (.fin k) (.fin v) ∧
      |(v : ℝ) - matchedAcf m M (fun i => (t i : ℝ)) (fun i => (x i : ℝ)) (weight Real.exp "gaussian" (α : ℝ)) s (sumSq M fun i => (x i : ℝ)) (k : ℝ)|
        ≤ (251 * V * (M * A ^ 2 / sumSq M x) : ℚ) *
            (1 + |matchedAcf m M (fun i => (t i : ℝ)) (fun i => (x i : ℝ)) (weight Real.exp "gaussian" (α : ℝ)) s (sumSq M fun i => (x i : ℝ)) (k : ℝ)|) +
          (130 * (M * A ^ 2 / sumSq M x) * ((pow2 (-53) * (t (M - 1) - t 0 + |k|) + pow2 (-1075)) / α) : ℚ) := by
  obtain ⟨hmod, hf, hN, hb1, hb2, hb3⟩ := facts64 (ex := ex) (fu := fu) ht.one_le ht.le hv.amin hv.amax hv.unit hv.small hv.bound hv.float
    hv.spread
  have hαp : 0 < α := lt_of_lt_of_le (pow2_pos _) hα1
  have hu0 := pow2_pos (-53)
  have hbig := pow2_le_big
  have hsq : ∀ {n m : ℤ}, n + n = m → pow2 n ^ 2 = pow2 m := fun h => by rw [← h, pow2_add, sq]
  have h8 : 8 * pow2 (-1075) = pow2 (-1072) := by
    rw [show (-1072 : ℤ) = ((3 : ℕ) : ℤ) + -1075 by norm_num, pow2_add, pow2_nat]; norm_num
  have hα2' : α ^ 2 ≤ pow2 1000 := (pow_le_pow_left₀ hαp.le hα2 2).trans_eq (hsq (by norm_num))
  have hα1' : pow2 (-1000) ≤ α ^ 2 := (hsq (by norm_num)).symm.trans_le (pow_le_pow_left₀ (pow2_pos _).le hα1 2)
  have hη0 := pow2_pos (-1075)
  have hT : 0 ≤ t (M - 1) - t 0 := by
    have := ht.order 0 (M - 1) (Nat.zero_le _) (by have := ht.one_le; omega); linarith
  have hk := abs_nonneg k
  have hscale : ∀ {n m : ℤ} (c : ℕ), c + n = m → 2 ^ c * pow2 n = pow2 m := fun c h => by
    rw [← h, pow2_add, pow2_nat]; push_cast; rfl
  have hη500 : pow2 (-1075) ≤ pow2 500 := pow2_mono (by norm_num)
  have h500 := hscale 3 (show ((3 : ℕ) : ℤ) + 500 = 503 by norm_num)
  have h503 := pow2_mono (show (503 : ℤ) ≤ 1023 by norm_num)
  have hσ : 0 < pow2 (-53) / 100 := by linarith
  obtain ⟨f, hf1, hf2⟩ := exists_expLike hσ
  have hη400 : pow2 (-1075) ≤ pow2 400 * α := by
    refine (show pow2 (-1075) ≤ pow2 400 * pow2 (-500) by rw [← pow2_add]; exact pow2_mono (by norm_num)).trans ?_
    exact mul_le_mul_of_nonneg_left hα1 (pow2_pos _).le
  obtain ⟨m, s, v, h1, h2, h3⟩ := C70_gaussian hmod d ht.built ht.times ht.order j hv.row hv.bound hf ga r hr α hα hαp n k hn
    (by linarith) hv.spread hN hb1 hb2 hb3 f hf1 (by linarith) (fun x hx => by
        have h1 := hf2 x hx
        have h2 := hex x hx
        have h3 : ((pow2 (-53) / 100 : ℚ) : ℝ) / 2 ≤ (pow2 (-53) : ℚ) := by
          have : pow2 (-53) / 100 / 2 ≤ pow2 (-53) := by linarith
          exact_mod_cast this
        have : |(ex x : ℝ) - f x| ≤ (2 * pow2 (-53) : ℚ) := by
          rw [abs_le] at h1 h2
          push_cast at h3 h1 ⊢
          rw [abs_le]; constructor <;> linarith
        exact_mod_cast this)
    (by rw [h8]; exact pow2_mono (by norm_num))
    (by
      rw [h8]
      refine (show pow2 (-1072) ≤ pow2 (-53) * pow2 (-500) by rw [← pow2_add]; exact pow2_mono (by norm_num)).trans ?_
      exact mul_le_mul_of_nonneg_left hα1 hu0.le)
    (by
      rw [h8]
      refine (show pow2 (-1072) ≤ pow2 (-53) * pow2 (-1000) by rw [← pow2_add]; exact pow2_mono (by norm_num)).trans ?_
      exact mul_le_mul_of_nonneg_left hα1' hu0.le)
    (by
      have := pow2_pos 500
      linarith)
    (by
      have e1 := hscale 2 (show ((2 : ℕ) : ℤ) + 1000 = 1002 by norm_num)
      have := pow2_mono (show (1002 : ℤ) ≤ 1023 by norm_num)
      linarith)
    (by
      have e1 : 2 * (t (M - 1) - t 0 + |k| + 3 * pow2 (-1075)) ≤ pow2 503 := by linarith
      have e2 := pow_le_pow_left₀ (by linarith) e1 2
      rw [hsq (show (503 : ℤ) + 503 = 1006 by norm_num)] at e2
      have := pow2_mono (show (1006 : ℤ) ≤ 1023 by norm_num)
      linarith)
    (by
      have e0 : 0 ≤ 2 * (t (M - 1) - t 0 + |k| + 3 * pow2 (-1075)) / α := div_nonneg (by linarith) hαp.le
      have e1 : 2 * (t (M - 1) - t 0 + |k| + 3 * pow2 (-1075)) / α ≤ pow2 403 := by
        rw [div_le_iff₀ hαp, ← hscale 3 (show ((3 : ℕ) : ℤ) + 400 = 403 by norm_num)]
        linarith
      have e2 := pow_le_pow_left₀ e0 e1 2
      rw [hsq (show (403 : ℤ) + 403 = 806 by norm_num)] at e2
      have e3 : 2 * ((2 * (t (M - 1) - t 0 + |k| + 3 * pow2 (-1075))) ^ 2 / (2 * α ^ 2))
          = (2 * (t (M - 1) - t 0 + |k| + 3 * pow2 (-1075)) / α) ^ 2 := by
        field_simp
      have := pow2_mono (show (806 : ℤ) ≤ 1023 by norm_num)
      linarith)
  refine ⟨m, s, v, h1, h2, ?_⟩
  have hA0 : 0 ≤ A := hmod.pos.le
  have hV1 : pow2 (-53) ≤ V := by
    have hM1 : (1 : ℚ) ≤ M := by exact_mod_cast ht.one_le
    have := mul_le_mul_of_nonneg_right hM1 hu0.le
    have := hv.unit
    linarith
  have hdev : ∀ i < M, |dev M x i| ≤ 2 * A := by
    intro i hi
    unfold dev
    have hm : |mean M x| ≤ A := by
      unfold mean
      have hM0 : (0 : ℚ) < M := by exact_mod_cast ht.one_le
      rw [abs_div, abs_of_pos hM0, div_le_iff₀ hM0]
      refine (abs_sum_le_sum_abs _ _).trans ((sum_le_sum fun i hi => hv.bound i (mem_range.1 hi)).trans ?_)
      rw [sum_const, card_range, nsmul_eq_mul, mul_comm]
    have := abs_sub (x i) (mean M x)
    have := hv.bound i hi
    linarith
  have hcl := matched_exp_close m M t x f (pow2 (-53) / 100) (fun x hx => (hf2 x hx).trans (by
      have : pow2 (-53) / 100 / 2 ≤ pow2 (-53) / 100 := by linarith
      exact_mod_cast this)) α s hN k hA0 h1.le hdev h1.index
  have hκ1 : 122 * (V * (M * A ^ 2 / sumSq M x)) ≤ 1 := by
    have e : 122 * (V * (M * A ^ 2 / sumSq M x)) = 122 * V * (M * A ^ 2) / sumSq M x := by ring
    rw [e, div_le_one hN]
    exact hv.spread
  exact close_slack hu0.le hV1 (div_nonneg (mul_nonneg (Nat.cast_nonneg _) (sq_nonneg _)) hN.le) hκ1 h3 hcl

/-- **C70 in binary64, Gaussian weight**, no close decisions: the value is close to the defining formula with the nearest sample for every shifted time. -/
theorem C70_binary64_gaussian_clear (hex : ∀ x : ℚ, x ≤ 0 → |(ex x : ℝ) - Real.exp x| ≤ (pow2 (-53) : ℚ))
    {d : DS (D64 ex fu)} (ht : AnyTimes64 d M t) (hv : Values64 d M j x A V) (ga : LagArgs (D64 ex fu)) (r : AcResult (D64 ex fu))
    (hr : autocorrelation .fabs d ga "natural" "gaussian" = .ok r) (α : ℚ) (hα : r.corr.alpha = .fin α) (hα1 : pow2 (-500) ≤ α) (hα2 : α ≤ pow2 500)
    (n : ℕ) (k : ℚ) (hn : r.lags[n]? = some (.fin k)) (hD : t (M - 1) - t 0 + |k| ≤ pow2 500)
    (hDα : t (M - 1) - t 0 + |k| ≤ pow2 400 * α) (s : ℕ → ℕ)
    (hc : ClearCut M t k (10 * (pow2 (-53) * (t (M - 1) - t 0 + |k|) + pow2 (-1075))) s) :
    Selects M t k s ∧ ∃ v : ℚ, r.At j n (.fin k) (.fin v) ∧
      |(v : ℝ) - sacf M (fun i => (t i : ℝ)) (fun i => (x i : ℝ)) (weight Real.exp "gaussian" (α : ℝ)) s (sumSq M fun i => (x i : ℝ)) (k : ℝ)|
        ≤ (251 * V * (M * A ^ 2 / sumSq M x) : ℚ) *
            (1 + |sacf M (fun i => (t i : ℝ)) (fun i => (x i : ℝ)) (weight Real.exp "gaussian" (α : ℝ)) s (sumSq M fun i => (x i : ℝ)) (k : ℝ)|) +
          (130 * (M * A ^ 2 / sumSq M x) * ((pow2 (-53) * (t (M - 1) - t 0 + |k|) + pow2 (-1075)) / α) : ℚ) := by
  obtain ⟨m, s', v, h1, h2, h3⟩ := C70_binary64_gaussian hex ht hv ga r hr α hα hα1 hα2 n k hn hD hDα
  obtain ⟨e1, _⟩ := C70_clear_cut (x := x) (nrm := sumSq M x) h1 hc id
  obtain ⟨_, e2⟩ := C70_clear_cut (x := fun i => (x i : ℝ)) (nrm := sumSq M fun i => (x i : ℝ)) (nearly_cast h1) (clear_cast hc)
    (weight Real.exp "gaussian" (α : ℝ))
  rw [e2] at h3
  exact ⟨e1, v, h2, h3⟩

end Sacf
