import Verif.Props.AnyGauss

/-!
# A concrete case for C70 with the Gaussian weight
-/

namespace Sacf

open Finset

/-- nearest samples of the times 0, 1, 3 at lag -2 -/
def backSel (i : ℕ) : ℕ := ([0, 0, 1] : List ℕ).getD i 0

theorem back_clear : ClearCut 3 (fun i => (eT i : ℚ) * pow2 0) ((-2 : ℤ) * pow2 0)
    (10 * (pow2 (-53) * ((eT (3 - 1) : ℚ) * pow2 0 - (eT 0 : ℚ) * pow2 0 + |((-2 : ℤ) : ℚ) * pow2 0|) + pow2 (-1075))) backSel :=
  ⟨by decide +kernel, by decide +kernel, by decide +kernel⟩

/-- C70_binary64_gaussian and C70_binary64_gaussian_clear: times 0, 1, 3, values 1, 2, 4, `alpha = 1`, lag -2, for some library exponential.
The shifted times -2, -1, 1 are matched with the samples at 0, 0 and 1: `ρ = (16/9 e^-2 + 4/9 e^(-1/2) - 5/9) / (14/3)`. -/
example : ∃ (ex : ℚ → ℚ) (d : DS (D64 ex true)) (r : AcResult (D64 ex true)) (n : ℕ) (v : ℚ),
    mkFlat (samples 3 fun i => (eT i : ℚ) * pow2 0) (samples 3 eY) = .ok d ∧
    autocorrelation .fabs d { alpha := some (.fin 1) } "natural" "gaussian" = .ok r ∧ r.At 0 n (.fin (-2)) (.fin v) ∧
    |(v : ℝ) - (16 * Real.exp (-2) + 4 * Real.exp (-1/2) - 5) / 42| ≤ 1 / 2000 := by
  obtain ⟨ex, _, hex⟩ := exists_expLike (show 0 < pow2 (-53) from pow2_pos _)
  obtain ⟨d, r, hd, hc, ht, hrow, hr, hα, hlags⟩ := irregular_case (ex := ex) (fu := true) eY (wt := "gaussian")
    (by unfold KnownWeight; simp)
  obtain ⟨n, hn⟩ := hlags (-2) (by norm_num) (by norm_num)
  have hex' : ∀ x : ℚ, x ≤ 0 → |(ex x : ℝ) - Real.exp x| ≤ (pow2 (-53) : ℚ) := fun x hx => (hex x hx).trans (by
      have : pow2 (-53) / 2 ≤ pow2 (-53) := by have := pow2_pos (-53); linarith
      exact_mod_cast this)
  have hT : AnyTimes64 d 3 (fun i => (eT i : ℚ) * pow2 0) := ⟨hc, ht, by
      have h : ∀ j < 3, ∀ i < 3, i ≤ j → (eT i : ℚ) * pow2 0 ≤ (eT j : ℚ) * pow2 0 := by decide +kernel
      exact fun i j hij hj => h j hj i (by omega) hij, by norm_num, by norm_num⟩
  have hV : Values64 d 3 0 eY 4 (pow2 (-24)) := ⟨hrow, by decide +kernel, by decide +kernel, by decide +kernel, by decide +kernel, by decide +kernel,
    .inl le_rfl, by decide +kernel⟩
  obtain ⟨_, s', v', _, hv', _⟩ := C70_binary64_gaussian hex' hT hV _ r hr 1 hα (by decide +kernel) (by decide +kernel) n _ hn (by decide +kernel)
    (by decide +kernel)
  obtain ⟨_, v, hv1, hv2⟩ := C70_binary64_gaussian_clear hex' hT hV _ r hr 1 hα (by decide +kernel) (by decide +kernel) n _ hn (by decide +kernel)
    (by decide +kernel) backSel back_clear
  refine ⟨ex, d, r, n, v, hd, hr, by simpa [pow2_zero] using hv1, ?_⟩
  have e1 : sacf 3 (fun i => ((eT i * pow2 0 : ℚ) : ℝ)) (fun i => (eY i : ℝ)) (weight Real.exp "gaussian" ((1 : ℚ) : ℝ)) backSel
      (sumSq 3 fun i => (eY i : ℝ)) (((-2 : ℤ) * pow2 0 : ℚ) : ℝ) = (16 * Real.exp (-2) + 4 * Real.exp (-1/2) - 5) / 42 := by
    have hf : ((range 3).filter fun i => ((eT i * pow2 0 : ℚ) : ℝ) + (((-2 : ℤ) * pow2 0 : ℚ) : ℝ) ≤ ((eT (3 - 1) * pow2 0 : ℚ) : ℝ))
        = range 3 := by
      have : ∀ i, (((eT i * pow2 0 : ℚ) : ℝ) + (((-2 : ℤ) * pow2 0 : ℚ) : ℝ) ≤ ((eT (3 - 1) * pow2 0 : ℚ) : ℝ)) ↔
          (eT i + -2 ≤ eT 2) := by
        intro i
        rw [pow2_zero, mul_one, mul_one, mul_one]
        norm_cast
      simp only [this]
      decide
    unfold sacf
    rw [hf, sum_range_succ, sum_range_succ, sum_range_one]
    have hg : ∀ δ : ℝ, weight Real.exp "gaussian" ((1 : ℚ) : ℝ) δ = Real.exp (-(δ ^ 2 / 2)) := by
      intro δ
      show Real.exp _ = _
      norm_num
    rw [hg, hg, hg, sumSq_cast, show backSel 0 = 0 from rfl, show backSel 1 = 0 from rfl, show backSel 2 = 1 from rfl,
      dev_cast, dev_cast, dev_cast, show sumSq 3 eY = 14/3 by decide +kernel,
      show dev 3 eY 0 = -4/3 by decide +kernel, show dev 3 eY 1 = -1/3 by decide +kernel,
      show dev 3 eY 2 = 5/3 by decide +kernel, pow2_zero]
    beta_reduce
    rw [show eT 0 = 0 from rfl, show eT 1 = 1 from rfl, show eT 2 = 3 from rfl]
    norm_num
    ring
  rw [e1] at hv2
  refine hv2.trans ?_
  have e2 : (251 * pow2 (-24) * ((3 : ℕ) * 4 ^ 2 / sumSq 3 eY) : ℚ) ≤ 1 / 6000 := by decide +kernel
  have e3 : ((251 * pow2 (-24) * ((3 : ℕ) * 4 ^ 2 / sumSq 3 eY) : ℚ) : ℝ) ≤ 1 / 6000 := by
    have := (Rat.cast_le (K := ℝ)).2 e2
    norm_num at this ⊢
    exact this
  have e6 : (130 * ((3 : ℕ) * 4 ^ 2 / sumSq 3 eY) * ((pow2 (-53) * ((eT (3 - 1) : ℚ) * pow2 0 - (eT 0 : ℚ) * pow2 0 + |((-2 : ℤ) : ℚ) * pow2 0|) + pow2 (-1075)) / 1) : ℚ)
      ≤ 1 / 10000 := by decide +kernel
  have e7 := (Rat.cast_le (K := ℝ)).2 e6
  have e4 : |(16 * Real.exp (-2) + 4 * Real.exp (-1/2) - 5) / 42| ≤ 1 := by
    have h1 := Real.exp_pos (-1/2)
    have h2 : Real.exp (-1/2) ≤ 1 := Real.exp_le_one_iff.2 (by norm_num)
    have h3 := Real.exp_pos (-2)
    have h4 : Real.exp (-2) ≤ 1 := Real.exp_le_one_iff.2 (by norm_num)
    rw [abs_le]; constructor <;> linarith
  have e5 : (0 : ℝ) ≤ 1 + |(16 * Real.exp (-2) + 4 * Real.exp (-1/2) - 5) / 42| := by positivity
  have := mul_le_mul_of_nonneg_right e3 e5
  refine (add_le_add this e7).trans ?_
  have e8 : (((1 : ℚ) / 10000 : ℚ) : ℝ) = 1 / 10000 := by norm_num
  rw [e8]
  linarith

end Sacf
