import Verif.Props.Error64
import Mathlib.Analysis.Complex.Exponential
import Mathlib.Algebra.Order.Archimedean.Real.Basic
import Mathlib.Data.Rat.BigOperators

/-!
# C61 for the Gaussian weight function and the real exponential
-/

namespace Sacf

open Finset

/-- the exponential function has the properties used -/
theorem expLike_exp : ExpLike Real.exp 0 := by
  have key : ∀ x ≤ 0, ∀ y ≤ 0, x ≤ y → Real.exp y - Real.exp x ≤ Real.exp y * (y - x) := by
    intro x _ y _ hxy
    have h1 := Real.add_one_le_exp (x - y)
    have h2 : Real.exp x = Real.exp y * Real.exp (x - y) := by rw [← Real.exp_add]; congr 1; ring
    rw [h2]
    have := mul_le_mul_of_nonneg_left h1 (Real.exp_pos y).le
    linarith
  refine ⟨fun x hx => ⟨(Real.exp_pos x).le, Real.exp_le_one_iff.2 hx⟩, ?_, ?_⟩
  · intro x hx y hy
    rw [add_zero]
    wlog hxy : x ≤ y generalizing x y
    · have := this y hy x hx (le_of_not_ge hxy)
      rwa [abs_sub_comm, abs_sub_comm y x]
    · have := key x hx y hy hxy
      have h0 := Real.exp_le_exp.2 hxy
      rw [abs_of_nonneg (by linarith), abs_of_nonneg (by linarith)]
      have := mul_le_mul_of_nonneg_right (Real.exp_le_one_iff.2 hy) (sub_nonneg.2 hxy)
      linarith
  · intro x hx y hy ε hε0 hε h
    rw [add_zero]
    rw [abs_of_nonpos hx] at h
    have hx0 : 0 ≤ -x := by linarith
    -- the larger argument is at most `x / 2`
    have big : ∀ z, z ≤ x / 2 → Real.exp z * (-x) ≤ 1 := by
      intro z hz
      have h1 := Real.add_one_le_exp (-x / 2)
      have h2 : Real.exp z ≤ Real.exp (x / 2) := Real.exp_le_exp.2 hz
      have h3 := Real.add_one_le_exp (-x / 2 - 1)
      have h4 : Real.exp (-x / 2) = Real.exp (-x / 2 - 1) * Real.exp 1 := by rw [← Real.exp_add]; congr 1; ring
      have h5 : (2 : ℝ) ≤ Real.exp 1 := by have := Real.add_one_le_exp (1 : ℝ); linarith
      have h6 : Real.exp (x / 2) * Real.exp (-x / 2) = 1 := by rw [← Real.exp_add]; simp [neg_div]
      have h7 : -x ≤ Real.exp (-x / 2) := by
        rw [h4]
        have := mul_le_mul_of_nonneg_left h5 (Real.exp_pos (-x / 2 - 1)).le
        linarith
      have h8 := mul_le_mul h2 h7 hx0 (Real.exp_pos _).le
      linarith
    have hεx : ε * -x ≤ -x / 2 := by
      have := mul_le_mul_of_nonneg_right hε hx0
      linarith
    rcases le_total x y with hxy | hxy
    · have e1 := key x hx y hy hxy
      have h0 := Real.exp_le_exp.2 hxy
      rw [abs_of_nonneg (sub_nonneg.2 hxy)] at h
      rw [abs_of_nonneg (by linarith)]
      have e2 := mul_le_mul_of_nonneg_left h (Real.exp_pos y).le
      have e3 := mul_le_mul_of_nonneg_left (big y (by linarith)) hε0
      linarith
    · have e1 := key y hy x hx hxy
      have h0 := Real.exp_le_exp.2 hxy
      rw [abs_of_nonpos (sub_nonpos.2 hxy)] at h
      rw [abs_of_nonpos (by linarith)]
      have e2 := mul_le_mul_of_nonneg_left h (Real.exp_pos x).le
      have e3 := mul_le_mul_of_nonneg_left (big x (by linarith)) hε0
      linarith

/-- a rational function close to the exponential -/
theorem exists_expLike {σ : ℚ} (hσ : 0 < σ) :
    ∃ f : ℚ → ℚ, ExpLike f σ ∧ ∀ x : ℚ, x ≤ 0 → |(f x : ℝ) - Real.exp x| ≤ σ / 2 := by
  have hσ' : (0 : ℝ) < σ := by exact_mod_cast hσ
  have key : ∀ x : ℚ, ∃ y : ℚ, x ≤ 0 → (0 ≤ y ∧ y ≤ 1) ∧ |(y : ℝ) - Real.exp x| ≤ σ / 2 := by
    intro x
    obtain ⟨y, h1, h2⟩ := exists_rat_btwn (show max 0 (Real.exp x - σ / 2) < Real.exp x from
      max_lt (Real.exp_pos _) (by linarith))
    refine ⟨y, fun hx => ⟨⟨?_, ?_⟩, ?_⟩⟩
    · exact_mod_cast (le_max_left _ _).trans h1.le
    · have : Real.exp x ≤ 1 := Real.exp_le_one_iff.2 (by exact_mod_cast hx)
      exact_mod_cast h2.le.trans this
    · have := (le_max_right _ _).trans h1.le
      rw [abs_le]; constructor <;> linarith
  choose f hf using key
  refine ⟨f, ⟨fun x hx => (hf x hx).1, ?_, ?_⟩, fun x hx => (hf x hx).2⟩
  · intro x hx y hy
    have h1 := (hf x hx).2
    have h2 := (hf y hy).2
    have h3 := expLike_exp.lip x (by exact_mod_cast hx) y (by exact_mod_cast hy)
    have : |(f y : ℝ) - f x| ≤ |(y : ℝ) - x| + σ := by
      rw [abs_le] at h1 h2
      rw [add_zero, abs_le] at h3
      rw [abs_le]; constructor <;> linarith
    exact_mod_cast this
  · intro x hx y hy ε hε0 hε h
    have h1 := (hf x hx).2
    have h2 := (hf y hy).2
    have h3 := expLike_exp.rel x (by exact_mod_cast hx) y (by exact_mod_cast hy) ε (by exact_mod_cast hε0)
      (by exact_mod_cast hε) (by exact_mod_cast h)
    have : |(f y : ℝ) - f x| ≤ ε + σ := by
      rw [abs_le] at h1 h2
      rw [add_zero, abs_le] at h3
      rw [abs_le]; constructor <;> linarith
    exact_mod_cast this

theorem dev_cast (M : ℕ) (x : ℕ → ℚ) (i : ℕ) : dev M (fun i => (x i : ℝ)) i = (dev M x i : ℚ) := by
  unfold dev mean; push_cast; rfl

theorem sumSq_cast (M : ℕ) (x : ℕ → ℚ) : sumSq M (fun i => (x i : ℝ)) = (sumSq M x : ℚ) := by
  unfold sumSq; push_cast; exact sum_congr rfl fun i _ => by rw [dev_cast]

/-- changing the exponential changes the autocorrelation little -/
theorem sacf_exp_close (M : ℕ) (t x : ℕ → ℚ) (f : ℚ → ℚ) (σ : ℚ) (hf : ∀ x : ℚ, x ≤ 0 → |(f x : ℝ) - Real.exp x| ≤ σ) (α : ℚ)
    (s : ℕ → ℕ) (hN : 0 < sumSq M x) (k : ℚ) :
    |((sacf M t x (weight f "gaussian" α) s (sumSq M x) k : ℚ) : ℝ) -
      sacf M (fun i => (t i : ℝ)) (fun i => (x i : ℝ)) (weight Real.exp "gaussian" (α : ℝ)) s (sumSq M fun i => (x i : ℝ)) (k : ℝ)|
      ≤ σ * (((∑ i ∈ range M, |dev M x i * dev M x (s i)|) / sumSq M x : ℚ) : ℝ) := by
  have hσ : (0 : ℝ) ≤ σ := (abs_nonneg _).trans (hf 0 le_rfl)
  have hN' : (0 : ℝ) < (sumSq M x : ℚ) := by exact_mod_cast hN
  have hfil : ((range M).filter fun i => (t i : ℝ) + (k : ℝ) ≤ (t (M - 1) : ℝ)) = (range M).filter fun i => t i + k ≤ t (M - 1) := by
    apply filter_congr
    intro i _
    norm_cast
  unfold sacf
  rw [hfil, sumSq_cast, Rat.cast_div, ← sub_div, abs_div, abs_of_pos hN', Rat.cast_div, ← mul_div_assoc]
  apply div_le_div_of_nonneg_right _ hN'.le
  rw [Rat.cast_sum, ← sum_sub_distrib, Rat.cast_sum, mul_sum]
  refine (abs_sum_le_sum_abs _ _).trans ((sum_le_sum fun i _ => ?_).trans
    (sum_le_sum_of_subset_of_nonneg (filter_subset _ _) fun i _ _ => mul_nonneg hσ (by positivity)))
  rw [dev_cast, dev_cast]
  have h0 : -(|t (s i) - (t i + k)| ^ 2 / (2 * α ^ 2)) ≤ 0 := neg_nonpos.2 (by positivity)
  have h1 := hf _ h0
  have e1 : weight f "gaussian" α |t (s i) - (t i + k)| = f (-(|t (s i) - (t i + k)| ^ 2 / (2 * α ^ 2))) := rfl
  have e2 : weight Real.exp "gaussian" (α : ℝ) |(t (s i) : ℝ) - ((t i : ℝ) + (k : ℝ))|
      = Real.exp ((-(|t (s i) - (t i + k)| ^ 2 / (2 * α ^ 2)) : ℚ) : ℝ) := by
    show Real.exp _ = _
    push_cast; rfl
  rw [e1, e2]
  push_cast at h1 ⊢
  generalize Real.exp _ = E at h1 ⊢
  rw [mul_assoc, mul_assoc, ← sub_mul, abs_mul]
  exact mul_le_mul_of_nonneg_right h1 (abs_nonneg _)

variable {ex : ℚ → ℚ} {fu : Bool}

/-- **C61 in binary64 for the Gaussian weight**: times `τ i · 2^e` as in C61_binary64_irregular, a time scale between `2^-500` and `2^500`,
and a library `exp` that errs by at most `2^-53` on negative arguments (one unit in the last place of its results).
The computed value is within `250 V κ (1 + |ρ|)` of the defining formula `ρ`, evaluated with real numbers and the real exponential. -/
theorem C61_binary64_gaussian (hex : ∀ x : ℚ, x ≤ 0 → |(ex x : ℝ) - Real.exp x| ≤ (pow2 (-53) : ℚ))
    (e : ℤ) (he : -1074 ≤ e) (he' : e ≤ 458) (d : DS (D64 ex fu)) (hd : Constructed d) (M : ℕ) (τ : ℕ → ℤ)
    (ht : d.timeseries = samples M fun i => (τ i : ℚ) * pow2 e) (hinc : IncreasingZ M τ) (hM : 1 ≤ M) (hM29 : M ≤ 2 ^ 29)
    (A V : ℚ) (hA : pow2 (-126) ≤ A) (hA' : A ≤ pow2 127) (hV : M * pow2 (-53) ≤ V) (hV' : 100 * V ≤ 1)
    (j : ℕ) (x : ℕ → ℚ) (hrow : d.HasRow j (samples M x)) (hx : ∀ i < M, |x i| ≤ A)
    (hVf : pow2 (-24) ≤ V ∨ ∀ i < M, roundTo 24 (-149) (x i) = x i) (hκ : 122 * V * (M * A ^ 2) ≤ sumSq M x)
    (ga : LagArgs (D64 ex fu)) (r : AcResult (D64 ex fu))
    (hr : autocorrelation .fabs d ga "natural" "gaussian" = .ok r) (α : ℚ) (hα : r.corr.alpha = .fin α)
    (hα0 : pow2 (e - 400) ≤ α) (hα1 : pow2 (-500) ≤ α) (hα2 : α ≤ pow2 500)
    (n : ℕ) (k : ℤ) (hn : r.lags[n]? = some (.fin (k * pow2 e))) (hk : |k| + (τ (M - 1) - τ 0) ≤ 2 ^ 53)
    (s : ℕ → ℕ) (hs : Selects M (fun i => (τ i : ℚ) * pow2 e) (k * pow2 e) s) :
    ∃ v : ℚ, r.At j n (.fin (k * pow2 e)) (.fin v) ∧
      |(v : ℝ) - sacf M (fun i => ((τ i * pow2 e : ℚ) : ℝ)) (fun i => (x i : ℝ)) (weight Real.exp "gaussian" (α : ℝ)) s
          (sumSq M fun i => (x i : ℝ)) ((k * pow2 e : ℚ) : ℝ)|
        ≤ (250 * V * (M * A ^ 2 / sumSq M x) : ℚ) *
          (1 + |sacf M (fun i => ((τ i * pow2 e : ℚ) : ℝ)) (fun i => (x i : ℝ)) (weight Real.exp "gaussian" (α : ℝ)) s
            (sumSq M fun i => (x i : ℝ)) ((k * pow2 e : ℚ) : ℝ)|) := by
  have hN : 0 < sumSq M x := (facts64 (ex := ex) (fu := fu) hM hM29 hA hA' hV hV' hx hVf hκ).2.2.1
  have h53 := pow2_pos (-53)
  have hV0 : 0 ≤ V := (mul_nonneg (Nat.cast_nonneg _) h53.le).trans hV
  have main : ∀ σ : ℚ, 0 < σ → 100 * σ ≤ pow2 (-53) → ∃ (f : ℚ → ℚ) (v : ℚ), r.At j n (.fin (k * pow2 e)) (.fin v) ∧
      (∀ x : ℚ, x ≤ 0 → |(f x : ℝ) - Real.exp x| ≤ σ) ∧
      |v - sacf M (fun i => (τ i : ℚ) * pow2 e) x (weight f "gaussian" α) s (sumSq M x) (k * pow2 e)|
        ≤ 250 * V * (M * A ^ 2 / sumSq M x) *
          (1 + |sacf M (fun i => (τ i : ℚ) * pow2 e) x (weight f "gaussian" α) s (sumSq M x) (k * pow2 e)|) := by
    intro σ hσ hσu
    obtain ⟨f, hf1, hf2⟩ := exists_expLike hσ
    obtain ⟨v, hv1, hv2⟩ := binary64_gaussian (ex := ex) (fu := fu) e he he' d hd M τ ht hinc hM hM29 A V hA hA' hV hV' j x hrow hx hVf
      hκ ga r hr α hα hα0 hα1 hα2 f σ hf1 hσu (fun x hx => by
        have h1 := hf2 x hx
        have h2 := hex x hx
        have e1 : pow2 (-52) = 2 * pow2 (-53) := by rw [← pow2_one, ← pow2_add]; rfl
        have h3 : (σ : ℝ) / 2 ≤ (pow2 (-53) : ℚ) := by
          have : σ / 2 ≤ pow2 (-53) := by linarith
          exact_mod_cast this
        have : |(ex x : ℝ) - f x| ≤ (2 * pow2 (-53) : ℚ) := by
          rw [abs_le] at h1 h2
          push_cast
          rw [abs_le]; constructor <;> linarith
        rw [e1]
        exact_mod_cast this) n k hn hk s hs
    refine ⟨f, v, hv1, fun x hx => (hf2 x hx).trans ?_, hv2⟩
    have : σ / 2 ≤ σ := by linarith
    exact_mod_cast this
  obtain ⟨_, v, hv, _⟩ := main (pow2 (-53) / 100) (by linarith) (by linarith)
  refine ⟨v, hv, ?_⟩
  set ρ := sacf M (fun i => ((τ i * pow2 e : ℚ) : ℝ)) (fun i => (x i : ℝ)) (weight Real.exp "gaussian" (α : ℝ)) s
    (sumSq M fun i => (x i : ℝ)) ((k * pow2 e : ℚ) : ℝ) with hρ
  set c : ℚ := 250 * V * (M * A ^ 2 / sumSq M x) with hc
  have hc0 : 0 ≤ c := by rw [hc]; positivity
  set L : ℚ := (∑ i ∈ range M, |dev M x i * dev M x (s i)|) / sumSq M x with hL
  have hL0 : 0 ≤ L := div_nonneg (sum_nonneg fun _ _ => abs_nonneg _) hN.le
  have step : ∀ σ : ℚ, 0 < σ → 100 * σ ≤ pow2 (-53) → |(v : ℝ) - ρ| ≤ c * (1 + |ρ|) + ((c + 1) * L * σ : ℚ) := by
    intro σ hσ hσu
    obtain ⟨f, v', hv', hf, hb⟩ := main σ hσ hσu
    have hvv : v' = v := by
      obtain ⟨_, row, h1, h2⟩ := hv
      obtain ⟨_, row', h1', h2'⟩ := hv'
      rw [h1] at h1'
      cases h1'
      rw [h2] at h2'
      simpa using h2'.symm
    subst hvv
    have hcl := sacf_exp_close M (fun i => (τ i : ℚ) * pow2 e) x f σ hf α s hN (k * pow2 e)
    rw [← hρ, ← hL] at hcl
    generalize sacf M (fun i => (τ i : ℚ) * pow2 e) x (weight f "gaussian" α) s (sumSq M x) (k * pow2 e) = ρ' at hb hcl
    have hb' : |(v' : ℝ) - ρ'| ≤ c * (1 + |(ρ' : ℝ)|) := by exact_mod_cast hb
    have a1 : |(ρ' : ℝ)| ≤ |ρ| + σ * L := by
      have : (ρ' : ℝ) = ρ + (ρ' - ρ) := by ring
      rw [this]
      exact (abs_add_le _ _).trans (by linarith)
    have a2 : |(v' : ℝ) - ρ| ≤ |(v' : ℝ) - ρ'| + |(ρ' : ℝ) - ρ| := abs_sub_le _ _ _
    have a3 : (0 : ℝ) ≤ c := by exact_mod_cast hc0
    have a4 := mul_le_mul_of_nonneg_left a1 a3
    push_cast
    linarith
  refine le_of_forall_pos_le_add fun ε hε => ?_
  obtain ⟨σ, hσ0, hσ1⟩ := exists_rat_btwn (show (0 : ℝ) < min (ε / ((c + 1) * L + 1 : ℚ)) ((pow2 (-53) / 100 : ℚ) : ℝ) from
    lt_min (div_pos hε (by exact_mod_cast (show 0 < (c + 1) * L + 1 by positivity)))
      (by exact_mod_cast (show 0 < pow2 (-53) / 100 by linarith)))
  have hσ0' : 0 < σ := by exact_mod_cast hσ0
  have h1 := lt_of_lt_of_le hσ1 (min_le_left _ _)
  have h2 : σ < pow2 (-53) / 100 := by exact_mod_cast lt_of_lt_of_le hσ1 (min_le_right _ _)
  refine (step σ hσ0' (by linarith)).trans ?_
  have hpos : (0 : ℝ) < ((c + 1) * L + 1 : ℚ) := by exact_mod_cast (show 0 < (c + 1) * L + 1 by positivity)
  rw [lt_div_iff₀ hpos] at h1
  push_cast at h1 ⊢
  linarith

/-- C61_binary64_gaussian applied to the times 0, 1, 3, values 1, 2, 4, `alpha = 1` and the lag 2, for some library exponential:
`ρ = -(20/9 e^(-1/2) + 5/9) / (14/3) = -(20 e^(-1/2) + 5) / 42` -/
example : ∃ (ex : ℚ → ℚ) (d : DS (D64 ex true)) (r : AcResult (D64 ex true)) (n : ℕ) (v : ℚ),
    mkFlat (samples 3 fun i => (eT i : ℚ) * pow2 0) (samples 3 eY) = .ok d ∧
    autocorrelation .fabs d { alpha := some (.fin 1) } "natural" "gaussian" = .ok r ∧ r.At 0 n (.fin 2) (.fin v) ∧
    |(v : ℝ) - -(20 * Real.exp (-1/2) + 5) / 42| ≤ 1 / 2000 := by
  obtain ⟨ex, _, hex⟩ := exists_expLike (show 0 < pow2 (-53) from pow2_pos _)
  obtain ⟨d, r, hd, hc, ht, hrow, hr, hα, hlags⟩ := irregular_case (ex := ex) (fu := true) eY (wt := "gaussian")
    (by unfold KnownWeight; simp)
  obtain ⟨n, hn⟩ := hlags 2 (by norm_num) (by norm_num)
  obtain ⟨v, hv1, hv2⟩ := C61_binary64_gaussian (ex := ex) (fu := true) (fun x hx => (hex x hx).trans (by
      have : pow2 (-53) / 2 ≤ pow2 (-53) := by have := pow2_pos (-53); linarith
      exact_mod_cast this)) 0 (by norm_num) (by norm_num) d hc 3 eT ht eT_inc (by norm_num) (by norm_num) 4 (pow2 (-24))
    (by decide +kernel) (by decide +kernel) (by decide +kernel) (by decide +kernel) 0 eY hrow (by decide +kernel) (.inl le_rfl)
    (by decide +kernel) _ r hr 1 hα (by decide +kernel) (by decide +kernel) (by decide +kernel) n 2 hn (by decide) _ irregular_selects
  refine ⟨ex, d, r, n, v, hd, hr, by simpa [pow2_zero] using hv1, ?_⟩
  have e1 : sacf 3 (fun i => ((eT i * pow2 0 : ℚ) : ℝ)) (fun i => (eY i : ℝ)) (weight Real.exp "gaussian" ((1 : ℚ) : ℝ)) (fun _ => 2)
      (sumSq 3 fun i => (eY i : ℝ)) (((2 : ℤ) * pow2 0 : ℚ) : ℝ) = -(20 * Real.exp (-1/2) + 5) / 42 := by
    have hf : ((range 3).filter fun i => ((eT i * pow2 0 : ℚ) : ℝ) + (((2 : ℤ) * pow2 0 : ℚ) : ℝ) ≤ ((eT (3 - 1) * pow2 0 : ℚ) : ℝ))
        = {0, 1} := by
      have : ∀ i, (((eT i * pow2 0 : ℚ) : ℝ) + (((2 : ℤ) * pow2 0 : ℚ) : ℝ) ≤ ((eT (3 - 1) * pow2 0 : ℚ) : ℝ)) ↔
          (eT i + 2 ≤ eT 2) := by
        intro i
        rw [pow2_zero, mul_one, mul_one, mul_one]
        norm_cast
      simp only [this]
      decide
    unfold sacf
    rw [hf, sum_pair (by decide)]
    have hg : ∀ δ : ℝ, weight Real.exp "gaussian" ((1 : ℚ) : ℝ) δ = Real.exp (-(δ ^ 2 / 2)) := by
      intro δ
      show Real.exp _ = _
      norm_num
    rw [hg, hg, sumSq_cast, dev_cast, dev_cast, dev_cast, show sumSq 3 eY = 14/3 by decide +kernel,
      show dev 3 eY 0 = -4/3 by decide +kernel, show dev 3 eY 1 = -1/3 by decide +kernel,
      show dev 3 eY 2 = 5/3 by decide +kernel, pow2_zero]
    beta_reduce
    rw [show eT 0 = 0 from rfl, show eT 1 = 1 from rfl, show eT 2 = 3 from rfl]
    norm_num
    ring
  rw [e1] at hv2
  refine hv2.trans ?_
  have e2 : (250 * pow2 (-24) * ((3 : ℕ) * 4 ^ 2 / sumSq 3 eY) : ℚ) ≤ 1 / 4000 := by decide +kernel
  have e3 : ((250 * pow2 (-24) * ((3 : ℕ) * 4 ^ 2 / sumSq 3 eY) : ℚ) : ℝ) ≤ 1 / 4000 := by
    have := (Rat.cast_le (K := ℝ)).2 e2
    norm_num at this ⊢
    exact this
  have e4 : |-(20 * Real.exp (-1/2) + 5) / 42| ≤ 1 := by
    have h1 := Real.exp_pos (-1/2)
    have h2 : Real.exp (-1/2) ≤ 1 := Real.exp_le_one_iff.2 (by norm_num)
    rw [abs_le]; constructor <;> linarith
  have e5 : (0 : ℝ) ≤ 1 + |-(20 * Real.exp (-1/2) + 5) / 42| := by positivity
  have := mul_le_mul_of_nonneg_right e3 e5
  linarith

end Sacf
