import Verif.Props.GapsGauss
import Verif.Props.ErrorExp

/-!
# Concrete cases for the Gaussian weight with the default `alpha` and for reordered values
-/

namespace Sacf

open Finset

/-- C81_default_alpha_gaussian: times 0, 2, 4, 7, 9, 11, lag 3, default `alpha` 11/2 -/
example : ∃ (r : AcResult Q) (v : ℚ), r.At 0 1 (.fin 3) (.fin v) ∧ (v - sacf 6 gT gX (fun _ => 1) gS (sumSq 6 gX) 3) ^ 2 ≤ (9/200) ^ 2 * 2 := by
  obtain ⟨d, r, h1, h2, h3⟩ := runArgs_ok (t := (samples 6 gT : List Q)) (v := samples 6 gX) (wt := "gaussian")
    (g := ⟨some (.fin 3), some (.fin 3), none, none⟩) (P := fun d r => decide (d.timeseries = samples 6 gT ∧ d.data2d = .ok [samples 6 gX] ∧
      r.corr.alpha = .fin (11/2) ∧ r.lags = q [0, 3])) (by decide +kernel)
  obtain ⟨h3, h4, h5, h6⟩ := of_decide_eq_true h3
  have h : NaturalRun (dm := 10 ^ 100) (f32 := id) (ex := fun x => 1 / (1 - x)) d ⟨some (.fin 3), some (.fin 3), none, none⟩ "gaussian" r 6 gT 0 gX (11/2) :=
    ⟨.flat h1, h3, gT_inc, ⟨_, h4, rfl⟩, h2, by unfold KnownWeight; simp, h5, by norm_num⟩
  have hl : r.lags[1]? = some (.fin 3) := by rw [h6]; rfl
  have hc : ⌈(3 : ℚ) / 2⌉₊ = 2 := by rw [Nat.ceil_eq_iff (by norm_num)]; norm_num
  obtain ⟨v, b1, b2⟩ := C81_default_alpha_gaussian h rfl (fun y hy => ⟨(ex_case.2 y hy).1, (ex_case.2 y hy).2.2⟩) (fun _ _ => rfl) (by decide +kernel) (by norm_num)
    gT_gaps (by norm_num) 1 3 (by norm_num) hl gS gT_selects
  rw [hc] at b2
  exact ⟨r, v, b1, b2.trans (by norm_num)⟩

/-- a call without arguments on the times 0, 1, 3: `alpha` is 1 -/
theorem irregular_row {ex : ℚ → ℚ} {fu : Bool} (row : List (D64 ex fu)) (hlen : row.length = 3) {wt : String} (hw : KnownWeight wt) :
    ∃ (d : DS (D64 ex fu)) (r : AcResult (D64 ex fu)),
    Constructed d ∧ d.timeseries = (samples 3 fun i => (eT i : ℚ) * pow2 0) ∧ d.HasRow 0 row ∧
    autocorrelation .fabs d {} "natural" wt = .ok r ∧ r.corr.alpha = .fin 1 ∧
    ∀ k : ℤ, -3 ≤ k → k ≤ 3 → ∃ n : ℕ, r.lags[n]? = some (.fin (k * pow2 0)) := by
  obtain ⟨d, hd, ht, hrow, _⟩ := C03_round_trip (F := D64 ex fu) (samples 3 fun i => (eT i : ℚ) * pow2 0) [row]
    (by simp [samples]) (by simp) (by simp [Rect, samples, hlen])
  rw [← (C03_flat_is_one_row _ _ []).1] at hd
  have hc : Constructed d := .flat hd
  obtain ⟨r, hr, ks, hl, _, hmem⟩ := C60_default_lags (exactUnit64 (ex := ex) (fu := fu) 0 (by norm_num) (by norm_num)) d hc 3 eT ht
    (by norm_num) eT_inc 1 ⟨⟨0, 1, by decide⟩, fun i j hij hj => by interval_cases j <;> interval_cases i <;> decide⟩ (by decide) 6
    (by decide) (by norm_num) (fun n hn => round_int64 n (by norm_num at hn ⊢; omega)) none wt hw
  refine ⟨d, r, hc, ht, ⟨_, hrow, rfl⟩, hr, ?_, fun k h1 h2 => ?_⟩
  · rw [(result_params hc.wf hr).2.2.2]
    show d.tMedian = _
    obtain ⟨_, hnt⟩ := ticks_normT (exactUnit64 (ex := ex) (fu := fu) 0 (by norm_num) (by norm_num)) hc ht (fun i hi => by
      interval_cases i <;> decide)
    obtain ⟨_, _, _, _, _, hb⟩ := hc.built
    have hmed := hb.med
    rw [hnt] at hmed
    have e1 : settMedian (samples 3 (fun i => ((eT i - eT 0 : ℤ) : ℚ) * pow2 0) : List (D64 ex fu)) = .ok (.fin (((1 : ℤ) : ℚ) * pow2 0)) := by
      unfold settMedian
      simp only [samples_length]
      rw [if_neg (by decide), rawGet_eq_ok, samples_getElem? (by norm_num)]
      norm_num [eT]
    rw [e1] at hmed
    have := Res.ok.inj hmed
    rw [← this, pow2_zero]
    norm_num
  have hk : (k : ℚ) * pow2 0 ∈ ks := by
    have e1 : eT (3 - 1) - eT 0 = 3 := by decide
    refine (hmem _).2 (.inl ⟨(k + 3).toNat, ?_, ?_⟩)
    · rw [e1]; omega
    · have : (-(eT (3 - 1) - eT 0) + ((k + 3).toNat : ℤ) * 1 : ℤ) = k := by rw [e1]; omega
      rw [this]
  have h3 : (.fin ((k : ℚ) * pow2 0) : D64 ex fu) ∈ r.lags := by
    rw [hl]; exact List.mem_map_of_mem hk
  exact List.mem_iff_getElem?.1 h3

theorem irregular_default {ex : ℚ → ℚ} {fu : Bool} (y : ℕ → ℚ) {wt : String} (hw : KnownWeight wt) : ∃ (d : DS (D64 ex fu)) (r : AcResult (D64 ex fu)),
    Constructed d ∧ d.timeseries = (samples 3 fun i => (eT i : ℚ) * pow2 0) ∧ d.HasRow 0 (samples 3 y) ∧
    autocorrelation .fabs d {} "natural" wt = .ok r ∧ r.corr.alpha = .fin 1 ∧
    ∀ k : ℤ, -3 ≤ k → k ≤ 3 → ∃ n : ℕ, r.lags[n]? = some (.fin (k * pow2 0)) := irregular_row _ (by simp [samples]) hw

theorem eT_gaps : GapsWithin 3 eT 1 2 := by
  intro i hi
  have : i < 2 := by omega
  interval_cases i <;> decide +kernel

theorem lib_case {ex : ℚ → ℚ} (hex : ∀ x : ℚ, x ≤ 0 → |(ex x : ℝ) - Real.exp x| ≤ (pow2 (-53) : ℚ) / 2) (x : ℚ) (hx : x ≤ 0) :
    |(ex x : ℝ) - Real.exp x| ≤ (pow2 (-53) : ℚ) := (hex x hx).trans (by
  have : (0 : ℝ) ≤ (pow2 (-53) : ℚ) := by exact_mod_cast (pow2_pos (-53)).le
  linarith)

/-- C33_gaps_binary64_gaussian_partial and C81_binary64_gaussian: times 0, 1, 3, values 1, 2, 4, all arguments left out, lag 2, for some library exponential -/
example : ∃ (ex : ℚ → ℚ) (d : DS (D64 ex false)) (r : AcResult (D64 ex false)) (n : ℕ) (v v' : ℚ),
    autocorrelation .fabs d {} "natural" "gaussian" = .ok r ∧ r.At 0 n (.fin ((2 : ℤ) * pow2 0)) (.fin v) ∧ |v| ≤ 151/100 ∧
    r.At 0 n (.fin ((2 : ℤ) * pow2 0)) (.fin v') ∧ |v' + 25/42| ≤ 76/100 := by
  obtain ⟨ex, _, hex⟩ := exists_expLike (show 0 < pow2 (-53) from pow2_pos _)
  obtain ⟨d, r, hc, ht, hrow, hr, hα, hlags⟩ := irregular_default (ex := ex) (fu := false) eY (wt := "gaussian") (by unfold KnownWeight; simp)
  obtain ⟨n, hn⟩ := hlags 2 (by norm_num) (by norm_num)
  have hT : Times64 d 3 eT 0 := ⟨hc, ht, eT_inc, by norm_num, by norm_num, by norm_num, by norm_num⟩
  have hV : Values64 d 3 0 eY 4 (pow2 (-50)) := ⟨hrow, by decide +kernel, by decide +kernel, by decide +kernel, by decide +kernel, by decide +kernel,
    .inr (by decide +kernel), by decide +kernel⟩
  have hg : GaussRun64 d {} r 1 0 := ⟨hr, hα, by decide +kernel, by decide +kernel, by decide +kernel, by norm_num, lib_case hex⟩
  have hc : ⌈((2 : ℤ) : ℚ) / (1 : ℤ)⌉₊ = 2 := by norm_num
  obtain ⟨v, a1, a2⟩ := C33_gaps_binary64_gaussian_partial hT hV hg 1 2 eT_gaps (by norm_num) (by norm_num) n 2 (by norm_num) hn (by decide +kernel) (3/2) (by norm_num)
    (by rw [hc]; norm_num)
  obtain ⟨v', b1, b2⟩ := C81_binary64_gaussian hT hV hg rfl (by norm_num) (by decide +kernel) 1 2 eT_gaps (by norm_num) n 2 (by norm_num) hn (by decide +kernel) _
    irregular_selects (3/2) (by norm_num) (by rw [hc]; norm_num) _ rfl
  have e1 : sacf 3 (fun i => (eT i : ℚ) * pow2 0) eY (fun _ => 1) (fun _ => 2) (sumSq 3 eY) ((2 : ℤ) * pow2 0) = -25/42 := by decide +kernel
  rw [e1, show v' - -25/42 = v' + 25/42 by ring] at b2
  exact ⟨ex, d, r, n, v, v', hr, a1, a2.trans (by decide +kernel), b1, b2.trans (by decide +kernel)⟩

/-- C85_binary64_gaussian: the six orders of 1, 2, 4 at times 0, 1, 3, lag 2, `alpha = 1`: the mean is about `-(1 + e^(-1/2)) / 6` -/
example : ∃ (ex : ℚ → ℚ) (r : Equiv.Perm (Fin 3) → AcResult (D64 ex false)) (n : Equiv.Perm (Fin 3) → ℕ) (v : Equiv.Perm (Fin 3) → ℚ),
    (∀ σ, (r σ).At 0 (n σ) (.fin ((2 : ℤ) * pow2 0)) (.fin (v σ))) ∧ |(∑ σ, (v σ : ℝ)) / 6 + (1 + Real.exp (-1/2)) / 6| ≤ 1/1000 := by
  obtain ⟨ex, _, hex⟩ := exists_expLike (show 0 < pow2 (-53) from pow2_pos _)
  choose d r hc ht hrow hr hα hlags using fun σ : Equiv.Perm (Fin 3) => irregular_default (ex := ex) (fu := false) (reorder eY σ) (wt := "gaussian") (by unfold KnownWeight; simp)
  choose n hn using fun σ => hlags σ 2 (by norm_num) (by norm_num)
  obtain ⟨d0, _, _, _, hrow0, _⟩ := irregular_default (ex := ex) (fu := false) eY (wt := "gaussian") (by unfold KnownWeight; simp)
  have hV : Values64 d0 3 0 eY 4 (pow2 (-50)) := ⟨hrow0, by decide +kernel, by decide +kernel, by decide +kernel, by decide +kernel, by decide +kernel,
    .inr (by decide +kernel), by decide +kernel⟩
  obtain ⟨v, h1, h2⟩ := C85_binary64_gaussian (τ := eT) (e := 0) (α := 1)
    (fun σ => ⟨hc σ, ht σ, eT_inc, by norm_num, by norm_num, by norm_num, by norm_num⟩) (fun σ => hV.reorder (hrow σ))
    (fun σ => ⟨hr σ, hα σ, by decide +kernel, by decide +kernel, by decide +kernel, by norm_num, lib_case hex⟩) n 2 hn (by decide +kernel) _ irregular_selects (3/2) (by norm_num)
    (by decide +kernel)
  refine ⟨ex, r, n, v, h1, ?_⟩
  have e1 : permMean 3 (fun i => ((eT i * pow2 0 : ℚ) : ℝ)) (weight Real.exp "gaussian" ((1 : ℚ) : ℝ)) (fun _ => 2) (((2 : ℤ) * pow2 0 : ℚ) : ℝ)
      = -((1 + Real.exp (-1/2)) / 6) := by
    have hf : ∀ i, (((eT i * pow2 0 : ℚ) : ℝ) + (((2 : ℤ) * pow2 0 : ℚ) : ℝ) ≤ ((eT (3 - 1) * pow2 0 : ℚ) : ℝ)) ↔ (eT i + 2 ≤ eT 2) := by
      intro i
      rw [pow2_zero, mul_one, mul_one, mul_one]
      norm_cast
    have hg : ∀ δ : ℝ, weight Real.exp "gaussian" ((1 : ℚ) : ℝ) δ = Real.exp (-(δ ^ 2 / 2)) := by
      intro δ
      show Real.exp _ = _
      norm_num
    unfold permMean
    simp only [hf, hg]
    rw [show (range 3).filter (fun i => eT i + 2 ≤ eT 2 ∧ 2 = i) = ∅ by decide, show (range 3).filter (fun i => eT i + 2 ≤ eT 2 ∧ 2 ≠ i) = {0, 1} by decide,
      sum_empty, sum_pair (by norm_num), pow2_zero, show eT 0 = 0 from rfl, show eT 1 = 1 from rfl, show eT 2 = 3 from rfl]
    norm_num
    ring
  rw [e1, sub_neg_eq_add, show ((Nat.factorial 3 : ℕ) : ℝ) = 6 by norm_num [Nat.factorial]] at h2
  refine h2.trans ?_
  have e2 : (250 * pow2 (-50) * ((3 : ℕ) * 4 ^ 2 / sumSq 3 eY) * (1 + 3/2) : ℚ) ≤ 1 / 1000 := by decide +kernel
  have := (Rat.cast_le (K := ℝ)).2 e2
  refine this.trans (by norm_num)

end Sacf
