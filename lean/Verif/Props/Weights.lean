import Verif.Lemmas.Result
import Verif.Lemmas.Round
import Verif.Spec.Rational
import Mathlib.Analysis.Complex.Exponential

/-!
# The weight functions (C32)

Real numbers with the real exponential function; the two fractional weights also in every rounding.
-/

set_option linter.unusedSectionVars false
set_option linter.unusedSimpArgs false

namespace Sacf

/-- real arithmetic with the exponential function -/
abbrev RealX (dm : ℝ) (f32 : ℝ → ℝ) : Type := Exact dm f32 Real.exp

variable {dm : ℝ} {f32 : ℝ → ℝ}

/-- **C32**: what `getFractionWeights`, `getFractionSquaredWeights`, `getGaussianWeights` append to the weights of an
iterator whose distances are `ds`. -/
theorem C32_values (wt : String) (hw : KnownWeight wt) (f : Corr (RealX dm f32) → CorrIt (RealX dm f32) → CorrIt (RealX dm f32))
    (hf : weightFunction wt = .ok f) (c : Corr (RealX dm f32)) (α : ℝ) (hα : 0 < α) (hc : c.alpha = .fin α)
    (it : CorrIt (RealX dm f32)) (ds : List ℝ) (hds : it.deltaT = ds.map .fin) (h0 : ∀ δ ∈ ds, 0 ≤ δ) :
    (f c it).weights = it.weights ++ ds.map fun δ => .fin (weight Real.exp wt α δ) := by
  obtain ⟨w, hw1, hw2⟩ := planWt_weight (dm := dm) (f32 := f32) (ex := Real.exp) hw hα
  have hfw : f = Corr.applyWeights w := by
    unfold weightFunction at hf
    unfold planWt at hw1
    rcases hw with rfl | rfl | rfl
    · simp only [if_true, Res.ok.injEq] at hf hw1; subst hf hw1; rfl
    · rw [if_neg (by decide), if_pos rfl] at hf hw1
      simp only [Res.ok.injEq] at hf hw1; subst hf hw1; rfl
    · rw [if_neg (by decide), if_neg (by decide), if_pos rfl] at hf hw1
      simp only [Res.ok.injEq] at hf hw1; subst hf hw1; rfl
  rw [hfw]
  simp only [Corr.applyWeights, hds, hc, List.map_map]
  congr 1
  apply List.map_congr_left
  intro δ hδ
  exact hw2 δ (h0 δ hδ)

theorem weight_range (wt : String) (hw : KnownWeight wt) (α : ℝ) (hα : 0 < α) (δ : ℝ) (hδ : 0 ≤ δ) :
    0 < weight Real.exp wt α δ ∧ weight Real.exp wt α δ ≤ 1 ∧ (weight Real.exp wt α δ = 1 ↔ δ = 0) := by
  unfold weight
  rcases hw with rfl | rfl | rfl
  · rw [if_pos rfl]
    have h1 : 0 ≤ δ ^ 2 / (2 * α ^ 2) := by positivity
    refine ⟨Real.exp_pos _, Real.exp_le_one_iff.2 (by linarith), ?_⟩
    rw [Real.exp_eq_one_iff, neg_eq_zero, div_eq_zero_iff]
    have : 2 * α ^ 2 ≠ 0 := by positivity
    simp [this]
  · rw [if_neg (by decide), if_neg (by decide)]
    have h1 : 0 ≤ δ / α := by positivity
    refine ⟨by positivity, by rw [div_le_one (by linarith)]; linarith, ?_⟩
    rw [div_eq_one_iff_eq (by linarith)]
    constructor
    · intro h
      have : δ / α = 0 := by linarith
      rcases div_eq_zero_iff.1 this with h | h
      · exact h
      · exact absurd h hα.ne'
    · rintro rfl; simp
  · rw [if_neg (by decide), if_pos rfl]
    have h1 : 0 ≤ (δ / α) ^ 2 := by positivity
    refine ⟨by positivity, by rw [div_le_one (by linarith)]; linarith, ?_⟩
    rw [div_eq_one_iff_eq (by linarith)]
    constructor
    · intro h
      have : (δ / α) ^ 2 = 0 := by linarith
      have := pow_eq_zero_iff (two_ne_zero) |>.1 this
      rcases div_eq_zero_iff.1 this with h | h
      · exact h
      · exact absurd h hα.ne'
    · rintro rfl; simp

theorem weight_decreasing (wt : String) (hw : KnownWeight wt) (α : ℝ) (hα : 0 < α) (δ δ' : ℝ) (hδ : 0 ≤ δ)
    (h : δ < δ') : weight Real.exp wt α δ' < weight Real.exp wt α δ := by
  have hq : δ / α < δ' / α := div_lt_div_of_pos_right h hα
  have hq0 : 0 ≤ δ / α := by positivity
  unfold weight
  rcases hw with rfl | rfl | rfl
  · rw [if_pos rfl, if_pos rfl, Real.exp_lt_exp, neg_lt_neg_iff]
    apply div_lt_div_of_pos_right _ (by positivity)
    nlinarith
  · rw [if_neg (by decide), if_neg (by decide), if_neg (by decide), if_neg (by decide)]
    exact one_div_lt_one_div_of_lt (by linarith) (by linarith)
  · rw [if_neg (by decide), if_pos rfl, if_neg (by decide), if_pos rfl]
    apply one_div_lt_one_div_of_lt (by positivity)
    nlinarith

theorem weight_ratio (wt : String) (α α' δ δ' : ℝ) (h : δ / α = δ' / α') : weight Real.exp wt α δ = weight Real.exp wt α' δ' := by
  unfold weight
  have e : ∀ δ α : ℝ, δ ^ 2 / (2 * α ^ 2) = (δ / α) ^ 2 / 2 := by
    intro δ α; rw [div_pow, mul_comm, div_div]
  rw [e, e, h]

theorem weight_alpha (wt : String) (hw : KnownWeight wt) (α α' δ : ℝ) (hα : 0 < α) (h : α < α') (hδ : 0 < δ) :
    weight Real.exp wt α δ < weight Real.exp wt α' δ := by
  have hα' : 0 < α' := by linarith
  rw [weight_ratio wt α' α δ (δ * α / α') (by field_simp)]
  apply weight_decreasing wt hw α hα _ _ (by positivity)
  rw [div_lt_iff₀ hα']
  nlinarith

/-! The same about the weights that the three functions compute. -/

section program
variable (wt : String) (hw : KnownWeight wt)
  (f : Corr (RealX dm f32) → CorrIt (RealX dm f32) → CorrIt (RealX dm f32)) (hf : weightFunction wt = .ok f)
  (c : Corr (RealX dm f32)) (α : ℝ) (hα : 0 < α) (hc : c.alpha = .fin α)
  (it : CorrIt (RealX dm f32)) (ds : List ℝ) (hds : it.deltaT = ds.map .fin) (h0 : ∀ δ ∈ ds, 0 ≤ δ)
include hw hf hα hc hds h0

/-- **C32**: one weight per distance is appended; each is in (0, 1], and it is 1 only at distance 0. -/
theorem C32_range : ∃ ws : List ℝ, (f c it).weights = it.weights ++ ws.map .fin ∧ ws.length = ds.length ∧
    ∀ (i : ℕ) (δ w : ℝ), ds[i]? = some δ → ws[i]? = some w → 0 < w ∧ w ≤ 1 ∧ (w = 1 ↔ δ = 0) := by
  refine ⟨ds.map fun δ => weight Real.exp wt α δ, ?_, by simp, ?_⟩
  · rw [C32_values wt hw f hf c α hα hc it ds hds h0, List.map_map]; rfl
  · intro i δ w h1 h2
    rw [List.getElem?_map, h1, Option.map_some, Option.some.injEq] at h2
    subst h2
    exact weight_range wt hw α hα δ (h0 δ (List.mem_iff_getElem?.2 ⟨i, h1⟩))

/-- **C32**: a larger distance gives a strictly smaller weight, equal distances equal weights. -/
theorem C32_decreasing : ∃ ws : List ℝ, (f c it).weights = it.weights ++ ws.map .fin ∧ ws.length = ds.length ∧
    ∀ (i i' : ℕ) (δ δ' w w' : ℝ), ds[i]? = some δ → ws[i]? = some w → ds[i']? = some δ' → ws[i']? = some w' →
      (δ < δ' ↔ w' < w) := by
  refine ⟨ds.map fun δ => weight Real.exp wt α δ, ?_, by simp, ?_⟩
  · rw [C32_values wt hw f hf c α hα hc it ds hds h0, List.map_map]; rfl
  · intro i i' δ δ' w w' h1 h2 h3 h4
    rw [List.getElem?_map, h1, Option.map_some, Option.some.injEq] at h2
    rw [List.getElem?_map, h3, Option.map_some, Option.some.injEq] at h4
    subst h2 h4
    have p1 := h0 δ (List.mem_iff_getElem?.2 ⟨i, h1⟩)
    have p2 := h0 δ' (List.mem_iff_getElem?.2 ⟨i', h3⟩)
    refine ⟨weight_decreasing wt hw α hα δ δ' p1, fun h => ?_⟩
    rcases lt_trichotomy δ δ' with h' | rfl | h'
    · exact h'
    · exact absurd h (lt_irrefl _)
    · exact absurd h (not_lt.2 (weight_decreasing wt hw α hα δ' δ p2 h').le)

/-- **C32**: the weights depend only on distance / `alpha`: multiplying `alpha` and all distances by a positive number
changes nothing. -/
theorem C32_ratio (s : ℝ) (hs : 0 < s) (c' : Corr (RealX dm f32)) (hc' : c'.alpha = .fin (s * α))
    (it' : CorrIt (RealX dm f32)) (hds' : it'.deltaT = ds.map fun δ => .fin (s * δ)) (hw' : it'.weights = it.weights) :
    (f c' it').weights = (f c it).weights := by
  rw [C32_values wt hw f hf c α hα hc it ds hds h0,
    C32_values wt hw f hf c' (s * α) (by positivity) hc' it' (ds.map fun δ => s * δ) (by
      rw [hds', List.map_map]; rfl) (by
      intro δ hδ
      obtain ⟨δ', h1, rfl⟩ := List.mem_map.1 hδ
      have := h0 δ' h1
      positivity), hw', List.map_map]
  congr 1
  apply List.map_congr_left
  intro δ _
  simp only [Function.comp]
  rw [weight_ratio wt (s * α) α (s * δ) δ (by field_simp)]

/-- **C32**: a larger `alpha` gives larger weights (strictly, at positive distances). -/
theorem C32_alpha (α' : ℝ) (hα' : α < α') (c' : Corr (RealX dm f32)) (hc' : c'.alpha = .fin α') :
    ∃ ws ws' : List ℝ, (f c it).weights = it.weights ++ ws.map .fin ∧
      (f c' it).weights = it.weights ++ ws'.map .fin ∧ ws.length = ds.length ∧ ws'.length = ds.length ∧
      ∀ (i : ℕ) (δ w w' : ℝ), ds[i]? = some δ → ws[i]? = some w → ws'[i]? = some w' → 0 < δ → w < w' := by
  refine ⟨ds.map fun δ => weight Real.exp wt α δ, ds.map fun δ => weight Real.exp wt α' δ, ?_, ?_, by simp, by simp, ?_⟩
  · rw [C32_values wt hw f hf c α hα hc it ds hds h0, List.map_map]; rfl
  · rw [C32_values wt hw f hf c' α' (by linarith) hc' it ds hds h0, List.map_map]; rfl
  · intro i δ w w' h1 h2 h3 hδ
    rw [List.getElem?_map, h1, Option.map_some, Option.some.injEq] at h2 h3
    subst h2 h3
    exact weight_alpha wt hw α α' δ hα hα' hδ

end program

section rounded
variable {K : Type} [Field K] [LinearOrder K] [IsStrictOrderedRing K] [FloorRing K] {R : Rnd K}

/-- bounded above and below by doubles -/
theorem fin_of_between {y : XF R} {a b : K} (h1 : Arith.le (.fin a) y = true) (h2 : Arith.le y (.fin b) = true) :
    ∃ z, y = .fin z ∧ a ≤ z ∧ z ≤ b := by
  cases y with
  | nan => exact absurd h1 Bool.false_ne_true
  | ninf => exact absurd h1 Bool.false_ne_true
  | pinf => exact absurd h2 Bool.false_ne_true
  | fin z => simp at h1 h2; exact ⟨z, rfl, h1, h2⟩

theorem one_div_fin {z : K} (hz : z ≠ 0) : (Arith.div Arith.one (.fin z) : XF R) = XF.round (1 / z) := by
  show XF.div _ _ = _
  simp [XF.div, hz]

/-- the reciprocal of a number that is at least 1 -/
theorem recip_range {s : XF R} (h : Arith.le (.fin 1) s = true) :
    ∃ w : K, Arith.div (Arith.one : XF R) s = .fin w ∧ 0 ≤ w ∧ w ≤ 1 := by
  cases s with
  | nan => exact absurd h Bool.false_ne_true
  | ninf => exact absurd h Bool.false_ne_true
  | pinf => exact ⟨0, rfl, le_rfl, zero_le_one⟩
  | fin z =>
    simp at h
    have hz : z ≠ 0 := by linarith
    rw [one_div_fin hz]
    have a1 := round_nonneg (R := R) (show 0 ≤ 1 / z by positivity)
    have a2 := round_mono (R := R) (show 1 / z ≤ 1 by rw [div_le_one (by linarith)]; exact h)
    rw [round_one] at a2
    obtain ⟨w, hw, h3, h4⟩ := fin_of_between a1 a2
    exact ⟨w, hw, h3, h4⟩

theorem recip_anti {s s' : XF R} (h : Arith.le (.fin 1) s = true) (hle : Arith.le s s' = true) {w w' : K}
    (hw : Arith.div (Arith.one : XF R) s = .fin w) (hw' : Arith.div (Arith.one : XF R) s' = .fin w') : w' ≤ w := by
  obtain ⟨v, hv, hv0, hv1⟩ := recip_range h
  rw [hw] at hv; simp at hv; subst hv
  cases s' with
  | nan => cases s <;> exact absurd hle Bool.false_ne_true
  | ninf =>
    have := xf_le_trans h hle
    exact absurd this Bool.false_ne_true
  | pinf =>
    have e : Arith.div (Arith.one : XF R) .pinf = .fin 0 := rfl
    rw [e] at hw'; simp at hw'; rw [← hw']; exact hv0
  | fin z' =>
    obtain ⟨z, rfl, hz1, hzz⟩ := fin_of_between h hle
    rw [one_div_fin (by linarith)] at hw hw'
    have := round_mono (R := R) (show 1 / z' ≤ 1 / z from one_div_le_one_div_of_le (by linarith) hzz)
    rw [hw, hw'] at this
    simpa [XF.le] using this

theorem le_pinf {x : XF R} (h : x ≠ .nan) : Arith.le x .pinf = true := by
  cases x with
  | nan => exact absurd rfl h
  | _ => rfl

theorem one_le_round {x : K} (h : 1 ≤ x) : Arith.le (.fin 1) (XF.round x : XF R) = true := by
  have := round_mono (R := R) h
  rw [round_one] at this; exact this

theorem one_le_add {y : XF R} (h : Arith.le (.fin 0) y = true) : Arith.le (.fin 1) (Arith.add Arith.one y : XF R) = true := by
  cases y with
  | nan => exact absurd h Bool.false_ne_true
  | ninf => exact absurd h Bool.false_ne_true
  | pinf => rfl
  | fin y => simp at h; exact one_le_round (by linarith)

theorem one_add_mono {y y' : XF R} (h : Arith.le (.fin 0) y = true) (hle : Arith.le y y' = true) :
    Arith.le (Arith.add Arith.one y : XF R) (Arith.add Arith.one y') = true := by
  cases y' with
  | nan => cases y <;> exact absurd hle Bool.false_ne_true
  | ninf => have := xf_le_trans h hle; exact absurd this Bool.false_ne_true
  | pinf =>
    have e : (Arith.add Arith.one .pinf : XF R) = .pinf := rfl
    rw [e]
    refine le_pinf ?_
    intro hn
    have := one_le_add h
    rw [hn] at this
    exact absurd this Bool.false_ne_true
  | fin y' =>
    obtain ⟨y, rfl, hy1, hyy⟩ := fin_of_between h hle
    exact round_mono (by linarith)

/-- a square is monotone on non-negative numbers, also when added to 1, contracted or not -/
theorem one_addMul_mono {y y' : XF R} (h : Arith.le (.fin 0) y = true) (hle : Arith.le y y' = true) :
    Arith.le (.fin 1) (Arith.addMul Arith.one y y : XF R) = true ∧
      Arith.le (Arith.addMul Arith.one y y : XF R) (Arith.addMul Arith.one y' y') = true := by
  have hsq : ∀ y : XF R, Arith.le (.fin 0) y = true → Arith.le (.fin 0) (Arith.mul y y) = true := by
    intro y hy
    cases y with
    | nan => exact absurd hy Bool.false_ne_true
    | ninf => exact absurd hy Bool.false_ne_true
    | pinf => rfl
    | fin y => exact round_nonneg (mul_self_nonneg y)
  have h' := xf_le_trans h hle
  cases hf : R.fused with
  | false =>
    rw [addMul_false hf, addMul_false hf]
    refine ⟨one_le_add (hsq y h), one_add_mono (hsq y h) ?_⟩
    cases y' with
    | nan => exact absurd h' Bool.false_ne_true
    | ninf => exact absurd h' Bool.false_ne_true
    | pinf =>
      refine le_pinf ?_
      intro hn
      have := hsq y h
      rw [hn] at this
      exact absurd this Bool.false_ne_true
    | fin y' =>
      obtain ⟨y, rfl, hy, hyy⟩ := fin_of_between h hle
      exact round_mono (mul_le_mul hyy hyy hy (by linarith))
  | true =>
    rw [addMul_true hf, addMul_true hf]
    have hone : ∀ y : XF R, Arith.le (.fin 0) y = true → Arith.le (.fin 1) (XF.fma Arith.one y y) = true := by
      intro y hy
      cases y with
      | nan => exact absurd hy Bool.false_ne_true
      | ninf => exact absurd hy Bool.false_ne_true
      | pinf => rfl
      | fin y => exact one_le_round (by nlinarith [mul_self_nonneg y])
    refine ⟨hone y h, ?_⟩
    cases y' with
    | nan => exact absurd h' Bool.false_ne_true
    | ninf => exact absurd h' Bool.false_ne_true
    | pinf =>
      refine le_pinf ?_
      intro hn
      have := hone y h
      rw [hn] at this
      exact absurd this Bool.false_ne_true
    | fin y' =>
      obtain ⟨y, rfl, hy, hyy⟩ := fin_of_between h hle
      exact round_mono (by have := mul_le_mul hyy hyy hy (by linarith); linarith)

theorem one_div_one : Arith.div (Arith.one : XF R) (.fin 1) = .fin 1 := by
  rw [one_div_fin one_ne_zero, div_one, round_one]

/-- **C32** (any rounding, both fractional weights, contracted or not): the weight of a finite distance `≥ 0` is a number
in [0, 1], it is 1 at distance 0, and it never increases with the distance. -/
theorem C32_rounded (α : K) (hα : 0 < α) :
    ∃ w1 w2 : K → K, (∀ δ, 0 ≤ δ → Corr.fractionWeight (.fin α : XF R) (.fin δ) = .fin (w1 δ)) ∧
      (∀ δ, 0 ≤ δ → Corr.fractionSquaredWeight (.fin α : XF R) (.fin δ) = .fin (w2 δ)) ∧
      (∀ δ, 0 ≤ δ → 0 ≤ w1 δ ∧ w1 δ ≤ 1 ∧ 0 ≤ w2 δ ∧ w2 δ ≤ 1) ∧ w1 0 = 1 ∧ w2 0 = 1 ∧
      ∀ δ δ', 0 ≤ δ → δ ≤ δ' → w1 δ' ≤ w1 δ ∧ w2 δ' ≤ w2 δ := by
  have hdiv : ∀ δ, (Arith.div (.fin δ) (.fin α) : XF R) = XF.round (δ / α) := by
    intro δ; show XF.div _ _ = _; simp [XF.div, hα.ne']
  have hq : ∀ δ, 0 ≤ δ → Arith.le (.fin 0) (Arith.div (.fin δ) (.fin α) : XF R) = true := by
    intro δ hδ; rw [hdiv]; exact round_nonneg (by positivity)
  have hqm : ∀ δ δ', δ ≤ δ' → Arith.le (Arith.div (.fin δ) (.fin α) : XF R) (Arith.div (.fin δ') (.fin α)) = true := by
    intro δ δ' h; rw [hdiv, hdiv]; exact round_mono (div_le_div_of_nonneg_right h hα.le)
  have f1 : ∀ δ, ∃ w, 0 ≤ δ → (Corr.fractionWeight (.fin α : XF R) (.fin δ) = .fin w ∧ 0 ≤ w ∧ w ≤ 1) := by
    intro δ
    by_cases hδ : 0 ≤ δ
    · obtain ⟨w, h⟩ := recip_range (one_le_add (hq δ hδ))
      exact ⟨w, fun _ => h⟩
    · exact ⟨0, fun h => absurd h hδ⟩
  have f2 : ∀ δ, ∃ w, 0 ≤ δ → (Corr.fractionSquaredWeight (.fin α : XF R) (.fin δ) = .fin w ∧ 0 ≤ w ∧ w ≤ 1) := by
    intro δ
    by_cases hδ : 0 ≤ δ
    · obtain ⟨w, h⟩ := recip_range (one_addMul_mono (hq δ hδ) (hqm δ δ le_rfl)).1
      exact ⟨w, fun _ => h⟩
    · exact ⟨0, fun h => absurd h hδ⟩
  choose w1 h1 using f1
  choose w2 h2 using f2
  refine ⟨w1, w2, fun δ hδ => (h1 δ hδ).1, fun δ hδ => (h2 δ hδ).1,
    fun δ hδ => ⟨(h1 δ hδ).2.1, (h1 δ hδ).2.2, (h2 δ hδ).2.1, (h2 δ hδ).2.2⟩, ?_, ?_, ?_⟩
  · have := (h1 0 le_rfl).1
    unfold Corr.fractionWeight at this
    have e : (Arith.add Arith.one (.fin 0) : XF R) = .fin 1 := by
      show XF.round (1 + 0) = _
      rw [add_zero, round_one]
    rw [hdiv, zero_div, round_zero, e, one_div_one] at this
    simp at this; exact this.symm
  · have := (h2 0 le_rfl).1
    unfold Corr.fractionSquaredWeight at this
    rw [hdiv, zero_div, round_zero, one_addMul_zero, one_div_one] at this
    simp at this; exact this.symm
  · intro δ δ' hδ hle
    have hm := one_addMul_mono (hq δ hδ) (hqm δ δ' hle)
    exact ⟨recip_anti (one_le_add (hq δ hδ)) (one_add_mono (hq δ hδ) (hqm δ δ' hle)) (h1 δ hδ).1 (h1 δ' (le_trans hδ hle)).1,
      recip_anti hm.1 hm.2 (h2 δ hδ).1 (h2 δ' (le_trans hδ hle)).1⟩

end rounded

/-- distances 0, 1, 3 with `alpha` 2 -/
example : ((mkFlat (q [0, 1, 3]) (q [1, 2, 6])).bind fun d => (Corr.new d).bind fun c =>
    .ok ((c.setAlpha (.fin 2)).getFractionSquaredWeights
      { CorrIt.new (.fin 0) 1 with deltaT := q [0, 1, 3] }).weights) = .ok (q [1, 4/5, 4/13]) := by decide +kernel

end Sacf
