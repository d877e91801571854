import Verif.Lemmas.Error
import Verif.Props.Units
import Verif.Props.Acf

/-!
# How far the computed correlations are from the exact ones (C61)

Time stamps on an exactly representable grid, so that lags, selection and distances carry no error (C60).  The sums, the
mean, the weights, the narrowing to `float` in the normaliser and the final product are all rounded; the bound below
covers all of them.  It is proportional to the condition number `κ = M A² / Σ (x - mean)²`.
-/

set_option linter.unusedSectionVars false
set_option linter.unusedVariables false
set_option exponentiation.threshold 3000

namespace Sacf

open Arith Finset

variable {K : Type} [Field K] [LinearOrder K] [IsStrictOrderedRing K] [FloorRing K] {R : Rnd K} {u η big V A : K} {M : ℕ}
  {x : ℕ → K}

/-! ### weights -/

theorem near_recip (h : Accurate R u η big) (hu : 100 * u ≤ 1) (hη : η ≤ u) {D : K} {Dh : XF R} (hD : 1 ≤ D) (hbig : 2 ≤ big)
    (hn : Near Dh D (7 * u * D)) : Near (Arith.div Arith.one Dh) (1 / D) (10 * u) := by
  obtain ⟨y, rfl, hy⟩ := hn
  have hu0 := h.u_nonneg
  have hD0 : 0 < D := by linarith
  have huD : 100 * u * D ≤ 1 * D := mul_le_mul_of_nonneg_right hu hD0.le
  have hy1 : 93 / 100 * D ≤ y := by have := (abs_le.1 hy).1; linarith
  have hy0 : 0 < y := by linarith
  have hone : (Arith.div Arith.one (.fin y) : XF R) = XF.round (1 / y) := by
    show (if y = 0 then _ else XF.round (1 / y)) = _
    rw [if_neg hy0.ne']
  rw [hone]
  have habs : |1 / y| ≤ 108 / 100 := by
    rw [abs_of_pos (by positivity), div_le_iff₀ hy0]; linarith
  have hd : |1 / y - 1 / D| ≤ 76 / 10 * u := by
    have e1 : 1 / y - 1 / D = (D - y) / (y * D) := by field_simp
    rw [e1, abs_div, abs_of_pos (mul_pos hy0 hD0), div_le_iff₀ (mul_pos hy0 hD0), abs_sub_comm]
    have : u * D * (93 / 100) ≤ u * D * y := mul_le_mul_of_nonneg_left (by linarith) (mul_nonneg hu0 hD0.le)
    have : 0 ≤ u * D := mul_nonneg hu0 hD0.le
    linarith
  refine (near_round h habs (by linarith) hd).mono ?_
  linarith

/-- the fractional weights are computed within `10 u` -/
theorem near_weight (h : Accurate R u η big) (hu : 100 * u ≤ 1) (hη : η ≤ u) (hbig : 4 ≤ big) {wt : String}
    (hw : wt = "fractional" ∨ wt = "fractional_squared") {α δ : K} (hα : 0 < α) (hδ : 0 ≤ δ)
    (hbig' : 4 * (δ / α + (δ / α) ^ 2) ≤ big) (e : K → K) :
    Near (fweight wt (.fin α) (.fin δ) : XF R) (weight e wt α δ) (10 * u) ∧ |weight e wt α δ| ≤ 1 := by
  have hu0 := h.u_nonneg
  set q := δ / α with hq
  have hq0 : 0 ≤ q := div_nonneg hδ hα.le
  have hdiv : (Arith.div (.fin δ) (.fin α) : XF R) = XF.round q := by
    show (if α = 0 then _ else XF.round (δ / α)) = _
    rw [if_neg hα.ne']
  have huq : 0 ≤ u * q := mul_nonneg hu0 hq0
  have hq2 : 0 ≤ q ^ 2 := sq_nonneg q
  have hnq : Near (XF.round q : XF R) q (u * q + u) := by
    refine (near_round h (Z := q) (e := 0) (abs_of_nonneg hq0).le (by linarith) (by simp)).mono (by linarith)
  rcases hw with rfl | rfl
  · have e1 : weight e "fractional" α δ = 1 / (1 + q) := rfl
    have e2 : (fweight "fractional" (.fin α) (.fin δ) : XF R) = Arith.div Arith.one (Arith.add (.fin 1) (XF.round q)) := by
      rw [← hdiv]; rfl
    rw [e1, e2]
    constructor
    · refine near_recip h hu hη (by linarith) (by linarith) ?_
      have huqu : 100 * u * (u * q + u) ≤ 1 * (u * q + u) := mul_le_mul_of_nonneg_right hu (by linarith)
      have : 100 * (u * q) ≤ q := by
        have := mul_le_mul_of_nonneg_right hu hq0
        linarith
      refine (near_add h (near_fin 1) hnq (Z := 1 + q + (u * q + u)) ?_ (by linarith)).mono ?_
      · rw [abs_of_nonneg (by linarith)]; linarith
      · linarith
    · rw [abs_of_nonneg (by positivity), div_le_one (by linarith)]; linarith
  · have e1 : weight e "fractional_squared" α δ = 1 / (1 + q ^ 2) := rfl
    have e2 : (fweight "fractional_squared" (.fin α) (.fin δ) : XF R)
        = Arith.div Arith.one (Arith.addMul (.fin 1) (XF.round q) (XF.round q)) := by
      rw [← hdiv]; rfl
    rw [e1, e2]
    have hqD : 2 * q ≤ 1 + q ^ 2 := by nlinarith [sq_nonneg (q - 1)]
    have huq2 : 0 ≤ u * q ^ 2 := mul_nonneg hu0 hq2
    have h1 : u * (2 * q) ≤ u * (1 + q ^ 2) := mul_le_mul_of_nonneg_left hqD hu0
    have h2 : 100 * u * (u * (1 + q ^ 2)) ≤ 1 * (u * (1 + q ^ 2)) := mul_le_mul_of_nonneg_right hu (by linarith)
    have h3 : 100 * (u * q ^ 2) ≤ q ^ 2 := by
      have := mul_le_mul_of_nonneg_right hu hq2
      linarith
    have h4 : (u * q + u) * (u * q + u) ≤ u * (2 * (u * (1 + q ^ 2))) := by
      have : 0 ≤ u * u := mul_nonneg hu0 hu0
      have := mul_le_mul_of_nonneg_left hqD this
      nlinarith
    constructor
    · refine near_recip h hu hη (by linarith) (by linarith) ?_
      have hsq : NearProd (XF.round q : XF R) (XF.round q) (q ^ 2) (41 / 10 * (u * (1 + q ^ 2))) := by
        rw [sq]
        refine (nearProd_mul h hnq hnq (abs_of_nonneg hq0).le (abs_of_nonneg hq0).le (E := 303 / 100 * (u * (1 + q ^ 2)))
          (Z := q ^ 2 + 303 / 100 * (u * (1 + q ^ 2))) ?_ ?_ ?_).mono ?_
        · nlinarith
        · linarith
        · linarith
        · linarith
      refine (near_addMul h (near_fin 1) hsq (Z := 1 + q ^ 2 + 41 / 10 * (u * (1 + q ^ 2))) ?_ (by linarith)).mono ?_
      · rw [abs_of_nonneg (by linarith)]; linarith
      · linarith
    · rw [abs_of_nonneg (by positivity), div_le_one (by linarith)]; linarith

/-- the argument of the exponential in the Gaussian weight -/
theorem gauss_arg (h : Accurate R u η big) (hu : 100 * u ≤ 1) (hη : 8 * η ≤ u) {α δ : K} (hα : 0 < α) (hδ : 0 ≤ δ)
    (h1 : 8 * η ≤ u * α) (h2 : 8 * η ≤ u * α ^ 2) (b0 : 4 ≤ big) (b1 : 2 * α ≤ big) (b2 : 4 * α ^ 2 ≤ big) (b3 : δ ^ 2 ≤ big)
    (b4 : 2 * (δ ^ 2 / (2 * α ^ 2)) ≤ big) :
    ∃ y : K, (fweight "gaussian" (.fin α) (.fin δ) : XF R) = XF.round (R.expK (-y)) ∧ 0 ≤ y ∧
      |y - δ ^ 2 / (2 * α ^ 2)| ≤ 444 / 100 * (u * (δ ^ 2 / (2 * α ^ 2))) + 2 / 10 * u := by
  have hu0 := h.u_nonneg
  have hη0 := h.η_nonneg
  have hα2 : 0 < α ^ 2 := by positivity
  obtain ⟨P, hP, hPe⟩ := h.round (δ * δ) (by rw [abs_of_nonneg (mul_nonneg hδ hδ)]; linarith)
  obtain ⟨Q1, hQ1, hQ1e⟩ := h.round (2 * α) (by rw [abs_of_pos (by linarith)]; exact b1)
  rw [abs_of_nonneg (mul_nonneg hδ hδ)] at hPe
  rw [abs_of_pos (show 0 < 2 * α by linarith)] at hQ1e
  set D := 2 * α ^ 2 with hD
  have hD0 : 0 < D := by positivity
  have huD : 100 * u * D ≤ 1 * D := mul_le_mul_of_nonneg_right hu hD0.le
  have huD0 : 0 ≤ u * D := mul_nonneg hu0 hD0.le
  have hηD : 16 * η ≤ u * D := by rw [hD]; linarith
  -- the denominator
  have hQ1α : |Q1 * α - D| ≤ 17 / 16 * (u * D) := by
    have e1 : Q1 * α - D = (Q1 - 2 * α) * α := by rw [hD]; ring
    rw [e1, abs_mul, abs_of_pos hα]
    have := mul_le_mul_of_nonneg_right hQ1e hα.le
    have := mul_le_mul_of_nonneg_right h1 hα.le
    have e2 : u * D = 2 * (u * α * α) := by rw [hD]; ring
    have e3 : (u * (2 * α) + η) * α = 2 * (u * α * α) + η * α := by ring
    linarith
  have hQ1abs : |Q1 * α| ≤ 102 / 100 * D := by
    have := near_abs hQ1α (abs_of_pos hD0).le
    linarith
  obtain ⟨Q, hQ, hQe⟩ := h.round (Q1 * α) (hQ1abs.trans (by linarith))
  have hQD : |Q - D| ≤ 22 / 10 * (u * D) := by
    have e1 : Q - D = (Q - Q1 * α) + (Q1 * α - D) := by ring
    rw [e1]
    have := mul_le_mul_of_nonneg_left hQ1abs hu0
    refine (abs_add_le _ _).trans ?_
    linarith
  have hQlow : 978 / 1000 * D ≤ Q := by have := (abs_le.1 hQD).1; linarith
  have hQ0 : 0 < Q := by linarith
  -- the quotient
  set z := δ ^ 2 / D with hz
  have hz0 : 0 ≤ z := by positivity
  have hzD : δ ^ 2 = z * D := by rw [hz]; field_simp
  have huz : 100 * u * z ≤ 1 * z := mul_le_mul_of_nonneg_right hu hz0
  have huz0 : 0 ≤ u * z := mul_nonneg hu0 hz0
  have hP0 : 0 ≤ P := by
    have := round_nonneg (R := R) (mul_nonneg hδ hδ)
    rw [hP] at this
    simpa [Arith.le, XF.le] using this
  have hw : |P / Q - z| ≤ 34 / 10 * (u * z) + 7 / 100 * u := by
    have e1 : P / Q - z = ((P - δ * δ) - z * (Q - D)) / Q := by
      rw [eq_div_iff hQ0.ne', sub_mul, div_mul_cancel₀ _ hQ0.ne']
      have : δ * δ = z * D := by rw [← hzD]; ring
      rw [this]; ring
    rw [e1, abs_div, abs_of_pos hQ0, div_le_iff₀ hQ0]
    have a1 : |(P - δ * δ) - z * (Q - D)| ≤ |P - δ * δ| + z * |Q - D| := by
      have := abs_sub (P - δ * δ) (z * (Q - D))
      rwa [abs_mul, abs_of_nonneg hz0] at this
    have a2 := mul_le_mul_of_nonneg_left hQD hz0
    have a3 : δ * δ = z * D := by rw [← hzD]; ring
    rw [a3] at hPe a1 ⊢
    have a4 : 0 ≤ u * z * D := mul_nonneg huz0 hD0.le
    have a5 := mul_le_mul_of_nonneg_left hQlow huz0
    have a6 := mul_le_mul_of_nonneg_left hQlow hu0
    linarith
  have hw0 : 0 ≤ P / Q := div_nonneg hP0 hQ0.le
  have hwabs : |P / Q| ≤ 104 / 100 * z + 1 / 1000 := by
    have := near_abs hw (abs_of_nonneg hz0).le
    linarith
  obtain ⟨y, hy, hye⟩ := h.round (P / Q) (hwabs.trans (by linarith))
  have hy0 : 0 ≤ y := by
    have := round_nonneg (R := R) hw0
    rw [hy] at this
    simpa [Arith.le, XF.le] using this
  have hyz : |y - z| ≤ 444 / 100 * (u * z) + 2 / 10 * u := by
    have e1 : y - z = (y - P / Q) + (P / Q - z) := by ring
    rw [e1]
    have := mul_le_mul_of_nonneg_left hwabs hu0
    refine (abs_add_le _ _).trans ?_
    linarith
  have hval : (fweight "gaussian" (.fin α) (.fin δ) : XF R) = XF.round (R.expK (-y)) := by
    show XF.exp (XF.div (XF.neg (XF.round (δ * δ))) (XF.mul (XF.round (2 * α)) (.fin α))) = _
    rw [hP, hQ1]
    show XF.exp (XF.div (.fin (-P)) (XF.round (Q1 * α))) = _
    rw [hQ]
    show XF.exp (if Q = 0 then _ else XF.round (-P / Q)) = _
    rw [if_neg hQ0.ne', neg_div, round_neg, hy]
    rfl
  exact ⟨y, hval, hy0, hyz⟩

/-- the Gaussian weight is computed within `10 u`, if the library's `exp` is within `2 u` of the function `e` -/
theorem near_gauss (h : Accurate R u η big) (hu : 100 * u ≤ 1) (hη : 8 * η ≤ u) {e : K → K} {σ : K} (he : ExpLike e σ) (hσ : 100 * σ ≤ u)
    (hacc : ∀ x ≤ 0, |R.expK x - e x| ≤ 2 * u) {α δ : K} (hα : 0 < α) (hδ : 0 ≤ δ) (h1 : 8 * η ≤ u * α)
    (h2 : 8 * η ≤ u * α ^ 2) (b0 : 4 ≤ big) (b1 : 2 * α ≤ big) (b2 : 4 * α ^ 2 ≤ big) (b3 : δ ^ 2 ≤ big)
    (b4 : 2 * (δ ^ 2 / (2 * α ^ 2)) ≤ big) :
    Near (fweight "gaussian" (.fin α) (.fin δ) : XF R) (weight e "gaussian" α δ) (10 * u) ∧ |weight e "gaussian" α δ| ≤ 1 := by
  have hu0 := h.u_nonneg
  obtain ⟨y, hval, hy0, hyz⟩ := gauss_arg h hu hη hα hδ h1 h2 b0 b1 b2 b3 b4
  have hspec : weight e "gaussian" α δ = e (-(δ ^ 2 / (2 * α ^ 2))) := rfl
  rw [hval, hspec]
  have hz0 : 0 ≤ δ ^ 2 / (2 * α ^ 2) := by positivity
  generalize δ ^ 2 / (2 * α ^ 2) = z at *
  have huz : 100 * u * z ≤ 1 * z := mul_le_mul_of_nonneg_right hu hz0
  have huz0 : 0 ≤ u * z := mul_nonneg hu0 hz0
  -- the exponential
  have hexp : |e (-y) - e (-z)| ≤ 466 / 100 * u := by
    obtain ⟨y', hy'0, hy'1, hy'2⟩ : ∃ y', 0 ≤ y' ∧ |y' - z| ≤ 444 / 100 * (u * z) ∧ |y - y'| ≤ 2 / 10 * u := by
      rw [abs_le] at hyz
      have : 444 / 100 * (u * z) ≤ z := by linarith
      have hc : 0 ≤ 444 / 100 * (u * z) := by linarith
      rcases le_total (y - z) (444 / 100 * (u * z)) with q1 | q1
      · rcases le_total (-(444 / 100 * (u * z))) (y - z) with q2 | q2
        · exact ⟨y, hy0, abs_le.2 ⟨q2, q1⟩, by rw [sub_self, abs_zero]; linarith⟩
        · refine ⟨z - 444 / 100 * (u * z), by linarith, ?_, ?_⟩
          · rw [abs_le]; constructor <;> linarith
          · rw [abs_le]; constructor <;> linarith
      · refine ⟨z + 444 / 100 * (u * z), by linarith, ?_, ?_⟩
        · rw [abs_le]; constructor <;> linarith
        · rw [abs_le]; constructor <;> linarith
    have e1 := he.lip (-y') (by linarith) (-y) (by linarith)
    have e2 := he.rel (-z) (by linarith) (-y') (by linarith) (444 / 100 * u) (by linarith) (by linarith) (by
      rw [abs_neg, abs_of_nonneg hz0]
      have : -y' - -z = -(y' - z) := by ring
      rw [this, abs_neg]; linarith)
    have e3 : |-y - -y'| ≤ 2 / 10 * u := by
      have : -y - -y' = -(y - y') := by ring
      rw [this, abs_neg]; exact hy'2
    have e4 : e (-y) - e (-z) = (e (-y) - e (-y')) + (e (-y') - e (-z)) := by ring
    rw [e4]
    refine (abs_add_le _ _).trans ?_
    linarith
  have hE : |R.expK (-y) - e (-z)| ≤ 666 / 100 * u := by
    have e4 : R.expK (-y) - e (-z) = (R.expK (-y) - e (-y)) + (e (-y) - e (-z)) := by ring
    rw [e4]
    refine (abs_add_le _ _).trans ?_
    have := hacc (-y) (by linarith)
    linarith
  have hez := he.range (-z) (by linarith)
  have hezabs : |e (-z)| ≤ 1 := by rw [abs_of_nonneg hez.1]; exact hez.2
  refine ⟨(near_round h (Z := 107 / 100) ?_ (by linarith) hE).mono (by linarith), hezabs⟩
  have := near_abs hE hezabs
  linarith

/-! ### sizes -/

theorem sumSq_le (hM : 1 ≤ M) (hx : ∀ i < M, |x i| ≤ A) : sumSq M x ≤ M * A ^ 2 := by
  have hM0 : (0 : K) < M := by exact_mod_cast hM
  have e : sumSq M x = ∑ i ∈ range M, x i ^ 2 - M * mean M x ^ 2 := by
    have e1 : ∑ i ∈ range M, x i = M * mean M x := by unfold mean; field_simp
    unfold sumSq dev
    have : ∀ i, (x i - mean M x) ^ 2 = x i ^ 2 - 2 * mean M x * x i + mean M x ^ 2 := fun i => by ring
    simp only [this]
    rw [sum_add_distrib, sum_sub_distrib, ← mul_sum, e1, sum_const, card_range, nsmul_eq_mul]
    ring
  have h1 : ∑ i ∈ range M, x i ^ 2 ≤ M * A ^ 2 := by
    refine (sum_le_card_nsmul (range M) _ (A ^ 2) fun i hi => ?_).trans (by simp)
    rw [← sq_abs]
    exact pow_le_pow_left₀ (abs_nonneg _) (hx i (by simpa using hi)) 2
  have : 0 ≤ M * mean M x ^ 2 := by positivity
  linarith

/-- the error bound, whatever number `N` the normaliser approximates -/
theorem error_core_of {g : K} {B : ℤ} (h : ExactUnit R g B) (hmod : Moderate R u η big V A M) (d : DS (XF R)) (hd : Constructed d)
    (τ : ℕ → ℤ) (ht : d.timeseries = samples M fun i => (τ i : K) * g) (hinc : IncreasingZ M τ)
    (j : ℕ) (hrow : d.HasRow j (samples M x)) (hx : ∀ i < M, |x i| ≤ A)
    {N : K} (hnorm : Near (seqNorm M fun i => (.fin (x i) : XF R)) N (61 * V * (M * A ^ 2))) (hNle : u * N ≤ V * (M * A ^ 2))
    (hN2 : N ≤ 2 * (M * A ^ 2))
    (ga : LagArgs (XF R)) (wt : String) (hw : KnownWeight wt) (r : AcResult (XF R))
    (hr : autocorrelation .fabs d ga "natural" wt = .ok r) (α : K) (hα : r.corr.alpha = .fin α)
    (n : ℕ) (k : ℤ) (hn : r.lags[n]? = some (.fin (k * g))) (hk : |k| + (τ (M - 1) - τ 0) ≤ B)
    (hκ : 122 * V * (M * A ^ 2) ≤ N) (hN : 0 < N) (hb1 : 2 ≤ N * big) (hb2 : 24 * (M * A ^ 2) ≤ N * big)
    (w : K → K) (hW : ∀ δ, 0 ≤ δ → δ ≤ B * g → Near (fweight wt (.fin α) (.fin δ) : XF R) (w δ) (10 * u) ∧ |w δ| ≤ 1)
    (s : ℕ → ℕ) (hs : Selects M (fun i => (τ i : K) * g) (k * g) s) :
    ∃ v : K, r.At j n (.fin (k * g)) (.fin v) ∧
      |v - sacf M (fun i => (τ i : K) * g) x w s N (k * g)|
        ≤ 250 * V * (M * A ^ 2 / N) * (1 + |sacf M (fun i => (τ i : K) * g) x w s N (k * g)|) := by
  obtain ⟨m, s', q1, q2, q3, q4⟩ := C60_value h d hd M τ ht hinc j (fun i => .fin (x i)) hrow (fun i _ => by simp) ga wt
    hw r hr n k hn hk
  have hg := h.pos
  have hcast : ∀ a b : ℤ, (a : K) * g ≤ b * g ↔ a ≤ b := fun a b => by
    rw [mul_le_mul_iff_left₀ hg, Int.cast_le]
  have hcastlt : ∀ a b : ℤ, (a : K) * g < b * g ↔ a < b := fun a b => by
    rw [mul_lt_mul_iff_left₀ hg, Int.cast_lt]
  have hcond : ∀ i < M, (i < m ↔ (τ i : K) * g + k * g ≤ (τ (M - 1) : K) * g) := by
    intro i hi
    rw [q2 i hi, ← hcast]
    push_cast
    rw [add_mul]
  have habsg : ∀ z : ℤ, ((|z| : ℤ) : K) * g = |(z : K) * g| := fun z => by
    rw [abs_mul, abs_of_pos hg, Int.cast_abs]
  have hdist : ∀ i l : ℕ, |(τ l : K) * g - ((τ i : K) * g + k * g)| = ((|τ l - (τ i + k)| : ℤ) : K) * g := fun i l => by
    rw [habsg]; push_cast; congr 1; ring
  -- the selected sample is the one of the specification
  have hsel : ∀ i < m, s i = s' i := by
    intro i hi
    have h1 := hs i (by omega) ((hcond i (by omega)).1 hi)
    refine h1.unique ⟨(q3 i hi).1, fun i' hi' => ?_⟩
    simp only [hdist]
    rcases (q3 i hi).2 i' hi' with h2 | ⟨h2, h3⟩
    · left; exact (hcastlt _ _).2 h2
    · right; exact ⟨by rw [h2], h3⟩
  have hset : (range M).filter (fun i : ℕ => (τ i : K) * g + k * g ≤ (τ (M - 1) : K) * g) = range m := by
    ext i
    simp only [Finset.mem_filter, Finset.mem_range]
    constructor
    · rintro ⟨hi, h⟩; exact (hcond i hi).2 h
    · intro hi; exact ⟨by omega, (hcond i (by omega)).1 hi⟩
  -- the distances are at most `B`
  have hB0 : ∀ i < m, ((|τ (s' i) - (τ i + k)| : ℤ) : K) * g ≤ B * g := by
    intro i hi
    rw [hcast]
    have hM1 : i < M := by omega
    have l1 := hinc.le (Nat.zero_le i) hM1
    have l2 := hinc.le (show i ≤ M - 1 by omega) (by omega)
    have l3 := hinc.le (Nat.zero_le (s' i)) (q3 i hi).1
    have l4 := hinc.le (show s' i ≤ M - 1 by have := (q3 i hi).1; omega) (by omega)
    have k1 := le_abs_self k
    have k2 := neg_abs_le k
    rw [abs_le]
    constructor <;> linarith
  obtain ⟨hu, hη, hM, huV, hV0, h1, h2, huA, h3, h4, h5, h6, h7, h8, h9⟩ := hmod.facts
  have hwt : ∀ i < m, Near (fweight wt (.fin α) (.fin (((|τ (s' i) - (τ i + k)| : ℤ) : K) * g)) : XF R)
      (w (((|τ (s' i) - (τ i + k)| : ℤ) : K) * g)) (10 * u) ∧
      |w (((|τ (s' i) - (τ i + k)| : ℤ) : K) * g)| ≤ 1 := by
    intro i hi
    exact hW _ (by rw [habsg]; exact abs_nonneg _) (hB0 i hi)
  have hnum := near_numerator hmod hx q1 (fun i hi => (q3 i hi).1) (fun i hi => (hwt i hi).1) (fun i hi => (hwt i hi).2)
  have hP : |∑ i ∈ range m, w (((|τ (s' i) - (τ i + k)| : ℤ) : K) * g) * dev M x i * dev M x (s' i)|
      ≤ 4 * (M * A ^ 2) := by
    refine (abs_sum_le_sum_abs _ _).trans ?_
    refine (sum_le_card_nsmul (range m) _ (4 * A ^ 2) fun i hi => ?_).trans ?_
    · have hi : i < m := by simpa using hi
      exact (near_term hmod hx (show i < M by omega) (q3 i hi).1 (hwt i hi).1 (hwt i hi).2).2
    · rw [card_range, nsmul_eq_mul]
      have : (m : K) ≤ M := by exact_mod_cast q1
      have := mul_le_mul_of_nonneg_right this h9.le
      linarith
  have hfin := near_quotient_of hmod hN hP hNle hN2 hnum hnorm hκ hb1 hb2
  have hspec : sacf M (fun i => (τ i : K) * g) x (w) s N (k * g)
      = (∑ i ∈ range m, w (((|τ (s' i) - (τ i + k)| : ℤ) : K) * g) * dev M x i * dev M x (s' i)) / N := by
    unfold sacf
    rw [hset]
    congr 1
    apply Finset.sum_congr rfl
    intro i hi
    rw [Finset.mem_range] at hi
    rw [hsel i hi, hdist]
  rw [hspec]
  obtain ⟨v, hv, hv'⟩ := hfin
  refine ⟨v, ?_, hv'⟩
  rw [hα] at q4
  rwa [hv] at q4

theorem error_core {g : K} {B : ℤ} (h : ExactUnit R g B) (hmod : Moderate R u η big V A M) (d : DS (XF R)) (hd : Constructed d)
    (τ : ℕ → ℤ) (ht : d.timeseries = samples M fun i => (τ i : K) * g) (hinc : IncreasingZ M τ)
    (j : ℕ) (hrow : d.HasRow j (samples M x)) (hx : ∀ i < M, |x i| ≤ A)
    (hf : ∀ i < M, Near (Arith.toFloat (.fin (x i) : XF R)) (x i) (2 * (V * A)))
    (ga : LagArgs (XF R)) (wt : String) (hw : KnownWeight wt) (r : AcResult (XF R))
    (hr : autocorrelation .fabs d ga "natural" wt = .ok r) (α : K) (hα : r.corr.alpha = .fin α)
    (n : ℕ) (k : ℤ) (hn : r.lags[n]? = some (.fin (k * g))) (hk : |k| + (τ (M - 1) - τ 0) ≤ B)
    (hκ : 122 * V * (M * A ^ 2) ≤ sumSq M x) (hN : 0 < sumSq M x)
    (hb1 : 2 ≤ sumSq M x * big) (hb2 : 24 * (M * A ^ 2) ≤ sumSq M x * big)
    (w : K → K) (hW : ∀ δ, 0 ≤ δ → δ ≤ B * g → Near (fweight wt (.fin α) (.fin δ) : XF R) (w δ) (10 * u) ∧ |w δ| ≤ 1)
    (s : ℕ → ℕ) (hs : Selects M (fun i => (τ i : K) * g) (k * g) s) :
    ∃ v : K, r.At j n (.fin (k * g)) (.fin v) ∧
      |v - sacf M (fun i => (τ i : K) * g) x w s (sumSq M x) (k * g)|
        ≤ 250 * V * (M * A ^ 2 / sumSq M x) * (1 + |sacf M (fun i => (τ i : K) * g) x w s (sumSq M x) (k * g)|) :=
  error_core_of h hmod d hd τ ht hinc j hrow hx (near_norm hmod hx hf)
    (mul_le_mul hmod.facts.2.2.2.1 (sumSq_le hmod.one_le hx) hN.le hmod.facts.2.2.2.2.1) (by linarith [sumSq_le hmod.one_le hx]) ga wt hw r hr α hα n k hn hk hκ hN hb1 hb2 w hW s hs

/-- **C61**: time stamps on an exact grid, `M` values of size at most `A`, either fractional weight function, any lag
`k g` of the result: the number returned is within `250 V κ (1 + |ρ|)` of the exact selective autocorrelation `ρ`, where
`κ = M A² / Σ (x - mean)²` and `V` bounds `u M` and the relative error of narrowing the values to `float`. -/
theorem C61_error {g : K} {B : ℤ} (h : ExactUnit R g B) (hmod : Moderate R u η big V A M) (d : DS (XF R)) (hd : Constructed d)
    (τ : ℕ → ℤ) (ht : d.timeseries = samples M fun i => (τ i : K) * g) (hinc : IncreasingZ M τ)
    (j : ℕ) (hrow : d.HasRow j (samples M x)) (hx : ∀ i < M, |x i| ≤ A)
    (hf : ∀ i < M, Near (Arith.toFloat (.fin (x i) : XF R)) (x i) (2 * (V * A)))
    (ga : LagArgs (XF R)) (wt : String) (hw : wt = "fractional" ∨ wt = "fractional_squared") (r : AcResult (XF R))
    (hr : autocorrelation .fabs d ga "natural" wt = .ok r) (α : K) (hα : r.corr.alpha = .fin α) (hα0 : 0 < α)
    (n : ℕ) (k : ℤ) (hn : r.lags[n]? = some (.fin (k * g))) (hk : |k| + (τ (M - 1) - τ 0) ≤ B)
    (hκ : 122 * V * (M * A ^ 2) ≤ sumSq M x) (hN : 0 < sumSq M x)
    (hb1 : 2 ≤ sumSq M x * big) (hb2 : 24 * (M * A ^ 2) ≤ sumSq M x * big) (hb3 : 4 ≤ big)
    (hb4 : 4 * (B * g / α + (B * g / α) ^ 2) ≤ big)
    (s : ℕ → ℕ) (hs : Selects M (fun i => (τ i : K) * g) (k * g) s) :
    ∃ v : K, r.At j n (.fin (k * g)) (.fin v) ∧
      |v - sacf M (fun i => (τ i : K) * g) x (weight R.expK wt α) s (sumSq M x) (k * g)|
        ≤ 250 * V * (M * A ^ 2 / sumSq M x) *
          (1 + |sacf M (fun i => (τ i : K) * g) x (weight R.expK wt α) s (sumSq M x) (k * g)|) := by
  have hsmall : 100 * u ≤ 1 := by
    obtain ⟨hu, hη, hM, huV, _⟩ := hmod.facts
    have := hmod.V_le; linarith
  refine error_core h hmod d hd τ ht hinc j hrow hx hf ga wt (by unfold KnownWeight; tauto) r hr α hα n k hn hk hκ hN hb1 hb2 _
    (fun δ h0 h1 => near_weight hmod.acc hsmall hmod.under1 hb3 hw hα0 h0 (le_trans ?_ hb4) _) s hs
  have e1 : δ / α ≤ B * g / α := (div_le_div_iff_of_pos_right hα0).2 h1
  have := pow_le_pow_left₀ (div_nonneg h0 hα0.le) e1 2
  linarith

/-- **C61** for the Gaussian weight function, with a library `exp` within `2 u` of the function `e`. -/
theorem C61_gaussian {g : K} {B : ℤ} (h : ExactUnit R g B) (hmod : Moderate R u η big V A M) (d : DS (XF R)) (hd : Constructed d)
    (τ : ℕ → ℤ) (ht : d.timeseries = samples M fun i => (τ i : K) * g) (hinc : IncreasingZ M τ)
    (j : ℕ) (hrow : d.HasRow j (samples M x)) (hx : ∀ i < M, |x i| ≤ A)
    (hf : ∀ i < M, Near (Arith.toFloat (.fin (x i) : XF R)) (x i) (2 * (V * A)))
    (ga : LagArgs (XF R)) (r : AcResult (XF R))
    (hr : autocorrelation .fabs d ga "natural" "gaussian" = .ok r) (α : K) (hα : r.corr.alpha = .fin α) (hα0 : 0 < α)
    (n : ℕ) (k : ℤ) (hn : r.lags[n]? = some (.fin (k * g))) (hk : |k| + (τ (M - 1) - τ 0) ≤ B)
    (hκ : 122 * V * (M * A ^ 2) ≤ sumSq M x) (hN : 0 < sumSq M x)
    (hb1 : 2 ≤ sumSq M x * big) (hb2 : 24 * (M * A ^ 2) ≤ sumSq M x * big) (hb3 : 4 ≤ big)
    (e : K → K) {σ : K} (he : ExpLike e σ) (hσ : 100 * σ ≤ u) (hacc : ∀ x ≤ 0, |R.expK x - e x| ≤ 2 * u)
    (hη : 8 * η ≤ u) (hη1 : 8 * η ≤ u * α) (hη2 : 8 * η ≤ u * α ^ 2) (hb4 : 2 * α ≤ big) (hb5 : 4 * α ^ 2 ≤ big)
    (hb6 : (B * g) ^ 2 ≤ big) (hb7 : 2 * ((B * g) ^ 2 / (2 * α ^ 2)) ≤ big)
    (s : ℕ → ℕ) (hs : Selects M (fun i => (τ i : K) * g) (k * g) s) :
    ∃ v : K, r.At j n (.fin (k * g)) (.fin v) ∧
      |v - sacf M (fun i => (τ i : K) * g) x (weight e "gaussian" α) s (sumSq M x) (k * g)|
        ≤ 250 * V * (M * A ^ 2 / sumSq M x) *
          (1 + |sacf M (fun i => (τ i : K) * g) x (weight e "gaussian" α) s (sumSq M x) (k * g)|) := by
  have hsmall : 100 * u ≤ 1 := by
    obtain ⟨hu, hη, hM, huV, _⟩ := hmod.facts
    have := hmod.V_le; linarith
  refine error_core h hmod d hd τ ht hinc j hrow hx hf ga _ (by unfold KnownWeight; simp) r hr α hα n k hn hk hκ hN hb1 hb2 _
    (fun δ h0 h1 => ?_) s hs
  have e1 := pow_le_pow_left₀ h0 h1 2
  have e2 : δ ^ 2 / (2 * α ^ 2) ≤ (B * g) ^ 2 / (2 * α ^ 2) := div_le_div_of_nonneg_right e1 (by positivity)
  exact near_gauss hmod.acc hsmall hη he hσ hacc hα0 h0 hη1 hη2 hb3 hb4 hb5 (e1.trans hb6) (by linarith)

/-- the textbook estimate lies between -1 and 1 -/
theorem autoCov_le {x : ℕ → K} {M m : ℕ} (hm : m < M) (hv : sumSq M x ≠ 0) : |autoCov M x m / sumSq M x| ≤ 1 := by
  obtain ⟨hsel, e⟩ := sacf_regular (t0 := (0 : K)) one_pos (w := fun _ => 1) rfl M m hm x (sumSq M x)
  rw [← e]
  have := sacf_bound (w := fun _ => (1 : K)) (fun _ _ => ⟨zero_le_one, le_rfl⟩) (fun i hi hk => (hsel i hi hk).1) (B := 1) (by
    intro i' _
    rw [Finset.card_le_one]
    intro a ha b hb
    have h1 := (Finset.mem_filter.1 ha).2.2
    have h2 := (Finset.mem_filter.1 hb).2.2
    omega) hv
  rw [abs_le_one_iff_mul_self_le_one, ← sq]
  simpa using this

end Sacf
