import Verif.Props.MissingRounded
import Verif.Props.Weights
import Verif.Props.Rounded
import Verif.Props.Binary
import Verif.Cases.Base

/-!
# Very small and very large `alpha` in machine arithmetic (C99)

The fractional weights are numbers between 0 and 1 whatever the positive `alpha` (C32_rounded).  The Gaussian weight divides by `2 * alpha * alpha`,
which may underflow to zero although `alpha` is positive: the weight of a sample that is matched exactly is then `0 / 0`.
-/

set_option linter.unusedSectionVars false
set_option linter.unusedVariables false

namespace Sacf

/-! ### specification -/

/-- what the Gaussian weight needs of the exponential function (the real one has it): not decreasing up to 0, not negative, 1 at 0 -/
structure ExpShape {K : Type} [Field K] [LinearOrder K] (ex : K → K) : Prop where
  mono : ∀ x y, x ≤ y → y ≤ 0 → ex x ≤ ex y
  nonneg : ∀ x ≤ 0, 0 ≤ ex x
  zero : ex 0 = 1

section rounded
variable {K : Type} [Field K] [LinearOrder K] [IsStrictOrderedRing K] [FloorRing K] {R : Rnd K} {M : ℕ} {t : ℕ → K}

theorem exp_nonpos (he : ExpShape R.expK) {x : XF R} (h : Arith.le x (.fin 0) = true) :
    ∃ w : K, Arith.exp x = .fin w ∧ 0 ≤ w ∧ w ≤ 1 := by
  cases x with
  | nan => exact absurd h Bool.false_ne_true
  | pinf => exact absurd h Bool.false_ne_true
  | ninf => exact ⟨0, rfl, le_rfl, zero_le_one⟩
  | fin x =>
    have hx : x ≤ 0 := by simpa using h
    have a1 := round_nonneg (R := R) (he.nonneg x hx)
    have a2 := round_mono (R := R) (he.mono x 0 hx le_rfl)
    rw [he.zero, round_one] at a2
    obtain ⟨w, hw, h3, h4⟩ := fin_of_between a1 a2
    exact ⟨w, hw, h3, h4⟩

theorem exp_mono (he : ExpShape R.expK) {x y : XF R} (hxy : Arith.le x y = true) (h : Arith.le y (.fin 0) = true) {w w' : K}
    (hw : Arith.exp x = .fin w) (hw' : Arith.exp y = .fin w') : w ≤ w' := by
  cases x with
  | nan => cases y <;> exact absurd hxy Bool.false_ne_true
  | pinf =>
    have := xf_le_trans hxy h
    exact absurd this Bool.false_ne_true
  | ninf =>
    have e : Arith.exp (.ninf : XF R) = .fin 0 := rfl
    rw [e] at hw; simp at hw; subst hw
    obtain ⟨v, hv, h1, _⟩ := exp_nonpos he h
    rw [hw'] at hv; simp at hv; subst hv
    exact h1
  | fin x =>
    obtain ⟨y, rfl, h1, h2⟩ := fin_of_between hxy h
    have := round_mono (R := R) (he.mono x y h1 h2)
    have e1 : (XF.round (R.expK x) : XF R) = .fin w := hw
    have e2 : (XF.round (R.expK y) : XF R) = .fin w' := hw'
    rw [e1, e2] at this
    simpa [XF.le] using this

/-- the exponent of the Gaussian weight -/
theorem gaussArg {D : K} (hD : 0 < D) {δ δ' : K} (h0 : 0 ≤ δ) (h : δ ≤ δ') :
    Arith.le (Arith.div (Arith.neg (Arith.mul (.fin δ) (.fin δ))) (.fin D) : XF R) (.fin 0) = true ∧
      Arith.le (Arith.div (Arith.neg (Arith.mul (.fin δ') (.fin δ'))) (.fin D) : XF R)
        (Arith.div (Arith.neg (Arith.mul (.fin δ) (.fin δ))) (.fin D)) = true := by
  have hneg : ∀ δ, (Arith.neg (Arith.mul (.fin δ) (.fin δ)) : XF R) = XF.round (-(δ * δ)) := by
    intro δ; rw [round_neg]; rfl
  have hm : Arith.le (XF.round (-(δ' * δ')) : XF R) (XF.round (-(δ * δ))) = true :=
    round_mono (neg_le_neg (mul_le_mul h h h0 (h0.trans h)))
  have hz : Arith.le (XF.round (-(δ * δ)) : XF R) (.fin 0) = true := by
    have := round_mono (R := R) (show -(δ * δ) ≤ 0 by nlinarith [mul_self_nonneg δ])
    rwa [round_zero] at this
  have hfin : ∀ z : K, Arith.div (.fin z : XF R) (.fin D) = XF.round (z / D) := by
    intro z; show XF.div _ _ = _; simp [XF.div, hD.ne']
  have hinf : Arith.div (.ninf : XF R) (.fin D) = .ninf := by
    show XF.div _ _ = _; simp [XF.div, hD.le]
  have hdiv : ∀ {a c : XF R}, Arith.le a c = true → Arith.le c (.fin 0) = true → Arith.le (Arith.div a (.fin D)) (Arith.div c (.fin D)) = true := by
    intro a c hac hc
    cases a with
    | nan => cases c <;> exact absurd hac Bool.false_ne_true
    | pinf =>
      have := xf_le_trans hac hc
      exact absurd this Bool.false_ne_true
    | ninf =>
      rw [hinf]
      cases c with
      | nan => exact absurd hac Bool.false_ne_true
      | pinf => exact absurd hc Bool.false_ne_true
      | ninf => rw [hinf]; rfl
      | fin c =>
        rw [hfin]
        cases hr : (XF.round (c / D) : XF R) with
        | nan => exact absurd hr (round_ne_nan _)
        | _ => rfl
    | fin a =>
      obtain ⟨c, rfl, h1, h2⟩ := fin_of_between hac hc
      rw [hfin, hfin]
      exact round_mono (div_le_div_of_nonneg_right h1 hD.le)
  rw [hneg, hneg]
  refine ⟨?_, hdiv hm hz⟩
  have := hdiv hz (by simp)
  rwa [hfin, zero_div, round_zero] at this

/-- **C99** (any rounding): as long as `2 * alpha * alpha` is computed as a positive number, the Gaussian weight of a finite distance `≥ 0` is a number in
[0, 1], it is 1 at distance 0, and it never increases with the distance – also where the square of the distance overflows. -/
theorem C99_weights_partial (he : ExpShape R.expK) (α D : K) (hα : Arith.mul (Arith.mul Arith.two (.fin α)) (.fin α) = (.fin D : XF R)) (hD : 0 < D) :
    ∃ w : K → K, (∀ δ, 0 ≤ δ → Corr.gaussianWeight (.fin α : XF R) (.fin δ) = .fin (w δ)) ∧
      (∀ δ, 0 ≤ δ → 0 ≤ w δ ∧ w δ ≤ 1) ∧ w 0 = 1 ∧ ∀ δ δ', 0 ≤ δ → δ ≤ δ' → w δ' ≤ w δ := by
  have f : ∀ δ, ∃ w, 0 ≤ δ → (Corr.gaussianWeight (.fin α : XF R) (.fin δ) = .fin w ∧ 0 ≤ w ∧ w ≤ 1) := by
    intro δ
    by_cases hδ : 0 ≤ δ
    · unfold Corr.gaussianWeight
      rw [hα]
      obtain ⟨w, h⟩ := exp_nonpos he (gaussArg (R := R) hD hδ le_rfl).1
      exact ⟨w, fun _ => h⟩
    · exact ⟨0, fun h => absurd h hδ⟩
  choose w h using f
  refine ⟨w, fun δ hδ => (h δ hδ).1, fun δ hδ => (h δ hδ).2, ?_, ?_⟩
  · have := (h 0 le_rfl).1
    unfold Corr.gaussianWeight at this
    rw [hα] at this
    have e1 : (Arith.neg (Arith.mul (.fin 0) (.fin 0)) : XF R) = .fin 0 := by
      show XF.neg (XF.round (0 * 0)) = _
      rw [mul_zero, round_zero]; simp [XF.neg]
    have e2 : (Arith.div (.fin 0) (.fin D) : XF R) = .fin 0 := by
      show XF.div _ _ = _
      simp [XF.div, hD.ne', round_zero]
    have e3 : Arith.exp (.fin 0 : XF R) = .fin 1 := by
      show XF.round (R.expK 0) = _
      rw [he.zero, round_one]
    rw [e1, e2, e3] at this
    simp at this; exact this.symm
  · intro δ δ' hδ hle
    have a := gaussArg (R := R) hD hδ hle
    have h1 := (h δ hδ).1
    have h2 := (h δ' (hδ.trans hle)).1
    unfold Corr.gaussianWeight at h1 h2
    rw [hα] at h1 h2
    exact exp_mono he a.2 a.1 h2 h1

/-- the weight of a sample that is matched exactly -/
theorem weight_exact_nan {wt : String} (hw : KnownWeight wt) {α : K}
    (h : α = 0 ∨ wt = "gaussian" ∧ Arith.mul (Arith.mul Arith.two (.fin α)) (.fin α) = (.fin 0 : XF R)) :
    fweight wt (.fin α : XF R) (.fin 0) = .nan := by
  have hd : (Arith.div (.fin 0) (.fin 0) : XF R) = .nan := by
    show XF.div _ _ = _
    simp [XF.div, XF.infSign]
  have hm : (Arith.mul (.fin 0) (.fin 0) : XF R) = .fin 0 := by
    show XF.round (0 * 0) = _
    rw [mul_zero, round_zero]
  have hg : Arith.mul (Arith.mul Arith.two (.fin α)) (.fin α) = (.fin 0 : XF R) → fweight "gaussian" (.fin α : XF R) (.fin 0) = .nan := by
    intro h
    have e1 : (Arith.neg (.fin 0) : XF R) = .fin 0 := by show XF.neg _ = _; simp [XF.neg]
    rw [fweight, if_pos rfl, h, hm, e1, hd]; rfl
  rcases h with rfl | ⟨rfl, h⟩
  · rcases hw with rfl | rfl | rfl
    · apply hg
      have : (Arith.mul Arith.two (.fin 0) : XF R) = .fin 0 := by
        show XF.round (2 * 0) = _
        rw [mul_zero, round_zero]
      rw [this, hm]
    · rw [fweight, if_neg (by decide), if_neg (by decide), hd]; rfl
    · rw [fweight, if_neg (by decide), if_pos rfl, hd]
      have : (Arith.addMul Arith.one .nan .nan : XF R) = .nan := by
        show XF.addMul _ _ _ = _
        unfold XF.addMul
        cases R.fused <;> rfl
      rw [this]; rfl
  · exact hg h

/-- **C99** (any rounding): if `2 * alpha * alpha` is computed as zero (Gaussian weight), or `alpha` is zero (any weight), the value is NaN in every
row at every lag at which some sample, shifted, has exactly the time of a sample, as computed; whatever the values. -/
theorem C99_nan_partial (d : DS (XF R)) (hd : Constructed d) (g : LagArgs (XF R)) (wt : String)
    (r : AcResult (XF R)) (hr : autocorrelation .fabs d g "natural" wt = .ok r)
    (hw : KnownWeight wt) (ht : d.timeseries = samples M t) (hinc : InOrder M t) (T : K)
    (hT : (XF.round (t (M - 1) - t 0) : XF R) = .fin T) (α : K) (ha : r.corr.alpha = .fin α)
    (h : α = 0 ∨ wt = "gaussian" ∧ Arith.mul (Arith.mul Arith.two (.fin α)) (.fin α) = (.fin 0 : XF R))
    (j : ℕ) (row : List (XF R)) (hrow : d.HasRow j row) (n : ℕ) (k : K) (hn : r.lags[n]? = some (.fin k)) (i l : ℕ) (hi : i < M) (hl : l < M)
    (heq : (Arith.add (Arith.sub (.fin (t i)) (.fin (t 0))) (.fin k) : XF R) = Arith.sub (.fin (t l)) (.fin (t 0))) :
    r.At j n (.fin k) .nan := by
  obtain ⟨hM0, y, hy, hnt, hyo⟩ := normT_fin hd ht hinc hT
  obtain ⟨ps, hps, hat⟩ := result_at hd hr hrow hn
  obtain ⟨m, s, p1, p2, p3, p4⟩ := lagPlan_rounded (R := R) hM0 hyo k (planWt_fweight hw) r.corr.alpha
  rw [hnt, p4] at hps
  simp only [Res.ok.injEq] at hps
  have hsub : ∀ l < M, (Arith.sub (.fin (t l)) (.fin (t 0)) : XF R) = .fin (y l) := fun l hl => by
    rw [← hy l hl, sub_eq_add_neg]; rfl
  rw [hsub i hi, hsub l hl] at heq
  have him : i < m := by
    refine (p2 i hi).2 ?_
    rw [heq]
    refine not_lt_of_le ?_
    have := hyo l (M - 1) (by omega) (by omega)
    show decide (y l ≤ y (M - 1)) = true
    simpa using this
  have hz : ∀ a : K, (Arith.sub (.fin a) (.fin a) : XF R) = .fin 0 := by
    intro a
    show XF.round (a + -a) = _
    rw [add_neg_cancel, round_zero]
  have hdist : (Arith.fabs (Arith.sub (.fin (y (s i))) (Arith.add (.fin (y i)) (.fin k))) : XF R) = .fin 0 := by
    have h1 := (p3 i him).2 l hl
    rw [heq, hz] at h1
    have e0 : (Arith.fabs (.fin 0) : XF R) = .fin 0 := by show XF.fabs _ = _; simp [XF.fabs]
    rw [e0] at h1
    have e1 : (Arith.fabs (Arith.sub (.fin (y (s i))) (.fin (y l))) : XF R) = Arith.fabs (Arith.sub (.fin (y l)) (.fin (y (s i)))) := by
      show XF.fabs (XF.round _) = XF.fabs (XF.round _)
      rw [← fabs_neg, ← round_neg]
      congr 2; ring
    rw [heq, e1]
    generalize (Arith.sub (.fin (y l)) (.fin (y (s i))) : XF R) = z at h1 ⊢
    cases z with
    | nan => exact absurd h1 Bool.false_ne_true
    | pinf => exact absurd h1 Bool.false_ne_true
    | ninf => exact absurd h1 Bool.false_ne_true
    | fin z =>
      have h2 : |z| ≤ 0 := by
        have : decide (|z| ≤ 0) = true := h1
        simpa using this
      show (.fin |z| : XF R) = _
      rw [le_antisymm h2 (abs_nonneg z)]
  rw [corrValue_nan_weight _ _ ps (s i) (by
    rw [← hps]
    refine List.mem_map.2 ⟨i, List.mem_range.2 him, ?_⟩
    rw [hdist, ha, weight_exact_nan hw h])] at hat
  exact hat

/-- **C99** (any rounding): so the value at lag zero is NaN, and not 1. -/
theorem C99_zero_lag_partial (d : DS (XF R)) (hd : Constructed d) (g : LagArgs (XF R)) (wt : String)
    (r : AcResult (XF R)) (hr : autocorrelation .fabs d g "natural" wt = .ok r)
    (hw : KnownWeight wt) (ht : d.timeseries = samples M t) (hinc : InOrder M t) (T : K)
    (hT : (XF.round (t (M - 1) - t 0) : XF R) = .fin T) (α : K) (ha : r.corr.alpha = .fin α)
    (h : α = 0 ∨ wt = "gaussian" ∧ Arith.mul (Arith.mul Arith.two (.fin α)) (.fin α) = (.fin 0 : XF R))
    (j : ℕ) (row : List (XF R)) (hrow : d.HasRow j row) (n : ℕ) (hn : r.lags[n]? = some (.fin 0)) :
    r.At j n (.fin 0) .nan := by
  have hM0 := (normT_fin hd ht hinc hT).1
  refine C99_nan_partial d hd g wt r hr hw ht hinc T hT α ha h j row hrow n 0 hn 0 0 hM0 hM0 ?_
  have : (Arith.sub (.fin (t 0)) (.fin (t 0)) : XF R) = .fin 0 := by
    show XF.round (t 0 + -t 0) = _
    rw [add_neg_cancel, round_zero]
  rw [this]
  show XF.round (0 + 0) = _
  rw [add_zero, round_zero]

end rounded

/-! ### binary64 -/

section binary64
variable {ex : ℚ → ℚ} {fu : Bool}

/-- what underflows to zero -/
theorem b64_eq_zero {x : ℚ} (h : 0 ≤ x) : b64 x = 0 ↔ x ≤ pow2 (-1075) := by
  have h0 : b64 (pow2 (-1075)) = 0 := by decide +kernel
  have h1 : b64 (pow2 (-1074)) = pow2 (-1074) := by decide +kernel
  constructor
  · intro hx
    by_contra hlt
    push Not at hlt
    rcases le_or_gt (pow2 (-1074)) x with hle | hgt
    · have := b64_mono hle
      rw [h1, hx] at this
      exact absurd this (not_le.2 (pow2_pos _))
    · have hpos : 0 < x := (pow2_pos _).trans hlt
      have hlp : lastPlace 53 (-1074) x = -1074 := by
        unfold lastPlace
        rw [abs_of_pos hpos]
        have := (ilog2_spec hpos).1
        have := pow2_lt_iff.1 (this.trans_lt hgt)
        omega
      have he := roundTo_error (p := 53) (emin := -1074) x
      have e2 : pow2 (-1074) = 2 * pow2 (-1075) := by decide +kernel
      rw [hlp, show roundTo 53 (-1074) x = 0 from hx, zero_sub, abs_neg, abs_of_pos hpos, e2] at he
      linarith
  · intro hx
    refine le_antisymm ?_ ?_
    · rw [← h0]; exact b64_mono hx
    · have := b64_mono h
      have e : b64 0 = 0 := by decide +kernel
      rwa [e] at this

/-- `2 * alpha * alpha` in binary64 -/
theorem twoSquare64 {α : ℚ} (h0 : 0 < α) (hα : b64 α = α) (hbig : 2 * α ^ 2 ≤ big) :
    (Arith.mul (Arith.mul Arith.two (.fin α)) (.fin α) : D64 ex fu) = .fin (b64 (2 * α ^ 2)) := by
  have h2 : 2 * α ≤ big := by
    have hb : (4 : ℚ) ≤ big := by decide +kernel
    by_contra h
    push Not at h
    nlinarith
  have e1 : (Arith.mul Arith.two (.fin α) : D64 ex fu) = .fin (2 * α) := by
    show (XF.round (2 * α) : D64 ex fu) = _
    rw [d64_round (by rw [abs_of_pos (by linarith)]; exact h2), b64_two_mul hα]
  rw [e1]
  show (XF.round (2 * α * α) : D64 ex fu) = _
  rw [show 2 * α * α = 2 * α ^ 2 by ring, d64_round (by rw [abs_of_pos (by positivity)]; exact hbig)]

/-- **C99 in binary64**: with the Gaussian weight and a positive double `alpha` whose square is at most `2^-1076` (`alpha` below about `1.6e-162`) the
value at lag zero is NaN, whatever the data. -/
theorem C99_binary64_nan_partial {M : ℕ} {t : ℕ → ℚ} (d : DS (D64 ex fu)) (hd : Constructed d) (g : LagArgs (D64 ex fu))
    (r : AcResult (D64 ex fu)) (hr : autocorrelation .fabs d g "natural" "gaussian" = .ok r)
    (ht : d.timeseries = samples M t) (hinc : InOrder M t) (hspan : t (M - 1) - t 0 ≤ big) (α : ℚ) (ha : r.corr.alpha = .fin α) (h0 : 0 < α)
    (hα : b64 α = α) (hsmall : α ^ 2 ≤ pow2 (-1076)) (j : ℕ) (row : List (D64 ex fu)) (hrow : d.HasRow j row)
    (n : ℕ) (hn : r.lags[n]? = some (.fin 0)) : r.At j n (.fin 0) .nan := by
  have e2 : pow2 (-1075) = 2 * pow2 (-1076) := by decide +kernel
  have hz : 2 * α ^ 2 ≤ pow2 (-1075) := by linarith
  have hM : 0 < M := by
    have := hd.wf.ne
    by_contra h
    have hM : M = 0 := by omega
    subst hM
    exact absurd (normT_rounded hd ht).1 (lt_irrefl 0)
  have h1 := hinc 0 (M - 1) (Nat.zero_le _) (by omega)
  refine C99_zero_lag_partial d hd g "gaussian" r hr (.inl rfl) ht hinc (b64 (t (M - 1) - t 0)) ?_ α ha (.inr ⟨rfl, ?_⟩) j row hrow n hn
  · exact d64_round (by rw [abs_of_nonneg (by linarith)]; exact hspan)
  · rw [twoSquare64 h0 hα (hz.trans (by decide +kernel)), (b64_eq_zero (by positivity)).2 hz]

/-- **C99 in binary64**: with a positive double `alpha` whose square is larger than that, and at most `DBL_MAX / 2`, the Gaussian weights are numbers
in [0, 1], 1 at distance 0, and never increase with the distance. -/
theorem C99_binary64_weights_partial (he : ExpShape ex) (α : ℚ) (h0 : 0 < α) (hα : b64 α = α) (hlarge : pow2 (-1076) < α ^ 2) (hbig : 2 * α ^ 2 ≤ big) :
    ∃ w : ℚ → ℚ, (∀ δ, 0 ≤ δ → Corr.gaussianWeight (.fin α : D64 ex fu) (.fin δ) = .fin (w δ)) ∧
      (∀ δ, 0 ≤ δ → 0 ≤ w δ ∧ w δ ≤ 1) ∧ w 0 = 1 ∧ ∀ δ δ', 0 ≤ δ → δ ≤ δ' → w δ' ≤ w δ := by
  have e2 : pow2 (-1075) = 2 * pow2 (-1076) := by decide +kernel
  refine C99_weights_partial (R := Rnd.binary64 ex fu) he α (b64 (2 * α ^ 2)) (twoSquare64 h0 hα hbig) ?_
  refine lt_of_le_of_ne ?_ fun h => ?_
  · have := b64_mono (show 0 ≤ 2 * α ^ 2 by positivity)
    have e : b64 0 = 0 := by decide +kernel
    rwa [e] at this
  · have := (b64_eq_zero (by positivity)).1 h.symm
    linarith

/-- **C99 is false of the code in binary64**: a series with times 0, 1, 3, `alpha` a positive double and the Gaussian weight; NaN at lag zero (and at
every other lag at which two samples coincide) with `alpha = 2^-538`, where the fractional weights and twice that `alpha` give 1. -/
theorem C99_false : ∃ d : DS B, Constructed d ∧ ∃ r r' r'' : AcResult B,
    autocorrelation .fabs d { alpha := some (.fin (pow2 (-538))) } "natural" "gaussian" = .ok r ∧
    autocorrelation .fabs d { alpha := some (.fin (pow2 (-538))) } = .ok r' ∧
    autocorrelation .fabs d { alpha := some (.fin (pow2 (-537))) } "natural" "gaussian" = .ok r'' ∧
    r.At 0 3 (.fin 0) .nan ∧ r.At 0 4 (.fin 1) .nan ∧ r'.At 0 3 (.fin 0) (.fin 1) ∧ r''.At 0 3 (.fin 0) (.fin 1) := by
  obtain ⟨d, r, hd, hr, h1, h2, h3, h4⟩ := callOf_ok .fabs (b [0, 1, 3]) [b [1, 2, 6]] { alpha := some (.fin (pow2 (-538))) } "natural" "gaussian"
    (fun d r => r.lags[3]? = some (.fin 0) ∧ r.lags[4]? = some (.fin 1) ∧ (r.corrs.rows[0]?.bind (·[3]?)) = some .nan ∧
      (r.corrs.rows[0]?.bind (·[4]?)) = some .nan) (by decide +kernel)
  obtain ⟨d', r', hd', hr', h1', h2'⟩ := callOf_ok .fabs (b [0, 1, 3]) [b [1, 2, 6]] { alpha := some (.fin (pow2 (-538))) } "natural" "fractional"
    (fun d r => r.lags[3]? = some (.fin 0) ∧ (r.corrs.rows[0]?.bind (·[3]?)) = some (.fin 1)) (by decide +kernel)
  obtain ⟨d'', r'', hd'', hr'', h1'', h2''⟩ := callOf_ok .fabs (b [0, 1, 3]) [b [1, 2, 6]] { alpha := some (.fin (pow2 (-537))) } "natural" "gaussian"
    (fun d r => r.lags[3]? = some (.fin 0) ∧ (r.corrs.rows[0]?.bind (·[3]?)) = some (.fin 1)) (by decide +kernel)
  obtain rfl := Res.ok.inj (hd.symm.trans hd')
  obtain rfl := Res.ok.inj (hd.symm.trans hd'')
  exact ⟨d, .table hd, r, r', r'', hr, hr', hr'', ⟨h1, Option.bind_eq_some_iff.1 h3⟩, ⟨h2, Option.bind_eq_some_iff.1 h4⟩,
    ⟨h1', Option.bind_eq_some_iff.1 h2'⟩, ⟨h1'', Option.bind_eq_some_iff.1 h2''⟩⟩

end binary64

end Sacf
