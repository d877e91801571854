import Verif.Lemmas.Binary

/-!
# IEEE binary64 (C46)
-/

set_option linter.unusedSectionVars false
set_option exponentiation.threshold 3000

namespace Sacf

open Arith

variable {ex : ℚ → ℚ} {fu : Bool}

/-- **C46**: with binary64 rounding everywhere, natural selection with default lags returns (so no access was out of
bounds) for all increasing times whose span is at most 2^25 times their smallest gap. -/
theorem C46_default_safe (d : DS (D64 ex fu)) (hd : Constructed d) (M : ℕ) (t : ℕ → ℚ) (ht : d.timeseries = samples M t)
    (hdbl : ∀ i < M, (.fin (t i) : D64 ex fu).IsDouble) (hM : 2 ≤ M) (hinc : Increasing M t) (gap : ℚ)
    (hgap : IsMinGap M t gap) (hratio : t (M - 1) - t 0 ≤ 2 ^ 25 * gap)
    (hspan : 2 * (t (M - 1) - t 0) ≤ (Rnd.binary64 ex fu).dblMax) (α : Option (D64 ex fu)) (wt : String) (hw : KnownWeight wt) :
    ∃ r, autocorrelation .fabs d { alpha := α } "natural" wt = .ok r := by
  have hspan' : 2 * (t (M - 1) - t 0) ≤ big := hspan
  have hmul : ∀ i < M, IsMul (t i) := fun i hi => by
    have := (d64_isDouble (hdbl i hi)).1
    rw [← this]; exact b64_isMul _
  have hmono : ∀ i j, i ≤ j → j < M → t i ≤ t j := by
    intro i j hij hj
    rcases lt_or_eq_of_le hij with h | h
    · exact (hinc i j h hj).le
    · rw [h]
  have hS : ∀ i < M, 0 ≤ t i - t 0 ∧ t i - t 0 ≤ t (M - 1) - t 0 := fun i hi =>
    ⟨by have := hmono 0 i (by omega) hi; linarith, by have := hmono i (M - 1) (by omega) (by omega); linarith⟩
  have hS0 := hS (M - 1) (by omega)
  obtain ⟨hM0, hn⟩ := built_times64 hd ht fun i hi => by
    have := hS i hi
    rw [abs_of_nonneg this.1]; linarith
  set S := t (M - 1) - t 0 with hSdef
  set n : ℕ → ℚ := fun i => b64 (t i - t 0) with hndef
  set T := n (M - 1) with hT
  have hgpos : 0 < gap := by
    obtain ⟨⟨i, j, hij, hj, he⟩, _⟩ := hgap
    have := hinc i j hij hj; linarith
  have hgS : gap ≤ S := by
    have := hgap.2 0 (M - 1) (by omega) (by omega); linarith
  -- errors of the normalised times
  have herr : ∀ i < M, |n i - (t i - t 0)| ≤ S / 2 ^ 53 := fun i hi => by
    have h1 := b64_error ((hmul i hi).sub (hmul 0 hM0))
    rw [pow2_m53, abs_of_nonneg (hS i hi).1] at h1
    have h2 := (hS i hi).2
    refine h1.trans ?_
    linarith
  have hn0 : n 0 = 0 := by simp [hndef, b64, roundTo_zero]
  have hnn : ∀ i < M, 0 ≤ n i := fun i hi => roundTo_nonneg (hS i hi).1
  have hnT : ∀ i < M, n i ≤ T := fun i hi => b64_mono (hS i hi).2
  have hTbig : 2 * T ≤ big := by
    have : T ≤ b64 (big / 2) := b64_mono (by linarith)
    rw [b64_half_big] at this
    linarith
  have hTS : T ≤ S * (1 + 1 / 2 ^ 53) := by
    have := (abs_le.1 (herr (M - 1) (by omega))).2
    linarith
  have hT64 : b64 T = T := roundTo_idem (by norm_num) _
  obtain ⟨r, hr1, hr2, hr3⟩ := findMinDiff_samples64 (ex := ex) M n (fun i hi => by
    have a := hnn i (by omega)
    have b := hnn (i + 1) hi
    have c := hnT i (by omega)
    have e := hnT (i + 1) hi
    rw [abs_le]; constructor <;> linarith)
  -- the computed resolution is close to the gap
  have hdiff : ∀ i, i + 1 < M → gap * (1 - 3 / 2 ^ 28) ≤ b64 (n (i + 1) - n i) := by
    intro i hi
    have a := (abs_le.1 (herr i (by omega))).2
    have b := (abs_le.1 (herr (i + 1) hi)).1
    have c := hgap.2 i (i + 1) (by omega) hi
    have hlow : gap * (1 - 1 / 2 ^ 27) ≤ n (i + 1) - n i := by linarith
    have e := b64_error ((b64_isMul (t (i + 1) - t 0)).sub (b64_isMul (t i - t 0)))
    have hpos : 0 ≤ n (i + 1) - n i := by linarith
    rw [pow2_m53, abs_of_nonneg (show 0 ≤ b64 (t (i + 1) - t 0) - b64 (t i - t 0) from hpos)] at e
    have e' := (abs_le.1 e).1
    show _ ≤ b64 (b64 (t (i + 1) - t 0) - b64 (t i - t 0))
    have hlow' : gap * (1 - 1 / 2 ^ 27) ≤ b64 (t (i + 1) - t 0) - b64 (t i - t 0) := hlow
    linarith
  have hbg : gap * (1 - 3 / 2 ^ 28) ≤ r := by
    rcases hr3 with h | ⟨i, hi, h⟩
    · rw [h]; linarith
    · rw [h]; exact hdiff i hi
  have hrT : r ≤ T := by
    have h1 := hr2 0 (by omega)
    rw [hn0, sub_zero] at h1
    have h2 : b64 (n 1) = n 1 := roundTo_idem (by norm_num) _
    have h3 := hnT 1 (by omega)
    simp only [Nat.zero_add] at h1
    linarith
  have hrmul : IsMul r := by
    rcases hr3 with h | ⟨i, hi, h⟩
    · rw [h, ← b64_big]; exact b64_isMul _
    · rw [h]; exact b64_isMul _
  have hrpos : 0 < r := by linarith
  have hH : GridHyp T r :=
    { T_mul := b64_isMul _, r_mul := hrmul, r_pos := hrpos, r_le := hrT
      ratio := by linarith
      range := hTbig }
  obtain ⟨m, hg, hm1, hm2⟩ := grid64 (ex := ex) hH
  have hT0 : 0 ≤ T := hnn _ (by omega)
  have hq : 2 * T / r ≤ 2 ^ 30 := by
    rw [div_le_iff₀ hrpos]; have := hH.ratio; linarith
  have hlast : lastD d.normT = .fin T := by rw [hn, samples_last hM0]
  have hs : slotsOf d.normT = .ok (⌊b64 (2 * T / r)⌋ + 3).toNat := by
    unfold slotsOf
    rw [hlast, hn, hr1]
    exact slots64 hT64 hrpos hT0 hTbig hq
  have hmle : (m : ℚ) - 2 ≤ 2 * T / r := by rw [le_div_iff₀ hrpos]; exact hm2
  have hmfl : ((m : Int) - 2) ≤ ⌊b64 (2 * T / r)⌋ := by
    rw [Int.le_floor]
    have h1 := b64_mono hmle
    have h2 : b64 (((m : Int) - 2 : Int) : ℚ) = (((m : Int) - 2 : Int) : ℚ) := by
      apply b64_int
      have h3 : ((m : Int) - 2 : Int) ≤ 2 ^ 30 := by
        have : (((m : Int) - 2 : Int) : ℚ) ≤ ((2 ^ 30 : Int) : ℚ) := by push_cast; linarith
        exact_mod_cast this
      rw [abs_le]; constructor <;> omega
    push_cast at h2 ⊢
    rw [h2] at h1
    exact h1
  have hfit : (lagsUpTo (.fin T : D64 ex fu) (.fin r) ((⌊b64 (2 * T / r)⌋ + 3).toNat + 1) (.fin (-T)) false).length
      ≤ (⌊b64 (2 * T / r)⌋ + 3).toNat := by
    rw [lags_fit_iff]
    refine ⟨m, hg, ?_⟩
    unfold lagTotal
    split <;> omega
  have hne : (lagsUpTo (.fin T : D64 ex fu) (.fin r) ((⌊b64 (2 * T / r)⌋ + 3).toNat + 1) (.fin (-T)) false) ≠ [] := by
    have := hg.1 0 (by omega)
    unfold lagsUpTo
    have this : Arith.le (.fin (-T) : D64 ex fu) (.fin T) = true := this
    rw [if_pos this]
    have key : ∀ (c : Prop) [Decidable c] (a b e : D64 ex fu) (u v : List (D64 ex fu)),
        (if c then a :: b :: u else e :: v) ≠ [] := by intro c _ a b e u v; split <;> simp
    exact key _ _ _ _ _ _
  obtain ⟨c', _, he⟩ := autocorrelation_eq .fabs hd.wf { alpha := α } "natural" wt
  rw [he, acPlan, hs]
  simp only [Res.ok_bind, Option.getD_none]
  have hres : findMinDiff d.normT = .fin r := by rw [hn, hr1]
  rw [hlast, hres]
  have hneg : Arith.neg (.fin T : D64 ex fu) = .fin (-T) := rfl
  rw [hneg]
  rcases planRun_natural hd.wf.ne hw (α.getD d.tMedian) (.fin (-T)) (.fin T) (.fin r)
    (⌊b64 (2 * T / r)⌋ + 3).toNat with ⟨_, L, hL, hLm⟩ | ⟨hgt, _⟩
  · rw [hL]
    have hLne : L.isEmpty = false := by
      rw [List.isEmpty_eq_false_iff]
      rintro rfl
      exact hne hLm.symm
    simp only [Res.ok_bind, hLne, Bool.false_and, Bool.false_eq_true, if_false]
    have hN : 0 < d.N := by
      obtain ⟨_, _, _, N, hN, hb⟩ := hd.built
      rw [hb.hN]; exact hN
    unfold corrOut
    split
    · exact ⟨_, rfl⟩
    · cases hr : (List.range d.N).map (d.acRow L) with
      | nil =>
        have := congrArg List.length hr
        simp at this; omega
      | cons row rows => exact ⟨_, rfl⟩
  · omega

/-! ## Concrete runs in binary64 -/

/-- binary64 with a rational function in place of `exp` (no run below uses the Gaussian weight) -/
abbrev B := D64 (fun x => 1 / (1 - x)) false

/-- the doubles nearest to given rationals, as a literal in the source would be read -/
def b (l : List ℚ) : List B := l.map XF.round

/-- the same with contracted multiply-adds, and a place where it matters -/
abbrev BF := D64 (fun x => 1 / (1 - x)) true

example : (Arith.addMul (.fin (-1)) (.fin (1 + 1 / 2 ^ 30)) (.fin (1 + 1 / 2 ^ 30)) : B) = .fin (1 / 2 ^ 29) ∧
    (Arith.addMul (.fin (-1)) (.fin (1 + 1 / 2 ^ 30)) (.fin (1 + 1 / 2 ^ 30)) : BF) = .fin (1 / 2 ^ 29 + 1 / 2 ^ 60) := by
  decide +kernel

/-- times 0, 0.1, 0.2, 0.3 as doubles -/
def bT (i : ℕ) : ℚ := b64 ((i : ℚ) / 10)

/-- `C46_default_safe` applied to them -/
example : ∃ (d : DS B) (r : AcResult B), mkFlat (samples 4 bT) (b [1, 2, 3, 4]) = .ok d ∧
    autocorrelation .fabs d { alpha := some (.fin 2) } "natural" "fractional_squared" = .ok r := by
  have h : ∃ d : DS B, mkFlat (samples 4 bT) (b [1, 2, 3, 4]) = .ok d ∧ d.timeseries = samples 4 bT := by
    have h1 : ((mkFlat (samples 4 bT : List B) (b [1, 2, 3, 4])).bind fun d => .ok d.timeseries)
        = .ok (samples 4 bT) := by decide +kernel
    cases hd : mkFlat (samples 4 bT : List B) (b [1, 2, 3, 4]) with
    | ok d => rw [hd] at h1; simp only [Res.ok_bind, Res.ok.injEq] at h1; exact ⟨d, rfl, h1⟩
    | exn e => rw [hd] at h1; simp at h1
    | ub => rw [hd] at h1; simp at h1
    | diverge => rw [hd] at h1; simp at h1
  obtain ⟨d, hd, ht⟩ := h
  have hlt : ∀ j < 4, ∀ i < j, bT i < bT j ∧ bT 3 - bT 2 ≤ bT j - bT i := by decide +kernel
  obtain ⟨r, hr⟩ := C46_default_safe d (.flat hd) 4 bT ht
    (by unfold XF.IsDouble; decide +kernel) (by norm_num) (fun i j hij hj => (hlt j hj i hij).1)
    (bT 3 - bT 2) ⟨⟨2, 3, by norm_num, by norm_num, rfl⟩, fun i j hij hj => (hlt j hj i hij).2⟩
    (by decide +kernel) (by decide +kernel) (some (.fin 2)) "fractional_squared" (by unfold KnownWeight; simp)
  exact ⟨d, r, hd, hr⟩

/-- the call of C46 on times 0, 0.1, 0.2, 0.3 (read as doubles): the hypotheses of C46 hold, the call returns, and
because of rounding the lag list has `-2^-54` *and* the inserted 0 -/
theorem C46_witness : ((mkFlat (b [0, 1/10, 2/10, 3/10]) (b [1, 2, 3, 4])).bind fun d =>
    (autocorrelation .fabs d).bind fun r => .ok r.lags) = .ok [
      .fin (-5404319552844595 / 2 ^ 54), .fin (-3602879701896397 / 2 ^ 54), .fin (-1801439850948199 / 2 ^ 54),
      .fin (-1 / 2 ^ 54), .fin 0,
      .fin (1801439850948197 / 2 ^ 54), .fin (3602879701896395 / 2 ^ 54), .fin (5404319552844593 / 2 ^ 54)] := by
  decide +kernel

/-- **C34 is false of the code in binary64**: the row is 0.1, 0.1, 0.1 and the correlations are numbers. -/
theorem C34_false_binary64 : ((mkFlat (b [0, 1, 2]) (b [1/10, 1/10, 1/10])).bind fun d =>
    (autocorrelation .fabs d).bind fun r => .ok (r.corrs.rows.all fun row => row.all fun x => !(Arith.isNaN x)))
      = .ok true := by
  decide +kernel

/-- **C25 in binary64**: the value at lag zero is `N * (1 / N)`, here `98 * (1/98) = 1 - 2^-53`. -/
theorem C25_binary64 : ((mkFlat (b [0, 1, 2]) (b [3, 5, -8])).bind fun d =>
    (autocorrelation .fabs d).bind fun r => .ok (r.lags[2]?, r.corrs.rows.map (·[2]?)))
      = .ok (some (.fin 0), [some (.fin (1 - 1 / 2 ^ 53))]) := by
  decide +kernel

/-- **C26 is false of the code in binary64**: for the values 0.1, 0.2, 0.3 the value at lag zero is less than
`1 - 10^-7`. -/
theorem C26_false_binary64 : ((mkFlat (b [0, 1, 2]) (b [1/10, 2/10, 3/10])).bind fun d =>
    (autocorrelation .fabs d).bind fun r => .ok (r.lags[2]?, r.corrs.rows.map (·[2]?)))
      = .ok (some (.fin 0), [some (.fin (2251799578804231 / 2 ^ 51))]) ∧
    (2251799578804231 / 2 ^ 51 : ℚ) < 1 - 1 / 10 ^ 7 := by
  decide +kernel

end Sacf
