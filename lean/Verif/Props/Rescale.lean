import Verif.Props.Units
import Verif.Lemmas.Scale
import Mathlib.Tactic.LinearCombination

/-!
# Another unit and another origin of time, in rounded arithmetic (C28, C29)

For times on exactly representable grids, a change of the unit (also by factors like 3 or 86400) and of the origin changes
no bit of the correlations: the weights depend on quotients of times only, and a rounded quotient is a function of the
exact one.
-/

set_option linter.unusedSectionVars false
set_option exponentiation.threshold 3000

namespace Sacf

open Arith

variable {K : Type} [Field K] [LinearOrder K] [IsStrictOrderedRing K] [FloorRing K] {R : Rnd K} {g g' : K} {B B' : ℤ}

/-- the rational weights depend on the ratio of distance and `alpha` only -/
theorem fweight_ratio {wt : String} (hw : wt = "fractional" ∨ wt = "fractional_squared") {α α' δ δ' : K} (hα : α ≠ 0) (hα' : α' ≠ 0)
    (h : δ / α = δ' / α') : fweight wt (.fin α : XF R) (.fin δ) = fweight wt (.fin α') (.fin δ') := by
  have hdiv : (Arith.div (.fin δ) (.fin α) : XF R) = Arith.div (.fin δ') (.fin α') := by
    show (if α = 0 then _ else XF.round (δ / α)) = (if α' = 0 then _ else XF.round (δ' / α'))
    rw [if_neg hα, if_neg hα', h]
  rcases hw with rfl | rfl
  · unfold fweight
    rw [if_neg (by decide), if_neg (by decide), hdiv, if_neg (by decide), if_neg (by decide)]
  · unfold fweight
    rw [if_neg (by decide), if_pos rfl, hdiv, if_neg (by decide), if_pos rfl]

/-- the pairs of a lag and those of the corresponding lag in another unit -/
theorem lagPlan_rescale (h : ExactUnit R g B) (h' : ExactUnit R g' B') {M : ℕ} {u : ℕ → ℤ} (hM : 0 < M) (hu : IncreasingZ M u)
    (hu0 : u 0 = 0) {p : ℤ} (hp : 0 < p) {k : ℤ} (hk : |k| + u (M - 1) ≤ B) (hk' : p * (|k| + u (M - 1)) ≤ B') {wt : String}
    (hw : wt = "fractional" ∨ wt = "fractional_squared") {α α' : K} (hα : α ≠ 0) (hα' : α' ≠ 0) (hr : α * (p * g') = α' * g) :
    lagPlan .fabs "natural" wt (samples M fun i => ((p * u i : ℤ) : K) * g') (.fin α' : XF R) (.fin ((p * k : ℤ) * g'))
      = lagPlan .fabs "natural" wt (samples M fun i => (u i : K) * g) (.fin α : XF R) (.fin (k * g)) := by
  have hwk : KnownWeight wt := by unfold KnownWeight; tauto
  have hle : ∀ i < M, 0 ≤ u i ∧ u i ≤ u (M - 1) := fun i hi => by
    have a1 := hu.le (Nat.zero_le i) hi
    have a2 := hu.le (show i ≤ M - 1 by omega) (by omega)
    omega
  have hk1 := neg_abs_le k
  have hk2 := le_abs_self k
  have hb1 : ∀ i < M, |u i + k| ≤ |k| + u (M - 1) := fun i hi => by
    have := hle i hi
    rw [abs_le]; constructor <;> omega
  have hb2 : ∀ i < M, ∀ j < M, u i + k ≤ u (M - 1) → |u i + k - u j| ≤ |k| + u (M - 1) := fun i hi j hj hij => by
    have a1 := hle i hi
    have a2 := hle j hj
    rw [abs_le]; constructor <;> omega
  have hpm : ∀ x y : ℤ, p * x ≤ p * y ↔ x ≤ y := fun x y => mul_le_mul_iff_right₀ hp
  have hpa : ∀ x : ℤ, |p * x| = p * |x| := fun x => by rw [abs_mul, abs_of_pos hp]
  obtain ⟨m, s, p1, p2, p3, p4⟩ := lagPlan_ticks h hM hu k (fun i hi => (hb1 i hi).trans hk)
    (fun i hi j hj hij => (hb2 i hi j hj hij).trans hk) (planWt_fweight hwk) (.fin α)
  have hu' : IncreasingZ M fun i => p * u i := fun i j hij hj => mul_lt_mul_of_pos_left (hu i j hij hj) hp
  obtain ⟨m', s', q1, q2, q3, q4⟩ := lagPlan_ticks h' hM hu' (p * k) (fun i hi => by
      rw [← mul_add, hpa]
      exact ((hpm _ _).2 (hb1 i hi)).trans hk')
    (fun i hi j hj hij => by
      rw [← mul_add] at hij
      rw [← mul_add, ← mul_sub, hpa]
      exact ((hpm _ _).2 (hb2 i hi j hj ((hpm _ _).1 hij))).trans hk') (planWt_fweight hwk) (.fin α')
  rw [p4, q4]
  have hmm : m' = m := by
    have key : ∀ i < M, (i < m' ↔ i < m) := fun i hi => by
      rw [p2 i hi, q2 i hi, ← mul_add, hpm]
    rcases Nat.lt_trichotomy m' m with h1 | h1 | h1
    · have := (key m' (by omega)).2 h1; omega
    · exact h1
    · have := (key m (by omega)).1 h1; omega
  subst hmm
  congr 1
  apply List.map_congr_left
  intro i hi
  have hi := List.mem_range.1 hi
  have hpK : (0 : K) < p := by exact_mod_cast hp
  have hs : s' i = s i := by
    refine (q3 i hi).unique ?_
    refine ⟨(p3 i hi).1, fun j hj => ?_⟩
    have hnear := (p3 i hi).2 j hj
    have e : ∀ j, |((p * u j : ℤ) : K) * g' - ((p * u i + p * k : ℤ) : K) * g'| * g
        = |(u j : K) * g - ((u i + k : ℤ) : K) * g| * (p * g') := by
      intro j
      have e1 : ((p * u j : ℤ) : K) * g' - ((p * u i + p * k : ℤ) : K) * g' = ((u j : K) - ((u i + k : ℤ) : K)) * (p * g') := by
        push_cast; ring
      rw [e1, ← sub_mul, abs_mul _ ((p : K) * g'), abs_mul _ g, abs_of_pos (mul_pos hpK h'.pos), abs_of_pos h.pos]
      ring
    rcases hnear with h1 | ⟨h1, h2⟩
    · left
      rw [← mul_lt_mul_iff_left₀ h.pos, e, e]
      exact mul_lt_mul_of_pos_right h1 (mul_pos hpK h'.pos)
    · right
      refine ⟨?_, h2⟩
      apply mul_right_cancel₀ h.pos.ne'
      rw [e, e, h1]
  rw [hs]
  congr 1
  apply fweight_ratio hw hα' hα
  rw [← mul_add, ← mul_sub, hpa, div_eq_div_iff hα' hα]
  push_cast
  linear_combination (|(u (s i) : K) - (u i + k)|) * hr

/-- **C28/C29 in any rounding**: the times of `d'` are `(a + p τ_i) g'` where those of `d` are `τ_i g`, both on exactly
representable grids, the values are the same, and `alpha` is changed accordingly.  Where the lags of the two results
correspond, the correlations are the same, bit for bit, whatever the values are (NaN and infinities included). -/
theorem C29_rounded (h : ExactUnit R g B) (h' : ExactUnit R g' B') (d d' : DS (XF R)) (hd : Constructed d) (hd' : Constructed d')
    (hdat : d.data2d = d'.data2d) (M : ℕ) (τ : ℕ → ℤ) (hinc : IncreasingZ M τ) (a p : ℤ) (hp : 0 < p)
    (ht : d.timeseries = samples M fun i => (τ i : K) * g) (ht' : d'.timeseries = samples M fun i => ((a + p * τ i : ℤ) : K) * g')
    (ga ga' : LagArgs (XF R)) (wt : String) (hw : wt = "fractional" ∨ wt = "fractional_squared") (r r' : AcResult (XF R))
    (hr : autocorrelation .fabs d ga "natural" wt = .ok r) (hr' : autocorrelation .fabs d' ga' "natural" wt = .ok r')
    (α α' : K) (hα : r.corr.alpha = .fin α) (hα' : r'.corr.alpha = .fin α') (hα0 : α ≠ 0) (hα0' : α' ≠ 0)
    (hratio : α * (p * g') = α' * g) (kz : List ℤ) (hl : r.lags = kz.map fun k => .fin (k * g))
    (hl' : r'.lags = kz.map fun k => .fin ((p * k : ℤ) * g')) (hk : ∀ k ∈ kz, |k| + (τ (M - 1) - τ 0) ≤ B)
    (hk' : ∀ k ∈ kz, p * (|k| + (τ (M - 1) - τ 0)) ≤ B') : r'.corrs = r.corrs := by
  obtain ⟨_, L, hL, hlags, hout, hc⟩ := autocorrelation_ok hd.wf hr
  obtain ⟨_, L', hL', hlags', hout', hc'⟩ := autocorrelation_ok hd'.wf hr'
  obtain ⟨rows, hrows⟩ := data2d_ok hd
  rw [acRows_of_table hd hrows] at hout
  rw [acRows_of_table hd' (hdat ▸ hrows)] at hout'
  have hal : ga.alpha.getD d.tMedian = .fin α := by rw [← (result_params hd.wf hr).2.2.2]; exact hα
  have hal' : ga'.alpha.getD d'.tMedian = .fin α' := by rw [← (result_params hd'.wf hr').2.2.2]; exact hα'
  have hplan := acPlan_ok hL
  have hplan' := acPlan_ok hL'
  rw [hal] at hplan
  rw [hal'] at hplan'
  have hlen : L.length = kz.length := by
    have := congrArg List.length (hlags.symm.trans hl)
    simpa using this
  have hlen' : L'.length = kz.length := by
    have := congrArg List.length (hlags'.symm.trans hl')
    simpa using this
  have hsnd : L'.map Prod.snd = L.map Prod.snd := by
    apply List.ext_getElem
    · simp [hlen, hlen']
    intro n h1 h2
    simp only [List.length_map] at h1 h2
    rw [List.getElem_map, List.getElem_map]
    have hn : n < kz.length := by omega
    have hkm : kz[n] ∈ kz := List.getElem_mem hn
    have e1 : L[n].1 = .fin ((kz[n] : K) * g) := by
      have h3 := congrArg (fun l => l[n]?) (hlags.symm.trans hl)
      simpa [h2, hn] using h3
    have e2 : L'[n].1 = .fin (((p * kz[n] : ℤ) : K) * g') := by
      have h3 := congrArg (fun l => l[n]?) (hlags'.symm.trans hl')
      simpa [h1, hn] using h3
    have f1 := hplan L[n] (List.getElem_mem h2)
    have f2 := hplan' L'[n] (List.getElem_mem h1)
    have hT : ∀ i < M, 0 ≤ τ i - τ 0 ∧ τ i - τ 0 ≤ τ (M - 1) - τ 0 := fun i hi => by
      have a1 := hinc.le (Nat.zero_le i) hi
      have a2 := hinc.le (show i ≤ M - 1 by omega) (by omega)
      omega
    have hk0 := abs_nonneg kz[n]
    have b1 := hk _ hkm
    have b2 := hk' _ hkm
    have hpT : ∀ i < M, |a + p * τ i - (a + p * τ 0)| ≤ B' := fun i hi => by
      have e : a + p * τ i - (a + p * τ 0) = p * (τ i - τ 0) := by ring
      rw [e, abs_of_nonneg (mul_nonneg hp.le (hT i hi).1)]
      refine le_trans (mul_le_mul_of_nonneg_left ?_ hp.le) b2
      have := hT i hi
      omega
    obtain ⟨hM, hnt⟩ := ticks_normT h hd ht (fun i hi => by
      have := hT i hi
      rw [abs_of_nonneg this.1]; omega)
    obtain ⟨_, hnt'⟩ := ticks_normT h' hd' ht' hpT
    have e3 : ∀ i, a + p * τ i - (a + p * τ 0) = p * (τ i - τ 0) := fun i => by ring
    simp only [e3] at hnt'
    rw [e1, hnt] at f1
    rw [e2, hnt'] at f2
    have := lagPlan_rescale h h' (u := fun i => τ i - τ 0) hM (fun i j hij hj => by
        have := hinc i j hij hj; simp only; omega) (by simp) hp b1 b2 hw hα0 hα0' hratio
    rw [f1, f2] at this
    simpa using this
  have hrow : ∀ row : List (XF R), rowCorr row L' = rowCorr row L := by
    intro row
    unfold rowCorr
    have := congrArg (List.map (corrValue (row.map fun x => sub x (meanOf row)) (normOfRow row (meanOf row)))) hsnd
    simpa [List.map_map, Function.comp_def] using this
  simp only [hrow] at hout'
  rw [hout] at hout'
  simpa using hout'.symm

/-- there is a smallest gap -/
theorem exists_minGapZ {M : ℕ} {τ : ℕ → ℤ} (hM : 2 ≤ M) (hinc : IncreasingZ M τ) : ∃ δ, IsMinGapZ M τ δ := by
  classical
  have hex : ∃ n : ℕ, ∃ i j, i < j ∧ j < M ∧ τ j - τ i = n :=
    ⟨(τ 1 - τ 0).toNat, 0, 1, by omega, by omega, by have := hinc 0 1 (by omega) (by omega); omega⟩
  refine ⟨Nat.find hex, Nat.find_spec hex, fun i j hij hj => ?_⟩
  have := hinc i j hij hj
  have h2 := Nat.find_min' hex (m := (τ j - τ i).toNat) ⟨i, j, hij, hj, by omega⟩
  omega

/-- twice the median of the times counted from the first, in units -/
def med2 (M : ℕ) (τ : ℕ → ℤ) : ℤ :=
  if M % 2 = 0 then (τ (M / 2 - 1) - τ 0) + (τ (M / 2) - τ 0) else 2 * (τ (M / 2) - τ 0)

/-- the median of times that are even multiples of the unit is exact -/
theorem even_median (h : ExactUnit R g B) {d : DS (XF R)} (hd : Constructed d) {M : ℕ} {τ : ℕ → ℤ} (hinc : IncreasingZ M τ)
    (ht : d.timeseries = samples M fun i => ((2 * τ i : ℤ) : K) * g) (hM : 2 ≤ M) (hB : 4 * (τ (M - 1) - τ 0) ≤ B) :
    d.tMedian = .fin ((med2 M τ : ℤ) * g) ∧ 0 < med2 M τ := by
  have hT : ∀ i < M, 0 ≤ τ i - τ 0 ∧ τ i - τ 0 ≤ τ (M - 1) - τ 0 := fun i hi => by
    have a1 := hinc.le (Nat.zero_le i) hi
    have a2 := hinc.le (show i ≤ M - 1 by omega) (by omega)
    omega
  have hpos : 0 < τ (M / 2) - τ 0 := by have := hinc 0 (M / 2) (by omega) (by omega); omega
  obtain ⟨hM0, hnt⟩ := ticks_normT h hd ht (fun i hi => by
    have := hT i hi
    rw [abs_of_nonneg (by omega)]; omega)
  obtain ⟨_, _, _, _, _, hbu⟩ := hd.built
  have hmed := hbu.med
  unfold settMedian at hmed
  rw [hnt] at hmed
  simp only [samples_length] at hmed
  have hget : ∀ i < M, rawGet (samples M (fun i => ((2 * τ i - 2 * τ 0 : ℤ) : K) * g) : List (XF R)) i
      = .ok (.fin (((2 * τ i - 2 * τ 0 : ℤ) : K) * g)) := by
    intro i hi
    rw [rawGet_eq_ok, samples_getElem? hi]
  unfold med2
  have b1 := hT (M / 2) (by omega)
  have b2 := hT (M / 2 - 1) (by omega)
  split at hmed
  · rename_i heven
    rw [if_pos heven]
    refine ⟨?_, by omega⟩
    rw [hget _ (by omega), hget _ (by omega)] at hmed
    simp only [Res.ok_bind, Res.ok.injEq] at hmed
    rw [tick_add h (by rw [abs_of_nonneg (by omega)]; omega)] at hmed
    rw [← hmed]
    show (if (2 : K) = 0 then _ else XF.round _) = _
    rw [if_neg two_ne_zero]
    have e2 : (((2 * τ (M / 2 - 1) - 2 * τ 0 + (2 * τ (M / 2) - 2 * τ 0) : ℤ) : K) * g) / 2
        = ((τ (M / 2 - 1) - τ 0 + (τ (M / 2) - τ 0) : ℤ) : K) * g := by push_cast; ring
    rw [e2]
    exact h.exact _ (by rw [abs_of_nonneg (by omega)]; omega)
  · rename_i hodd
    rw [if_neg hodd]
    refine ⟨?_, by omega⟩
    rw [hget _ (by omega)] at hmed
    simp only [Res.ok.injEq] at hmed
    rw [← hmed]
    congr 3; ring

variable {ex : ℚ → ℚ} {fu : Bool}

/-- **C28/C29 in binary64**: default calls for the times `τ_i 2^e` and `(a + p τ_i) 2^e'`, for example days and the seconds they
stand for, or integers and the same times in eighths counted from another origin.  Both calls return, the lags correspond, and
the correlations are equal bit for bit.  The span is at most `2^51` units of either kind and at most `2^29` smallest gaps. -/
theorem C29_binary64 (e e' : ℤ) (he : -1073 ≤ e) (he1 : e ≤ 970) (he' : -1073 ≤ e') (he1' : e' ≤ 970) (d d' : DS (D64 ex fu))
    (hd : Constructed d) (hd' : Constructed d') (hdat : d.data2d = d'.data2d) (M : ℕ) (hM : 2 ≤ M) (τ : ℕ → ℤ)
    (hinc : IncreasingZ M τ) (a p : ℤ) (hp : 0 < p) (ht : d.timeseries = samples M fun i => (τ i : ℚ) * pow2 e)
    (ht' : d'.timeseries = samples M fun i => ((a + p * τ i : ℤ) : ℚ) * pow2 e')
    (hspan : p * (τ (M - 1) - τ 0) ≤ 2 ^ 51) (hgap : ∀ i, i + 1 < M → τ (M - 1) - τ 0 ≤ 2 ^ 29 * (τ (i + 1) - τ i))
    (wt : String) (hw : wt = "fractional" ∨ wt = "fractional_squared") :
    ∃ (r r' : AcResult (D64 ex fu)) (kz : List ℤ), autocorrelation .fabs d {} "natural" wt = .ok r ∧ autocorrelation .fabs d' {} "natural" wt = .ok r' ∧
      (r.lags = kz.map fun k : ℤ => .fin (k * pow2 e)) ∧ (r'.lags = kz.map fun k : ℤ => .fin ((p * k : ℤ) * pow2 e')) ∧
      r'.corrs = r.corrs := by
  have hT : ∀ i < M, 0 ≤ τ i - τ 0 ∧ τ i - τ 0 ≤ τ (M - 1) - τ 0 := fun i hi => by
    have a1 := hinc.le (Nat.zero_le i) hi
    have a2 := hinc.le (show i ≤ M - 1 by omega) (by omega)
    omega
  have hT0 := (hT (M - 1) (by omega)).1
  have hTp : τ (M - 1) - τ 0 ≤ p * (τ (M - 1) - τ 0) := le_mul_of_one_le_left hT0 (by omega)
  obtain ⟨δ, hδ⟩ := exists_minGapZ hM hinc
  have hTδ : τ (M - 1) - τ 0 ≤ 2 ^ 29 * δ := by
    obtain ⟨⟨i, j, hij, hj, he⟩, _⟩ := hδ
    have a1 := hgap i (by omega)
    have a2 := hinc.le (show i + 1 ≤ j by omega) hj
    have : (2 : ℤ) ^ 29 * (τ (i + 1) - τ i) ≤ 2 ^ 29 * δ := mul_le_mul_of_nonneg_left (by omega) (by norm_num)
    linarith
  have hu := exactUnit64 (ex := ex) (fu := fu) (e - 1) (by omega) (by omega)
  have hu' := exactUnit64 (ex := ex) (fu := fu) (e' - 1) (by omega) (by omega)
  have hpe : ∀ e, pow2 e = 2 * pow2 (e - 1) := fun e => by
    rw [← pow2_one, ← pow2_add]; congr 1; ring
  have hscale : ∀ (e z : ℤ), (z : ℚ) * pow2 e = ((2 * z : ℤ) : ℚ) * pow2 (e - 1) := by
    intro e z; rw [hpe e]; push_cast; ring
  have ht2 : d.timeseries = samples M fun i => ((2 * τ i : ℤ) : ℚ) * pow2 (e - 1) := by
    rw [ht]; congr 1; funext i; rw [hscale]
  have ht2' : d'.timeseries = samples M fun i => ((2 * (a + p * τ i) : ℤ) : ℚ) * pow2 (e' - 1) := by
    rw [ht']; congr 1; funext i; rw [hscale]
  have hinc2 : IncreasingZ M fun i => 2 * τ i := fun i j hij hj => by have := hinc i j hij hj; simp only; omega
  have hinc1' : IncreasingZ M fun i => a + p * τ i := fun i j hij hj => by
    have := mul_lt_mul_of_pos_left (hinc i j hij hj) hp
    simp only; omega
  have hinc2' : IncreasingZ M fun i => 2 * (a + p * τ i) := fun i j hij hj => by have := hinc1' i j hij hj; simp only at this ⊢; omega
  have hround : ∀ n : ℤ, |n| ≤ 2 ^ 30 → (XF.round (n : ℚ) : D64 ex fu) = .fin n := fun n hn =>
    round_int64 n (hn.trans (by norm_num))
  have hwk : KnownWeight wt := by unfold KnownWeight; tauto
  have hpT : ∀ i, (a + p * τ i) - (a + p * τ 0) = p * (τ i - τ 0) := fun i => by ring
  have hpT2 : 2 * (a + p * τ (M - 1)) - 2 * (a + p * τ 0) = 2 * (p * (τ (M - 1) - τ 0)) := by ring
  obtain ⟨r, hr, ks, k1, k2, k3⟩ := C60_default_lags hu d hd M (fun i => 2 * τ i) ht2 hM hinc2 (2 * δ) (by
      obtain ⟨⟨i, j, hij, hj, he⟩, h2⟩ := hδ
      exact ⟨⟨i, j, hij, hj, by simp only; omega⟩, fun i j hij hj => by have := h2 i j hij hj; simp only; omega⟩)
    (by norm_num at hspan ⊢; omega) (2 ^ 30) (by norm_num at hTδ ⊢; omega) (by norm_num) hround none wt hwk
  obtain ⟨r', hr', ks', k1', k2', k3'⟩ := C60_default_lags hu' d' hd' M (fun i => 2 * (a + p * τ i)) ht2' hM hinc2' (2 * (p * δ)) (by
      obtain ⟨⟨i, j, hij, hj, he⟩, h2⟩ := hδ
      refine ⟨⟨i, j, hij, hj, by simp only; rw [← he]; ring⟩, fun i j hij hj => ?_⟩
      have := mul_le_mul_of_nonneg_left (h2 i j hij hj) hp.le
      simp only
      linarith)
    (by simp only [hpT2]; norm_num at hspan ⊢; omega) (2 ^ 30) (by
      simp only [hpT2]
      have := mul_le_mul_of_nonneg_left hTδ hp.le
      linarith) (by norm_num) hround none wt hwk
  have q0 := pow2_pos e
  have q0' := pow2_pos e'
  have hmem : ∀ k, k ∈ ks → ∃ z : ℤ, k = z * pow2 e ∧ |z| ≤ τ (M - 1) - τ 0 := by
    intro k hk
    rcases (k3 k).1 hk with ⟨n, hn, rfl⟩ | rfl
    · refine ⟨-(τ (M - 1) - τ 0) + n * δ, ?_, ?_⟩
      · rw [hscale e]; congr 2; ring
      · have hδ0 : 0 < δ := by
          obtain ⟨⟨i, j, hij, hj, he⟩, _⟩ := hδ
          have := hinc i j hij hj; omega
        have : 0 ≤ (n : ℤ) * δ := mul_nonneg (by omega) hδ0.le
        rw [abs_le]; constructor <;> linarith
    · exact ⟨0, by simp, by simpa using hT0⟩
  obtain ⟨kz, hkz, hkb⟩ : ∃ kz : List ℤ, ks = kz.map (fun z : ℤ => (z : ℚ) * pow2 e) ∧ ∀ z ∈ kz, |z| ≤ τ (M - 1) - τ 0 := by
    have : ∀ l : List ℚ, (∀ k ∈ l, ∃ z : ℤ, k = z * pow2 e ∧ |z| ≤ τ (M - 1) - τ 0) →
        ∃ kz : List ℤ, l = kz.map (fun z : ℤ => (z : ℚ) * pow2 e) ∧ ∀ z ∈ kz, |z| ≤ τ (M - 1) - τ 0 := by
      intro l
      induction l with
      | nil => exact fun _ => ⟨[], rfl, by simp⟩
      | cons k l ih =>
        intro hl
        obtain ⟨z, h1, h2⟩ := hl k (by simp)
        obtain ⟨kz, h3, h4⟩ := ih fun k hk => hl k (by simp [hk])
        refine ⟨z :: kz, by simp [h1, h3], ?_⟩
        intro z' hz'
        rcases List.mem_cons.1 hz' with rfl | hz'
        · exact h2
        · exact h4 z' hz'
    exact this ks hmem
  have hks' : ks' = kz.map (fun z : ℤ => ((p * z : ℤ) : ℚ) * pow2 e') := by
    apply sorted_ext k2'
    · rw [hkz, List.pairwise_map] at k2
      rw [List.pairwise_map]
      refine k2.imp fun {x y} hxy => ?_
      have hxy := (mul_lt_mul_iff_left₀ q0).1 hxy
      apply mul_lt_mul_of_pos_right _ q0'
      have : x < y := by exact_mod_cast hxy
      exact_mod_cast mul_lt_mul_of_pos_left this hp
    · intro k
      have hz : ∀ z : ℤ, z ∈ kz ↔ ((∃ n : ℕ, -(τ (M - 1) - τ 0) + n * δ ≤ τ (M - 1) - τ 0 ∧ z = -(τ (M - 1) - τ 0) + n * δ) ∨ z = 0) := by
        intro z
        have e1 : z ∈ kz ↔ (z : ℚ) * pow2 e ∈ ks := by
          rw [hkz, List.mem_map]
          constructor
          · intro h; exact ⟨z, h, rfl⟩
          · rintro ⟨z', h, h2⟩
            have := mul_right_cancel₀ q0.ne' h2
            rwa [← (by exact_mod_cast this : z' = z)]
        rw [e1, k3]
        constructor
        · rintro (⟨n, hn, h2⟩ | h2)
          · left
            refine ⟨n, by linarith, ?_⟩
            rw [hscale e] at h2
            have h2 := mul_right_cancel₀ (pow2_pos (e - 1)).ne' h2
            have h2 : 2 * z = -(2 * τ (M - 1) - 2 * τ 0) + n * (2 * δ) := by exact_mod_cast h2
            linarith
          · right
            have := (mul_eq_zero.1 h2).resolve_right q0.ne'
            exact_mod_cast this
        · rintro (⟨n, hn, rfl⟩ | rfl)
          · left
            refine ⟨n, by linarith, ?_⟩
            rw [hscale e]; congr 2; ring
          · right; simp
      rw [k3', List.mem_map]
      constructor
      · rintro (⟨n, hn, rfl⟩ | rfl)
        · refine ⟨-(τ (M - 1) - τ 0) + n * δ, (hz _).2 (Or.inl ⟨n, ?_, rfl⟩), ?_⟩
          · have : p * (-(τ (M - 1) - τ 0) + n * δ) ≤ p * (τ (M - 1) - τ 0) := by linarith
            exact le_of_mul_le_mul_left this hp
          · rw [hscale e']; congr 2; ring
        · exact ⟨0, (hz 0).2 (Or.inr rfl), by simp⟩
      · rintro ⟨z, hz', rfl⟩
        rcases (hz z).1 hz' with ⟨n, hn, rfl⟩ | rfl
        · left
          refine ⟨n, ?_, ?_⟩
          · have := mul_le_mul_of_nonneg_left hn hp.le
            linarith
          · rw [hscale e']; congr 2; ring
        · right; simp
  have hl : r.lags = kz.map fun k : ℤ => .fin (k * pow2 e) := by rw [k1, hkz, List.map_map]; rfl
  have hl' : r'.lags = kz.map fun k : ℤ => .fin ((p * k : ℤ) * pow2 e') := by rw [k1', hks', List.map_map]; rfl
  refine ⟨r, r', kz, hr, hr', hl, hl', ?_⟩
  obtain ⟨m1, m2⟩ := even_median hu hd hinc ht2 hM (by norm_num at hspan ⊢; omega)
  obtain ⟨m1', m2'⟩ := even_median hu' hd' hinc1' ht2' hM (by simp only [hpT]; norm_num at hspan ⊢; omega)
  have hmed : med2 M (fun i => a + p * τ i) = p * med2 M τ := by
    unfold med2
    simp only [hpT]
    split <;> ring
  have c1 := (result_params hd.wf hr).2.2.2
  have c1' := (result_params hd'.wf hr').2.2.2
  simp only [Option.getD_none] at c1 c1'
  rw [m1] at c1
  rw [m1', hmed] at c1'
  rw [hmed] at m2'
  have b2 : ∀ k ∈ kz, p * |k| ≤ p * (τ (M - 1) - τ 0) := fun k hk => mul_le_mul_of_nonneg_left (hkb k hk) hp.le
  refine C29_rounded (exactUnit64 e (by omega) he1) (exactUnit64 e' (by omega) he1') d d' hd hd' hdat M τ hinc a p hp ht ht' {} {} wt hw
    r r' hr hr' _ _ c1 c1' (mul_pos (by exact_mod_cast m2) (pow2_pos _)).ne' (mul_pos (by exact_mod_cast m2') (pow2_pos _)).ne'
    ?_ kz hl hl' (fun k hk => ?_) (fun k hk => ?_)
  · rw [hpe e, hpe e']
    push_cast
    ring
  · have := hkb k hk
    norm_num at hspan ⊢; omega
  · have := b2 k hk
    rw [mul_add]
    norm_num at hspan ⊢; omega

/-! ### cases -/

/-- C29_binary64 applied to the times 0, 1, 3 and 5, 5.75, 7.25 (unit 1/4, `a = 20`, `p = 3`), values 0.1, 0.2, 0.7 -/
example : ∃ d d' r r', mkFlat (b [0, 1, 3]) (b [1/10, 2/10, 7/10]) = .ok d ∧
    mkFlat (b [5, 5 + 3/4, 7 + 1/4]) (b [1/10, 2/10, 7/10]) = .ok d' ∧ autocorrelation .fabs d = .ok r ∧
    autocorrelation .fabs d' = .ok r' ∧ r'.corrs = r.corrs := by
  let τ : ℕ → ℤ := fun i => [0, 1, 3].getD i 0
  obtain ⟨d, d', hd, hd', h1, h2, h3⟩ : ∃ d d', mkFlat (b [0, 1, 3]) (b [1/10, 2/10, 7/10]) = .ok d ∧
      mkFlat (b [5, 5 + 3/4, 7 + 1/4]) (b [1/10, 2/10, 7/10]) = .ok d' ∧
      d.timeseries = (samples 3 fun i => (τ i : ℚ) * pow2 0) ∧
      d'.timeseries = (samples 3 fun i => ((20 + 3 * τ i : ℤ) : ℚ) * pow2 (-2)) ∧ d.data2d = d'.data2d := by
    have key : ((mkFlat (b [0, 1, 3]) (b [1/10, 2/10, 7/10])).bind fun d =>
        (mkFlat (b [5, 5 + 3/4, 7 + 1/4]) (b [1/10, 2/10, 7/10])).bind fun d' =>
          .ok (d.timeseries, d'.timeseries, decide (d.data2d = d'.data2d)))
        = .ok ((samples 3 fun i => (τ i : ℚ) * pow2 0), (samples 3 fun i => ((20 + 3 * τ i : ℤ) : ℚ) * pow2 (-2)), true) := by
      decide +kernel
    obtain ⟨d, hd, he⟩ := Res.bind_eq_ok.1 key
    obtain ⟨d', hd', he⟩ := Res.bind_eq_ok.1 he
    simp only [Res.ok.injEq, Prod.mk.injEq, decide_eq_true_eq] at he
    exact ⟨d, d', hd, hd', he⟩
  obtain ⟨r, r', _, hr, hr', _, _, h⟩ := C29_binary64 0 (-2) (by norm_num) (by norm_num) (by norm_num) (by norm_num) d d' (.flat hd)
    (.flat hd') h3 3 (by norm_num) τ (by
      intro i j hij hj
      have : ∀ j < 3, ∀ i < j, τ i < τ j := by decide
      exact this j hj i hij) 20 3 (by norm_num) h1 h2 (by decide) (by
      intro i hi
      have : ∀ i < 2, τ (3 - 1) - τ 0 ≤ 2 ^ 29 * (τ (i + 1) - τ i) := by decide
      exact this i (by omega)) "fractional" (Or.inl rfl)
  exact ⟨d, d', r, r', hd, hd', hr, hr', h⟩

/-- what they return: not a trivial result, and the lags differ -/
example : ((mkFlat (b [0, 1, 3]) (b [1/10, 2/10, 7/10])).bind fun d => (autocorrelation .fabs d).bind fun r =>
    (mkFlat (b [5, 5 + 3/4, 7 + 1/4]) (b [1/10, 2/10, 7/10])).bind fun d' => (autocorrelation .fabs d').bind fun r' =>
      .ok (r.lags, r'.lags, decide (r'.corrs = r.corrs), r.corrs.rows.map fun row => decide (row[4]? = row[5]?)))
    = .ok (b [-3, -2, -1, 0, 1, 2, 3], b [-9/4, -3/2, -3/4, 0, 3/4, 3/2, 9/4], true, [false]) := by
  decide +kernel

/-- **C29 needs the grid**: in binary64 the times 0, 1, 2, 3 give 7 lags, the times 0, 0.1, 0.2, 0.3 give 8. -/
theorem C29_false_binary64 : ((mkFlat (b [0, 1, 2, 3]) (b [1, 2, 3, 4])).bind fun d =>
      (autocorrelation .fabs d).bind fun r => .ok r.lags.length) = .ok 7 ∧
    ((mkFlat (b [0, 1/10, 2/10, 3/10]) (b [1, 2, 3, 4])).bind fun d =>
      (autocorrelation .fabs d).bind fun r => .ok r.lags.length) = .ok 8 := by
  decide +kernel

/-- **C28 needs the grid**: in binary64 adding 1000 to the times 0, 0.1, 0.2 changes the lags. -/
theorem C28_false_binary64 : ((mkFlat (b [0, 1/10, 2/10]) (b [1, 2, 4])).bind fun d => (autocorrelation .fabs d).bind fun r =>
    (mkFlat (b [1000, 1000 + 1/10, 1000 + 2/10]) (b [1, 2, 4])).bind fun d' => (autocorrelation .fabs d').bind fun r' =>
      .ok (decide (r.lags = r'.lags))) = .ok false := by
  decide +kernel

end Sacf
