import Verif.Spec.AnyTimes
import Verif.Props.Error
import Verif.Props.LagRounded
import Verif.Props.Selection

/-!
# Arbitrary time stamps (C70, C71)

C61 asks for time stamps whose differences are exact.  Here the time stamps are arbitrary numbers of the format, so normalised times,
shifted times and distances are rounded; the tolerance is proportional to the observed span plus the lag, not to the time stamps themselves.
-/

set_option linter.unusedSectionVars false
set_option linter.unusedVariables false

namespace Sacf

open Arith Finset

variable {K : Type} [Field K] [LinearOrder K] [IsStrictOrderedRing K] [FloorRing K] {R : Rnd K} {u η big V A : K} {M : ℕ}
  {x t : ℕ → K}

/-! ### the pairs of one lag -/

theorem lagPlan_rounded {M : ℕ} (hM : 0 < M) {y : ℕ → K} (hinc : InOrder M y) (k : K) {wt : String}
    {w : XF R → XF R → XF R} (hw : planWt wt = .ok w) (α : XF R) :
    ∃ (m : ℕ) (s : ℕ → ℕ), m ≤ M ∧
      (∀ i < M, (i < m ↔ Arith.lt (.fin (y (M - 1))) (Arith.add (.fin (y i)) (.fin k) : XF R) = false)) ∧
      (∀ i < m, s i < M ∧ ∀ n < M,
        Arith.le (Arith.fabs (Arith.sub (Arith.add (.fin (y i)) (.fin k) : XF R) (.fin (y (s i)))))
          (Arith.fabs (Arith.sub (Arith.add (.fin (y i)) (.fin k) : XF R) (.fin (y n)))) = true) ∧
      lagPlan .fabs "natural" wt (samples M y) α (.fin k)
        = .ok ((List.range m).map fun i =>
            (w α (Arith.fabs (Arith.sub (.fin (y (s i))) (Arith.add (.fin (y i)) (.fin k)))), s i)) := by
  obtain ⟨m, s, h1, h2, h3, hsh, hplan⟩ := planNat_rounded (R := R) hM hinc k
  refine ⟨m, s, h1, h2, h3, ?_⟩
  unfold lagPlan planSel
  rw [if_neg (by decide), if_pos rfl, hplan]
  simp only [Res.ok_bind]
  rw [planDelta_fabs (by
    intro j hj
    obtain ⟨i, hi, rfl⟩ := List.mem_map.1 hj
    rw [samples_length]; exact (h3 i (List.mem_range.1 hi)).1), hw, hsh]
  simp only [Res.ok_bind]
  congr 1
  apply List.ext_getElem
  · simp [samples]
  · intro i hi1 hi2
    have hi : i < m := by simpa using hi2
    have hsM := (h3 i hi).1
    simp only [List.getElem_zip, List.getElem_map, List.getElem_range, samples]
    rw [Prod.mk.injEq]
    refine ⟨?_, rfl⟩
    have := samples_getD (R := R) (f := y) hsM (Arith.zero)
    unfold samples at this
    rw [this]

/-! ### rounding of times and distances -/

theorem near_fabs {z : XF R} {x e : K} (h : Near z x e) : Near (Arith.fabs z) |x| e := by
  obtain ⟨y, rfl, hy⟩ := h
  refine ⟨|y|, rfl, (abs_abs_sub_abs_le_abs_sub y x).trans hy⟩

/-- size of the rounding errors of times and distances at lag `k` -/
def timeErr (u η : K) (M : ℕ) (t : ℕ → K) (k : K) : K := u * (t (M - 1) - t 0 + |k|) + η

/-- normalised times, shifted times and distances -/
theorem near_times (h : Accurate R u η big) (hu : 100 * u ≤ 1) (hinc : InOrder M t) (k : K)
    (hbig : 4 * (t (M - 1) - t 0 + |k| + η) ≤ big) {y : ℕ → K} (hy : ∀ i < M, (XF.round (t i - t 0) : XF R) = .fin (y i)) :
    0 ≤ timeErr u η M t k ∧
    (∀ i < M, |y i - (t i - t 0)| ≤ timeErr u η M t k) ∧
    (∀ i < M, Near (Arith.add (.fin (y i)) (.fin k) : XF R) (t i - t 0 + k) (201 / 100 * timeErr u η M t k)) ∧
    (∀ i < M, ∀ n < M, |t n - (t i + k)| ≤ t (M - 1) - t 0 + |k| ∧
      Near (Arith.sub (.fin (y n)) (Arith.add (.fin (y i)) (.fin k)) : XF R) (t n - (t i + k)) (405 / 100 * timeErr u η M t k)) := by
  have hu0 := h.u_nonneg
  have hη0 := h.η_nonneg
  have hk0 := abs_nonneg k
  have hk1 := neg_abs_le k
  have hk2 := le_abs_self k
  set D := t (M - 1) - t 0 + |k| with hD
  have hq : timeErr u η M t k = u * D + η := rfl
  rw [hq]
  set q := u * D + η with hqd
  by_cases hM : 0 < M
  swap
  · have : M = 0 := by omega
    subst this
    refine ⟨?_, by simp, by simp, by simp⟩
    have : 0 ≤ D := by simp only [hD, Nat.zero_sub]; linarith
    positivity
  have hT : 0 ≤ t (M - 1) - t 0 := by have := hinc 0 (M - 1) (Nat.zero_le _) (by omega); linarith
  have hD0 : 0 ≤ D := by linarith
  have huD : 0 ≤ u * D := mul_nonneg hu0 hD0
  have hq0 : 0 ≤ q := by linarith
  have hqD : 100 * q ≤ D + 100 * η := by
    have := mul_le_mul_of_nonneg_right hu hD0
    linarith
  have huq : 100 * (u * q) ≤ q := by
    have := mul_le_mul_of_nonneg_right hu hq0
    linarith
  have huq0 : 0 ≤ u * q := mul_nonneg hu0 hq0
  have hr : ∀ i < M, 0 ≤ t i - t 0 ∧ t i - t 0 ≤ t (M - 1) - t 0 := fun i hi => by
    have a1 := hinc 0 i (Nat.zero_le _) hi
    have a2 := hinc i (M - 1) (by omega) (by omega)
    constructor <;> linarith
  have h1 : ∀ i < M, |y i - (t i - t 0)| ≤ q := by
    intro i hi
    have a1 := hr i hi
    have habs : |t i - t 0| ≤ D := by rw [abs_of_nonneg a1.1]; linarith
    obtain ⟨z, hz, hz'⟩ := h.round (t i - t 0) (by linarith)
    rw [hy i hi] at hz
    cases hz
    have := mul_le_mul_of_nonneg_left habs hu0
    linarith
  have h2 : ∀ i < M, Near (Arith.add (.fin (y i)) (.fin k) : XF R) (t i - t 0 + k) (201 / 100 * q) := by
    intro i hi
    have a1 := hr i hi
    have habs : |t i - t 0 + k| ≤ D := by rw [abs_le]; constructor <;> linarith
    refine (near_add h (⟨y i, rfl, h1 i hi⟩ : Near (.fin (y i) : XF R) _ _) (near_fin k) (Z := D + q) (by linarith) (by linarith)).mono ?_
    have : u * (D + q) = u * D + u * q := by ring
    linarith
  refine ⟨hq0, h1, h2, fun i hi n hn => ?_⟩
  have a1 := hr i hi
  have a2 := hr n hn
  have habs : |t n - (t i + k)| ≤ D := by rw [abs_le]; constructor <;> linarith
  refine ⟨habs, ?_⟩
  have e1 : t n - (t i + k) = (t n - t 0) - (t i - t 0 + k) := by ring
  rw [e1] at habs ⊢
  refine (near_sub h (⟨y n, rfl, h1 n hn⟩ : Near (.fin (y n) : XF R) _ _) (h2 i hi) (Z := D + 301 / 100 * q) (by linarith) (by linarith)).mono ?_
  have : u * (D + 301 / 100 * q) = u * D + 301 / 100 * (u * q) := by ring
  linarith

theorem inOrder_round (hinc : InOrder M t) {y : ℕ → K} (hy : ∀ i < M, (XF.round (t i - t 0) : XF R) = .fin (y i)) : InOrder M y := by
  intro i j hij hj
  have h := round_mono (R := R) (show t i - t 0 ≤ t j - t 0 by have := hinc i j hij hj; linarith)
  rw [hy i (by omega), hy j hj] at h
  change decide (y i ≤ y j) = true at h
  exact of_decide_eq_true h

/-- what natural selection does with arbitrary times at lag `k` -/
theorem lagPlan_near (h : Accurate R u η big) (hu : 100 * u ≤ 1) (hM : 0 < M) (hinc : InOrder M t) (k : K)
    (hbig : 4 * (t (M - 1) - t 0 + |k| + η) ≤ big) {wt : String}
    {w : XF R → XF R → XF R} (hw : planWt wt = .ok w) (α : XF R) :
    ∃ (m : ℕ) (s : ℕ → ℕ) (δ : ℕ → K), NearlySelects M t k (10 * timeErr u η M t k) m s ∧
      (∀ i < m, 0 ≤ δ i ∧ abs (δ i - |t (s i) - (t i + k)|) ≤ 5 * timeErr u η M t k) ∧
      lagPlan .fabs "natural" wt ((List.range M).map fun i => (XF.round (t i - t 0) : XF R)) α (.fin k)
        = .ok ((List.range m).map fun i => (w α (.fin (δ i)), s i)) := by
  have hfin : ∀ i, ∃ y, i < M → (XF.round (t i - t 0) : XF R) = .fin y := by
    intro i
    by_cases hi : i < M
    · have a1 := hinc 0 i (Nat.zero_le _) hi
      have a2 := hinc i (M - 1) (by omega) (by omega)
      have := abs_nonneg k
      have := h.η_nonneg
      obtain ⟨y, hy, _⟩ := h.round (t i - t 0) (by rw [abs_of_nonneg (by linarith)]; linarith)
      exact ⟨y, fun _ => hy⟩
    · exact ⟨0, fun h => absurd h hi⟩
  choose y hy using hfin
  obtain ⟨hq0, n1, n2, n3⟩ := near_times h hu hinc k hbig hy
  set q := timeErr u η M t k with hq
  have hnt : ((List.range M).map fun i => (XF.round (t i - t 0) : XF R)) = samples M y := by
    unfold samples
    apply List.map_congr_left
    intro i hi
    exact hy i (List.mem_range.1 hi)
  obtain ⟨m, s, p1, p2, p3, p4⟩ := lagPlan_rounded (R := R) hM (inOrder_round hinc hy) k hw α
  -- the computed shifted times and distances
  have hsh : ∀ i, ∃ z, i < M → Arith.add (.fin (y i)) (.fin k) = (.fin z : XF R) ∧ |z - (t i - t 0 + k)| ≤ 201 / 100 * q := by
    intro i
    by_cases hi : i < M
    · obtain ⟨z, hz⟩ := n2 i hi
      exact ⟨z, fun _ => hz⟩
    · exact ⟨0, fun h => absurd h hi⟩
  choose z hz using hsh
  have hdist : ∀ i n, ∃ δ, i < M → n < M → Arith.fabs (Arith.sub (.fin (y n)) (Arith.add (.fin (y i)) (.fin k)) : XF R) = .fin δ ∧
      0 ≤ δ ∧ abs (δ - |t n - (t i + k)|) ≤ 405 / 100 * q := by
    intro i n
    by_cases hi : i < M
    · by_cases hn : n < M
      · obtain ⟨a, ha, ha'⟩ := (n3 i hi n hn).2
        refine ⟨|a|, fun _ _ => ⟨by rw [ha]; rfl, abs_nonneg a, (abs_abs_sub_abs_le_abs_sub _ _).trans ha'⟩⟩
      · exact ⟨0, fun _ h => absurd h hn⟩
    · exact ⟨0, fun h _ => absurd h hi⟩
  choose δ hδ using hdist
  refine ⟨m, s, fun i => δ i (s i), ⟨p1, ?_, ?_, fun i hi => (p3 i hi).1, ?_⟩, ?_, ?_⟩
  · intro i hi
    have a := (p2 i (by omega)).1 hi
    obtain ⟨e1, e2⟩ := hz i (by omega)
    rw [e1, xf_lt, decide_eq_false_iff_not, not_lt] at a
    have b1 := abs_le.1 (n1 (M - 1) (by omega))
    have b2 := abs_le.1 e2
    linarith [b1.2, b2.1]
  · intro i hmi hi
    have a := mt (p2 i hi).2 (by omega)
    obtain ⟨e1, e2⟩ := hz i hi
    rw [e1, xf_lt, decide_eq_false_iff_not, not_not] at a
    have b1 := abs_le.1 (n1 (M - 1) (by omega))
    have b2 := abs_le.1 e2
    linarith [b1.1, b2.2]
  · intro i hi n hn
    have a := (p3 i hi).2 n hn
    have hsym : ∀ n, Arith.fabs (Arith.sub (Arith.add (.fin (y i)) (.fin k)) (.fin (y n)) : XF R)
        = Arith.fabs (Arith.sub (.fin (y n)) (Arith.add (.fin (y i)) (.fin k))) := by
      intro n
      rw [(hz i (by omega)).1, dist_round, dist_round, abs_sub_comm]
    obtain ⟨d1, d2, d3⟩ := hδ i (s i) (by omega) (p3 i hi).1
    obtain ⟨c1, c2, c3⟩ := hδ i n (by omega) hn
    rw [hsym, hsym, d1, c1, xf_le, decide_eq_true_eq] at a
    have b1 := abs_le.1 d3
    have b2 := abs_le.1 c3
    linarith [b1.1, b2.2]
  · intro i hi
    obtain ⟨d1, d2, d3⟩ := hδ i (s i) (by omega) (p3 i hi).1
    exact ⟨d2, d3.trans (by linarith)⟩
  · rw [hnt, p4]
    congr 1
    apply List.map_congr_left
    intro i hi
    have hi := List.mem_range.1 hi
    rw [(hδ i (s i) (by omega) (p3 i hi).1).1]

/-! ### the error bound -/

theorem anyTimes_core (hmod : Moderate R u η big V A M) (d : DS (XF R)) (hd : Constructed d)
    (ht : d.timeseries = samples M t) (hinc : InOrder M t)
    (j : ℕ) (hrow : d.HasRow j (samples M x)) (hx : ∀ i < M, |x i| ≤ A)
    (hf : ∀ i < M, Near (Arith.toFloat (.fin (x i) : XF R)) (x i) (2 * (V * A)))
    (ga : LagArgs (XF R)) (wt : String) (hw : KnownWeight wt) (r : AcResult (XF R))
    (hr : autocorrelation .fabs d ga "natural" wt = .ok r) (α : K) (hα : r.corr.alpha = .fin α)
    (n : ℕ) (k : K) (hn : r.lags[n]? = some (.fin k)) (hbig : 4 * (t (M - 1) - t 0 + |k| + η) ≤ big)
    (hκ : 122 * V * (M * A ^ 2) ≤ sumSq M x) (hN : 0 < sumSq M x)
    (hb1 : 2 ≤ sumSq M x * big) (hb2 : 24 * (M * A ^ 2) ≤ sumSq M x * big)
    (w : K → K) (hW : ∀ δ, 0 ≤ δ → δ ≤ 2 * (t (M - 1) - t 0 + |k| + 3 * η) →
      Near (fweight wt (.fin α) (.fin δ) : XF R) (w δ) (10 * u) ∧ |w δ| ≤ 1)
    (ω : K) (hL : ∀ δ δ', 0 ≤ δ → 0 ≤ δ' → |δ - δ'| ≤ 5 * timeErr u η M t k → |w δ - w δ'| ≤ ω) :
    ∃ (m : ℕ) (s : ℕ → ℕ) (v : K), NearlySelects M t k (10 * timeErr u η M t k) m s ∧ r.At j n (.fin k) (.fin v) ∧
      |v - matchedAcf m M t x w s (sumSq M x) k|
        ≤ 250 * V * (M * A ^ 2 / sumSq M x) * (1 + |matchedAcf m M t x w s (sumSq M x) k|) + 13 * (M * A ^ 2 / sumSq M x) * ω := by
  obtain ⟨hM0, hnt⟩ := normT_rounded hd ht
  obtain ⟨hu, hη, hM, huV, hV0, h1, h2, huA, h3, h4, h5, h6, h7, h8, h9⟩ := hmod.facts
  have hsmall : 100 * u ≤ 1 := by have := hmod.V_le; linarith
  obtain ⟨m, s, δ, q1, q2, q3⟩ := lagPlan_near hmod.acc hsmall hM0 hinc k hbig (planWt_fweight hw) r.corr.alpha
  obtain ⟨ps, hps, hat⟩ := result_at hd hr hrow hn
  rw [hnt, q3] at hps
  simp only [Res.ok.injEq] at hps
  have hxn : ∀ i < M, (.fin (x i) : XF R) ≠ .nan := fun i _ => by simp
  unfold samples at hat
  rw [← hps, meanOf_seqMean hxn, normOfRow_seqNorm hxn, List.map_map] at hat
  have hval := corrValue_seqDot q1.le (fun i => Arith.sub (.fin (x i)) (seqMean M fun i => (.fin (x i) : XF R)))
    (fun i => fweight wt r.corr.alpha (.fin (δ i))) s q1.index (seqNorm M fun i => (.fin (x i) : XF R))
  simp only [Function.comp_def] at hat
  rw [hval, hα] at hat
  -- the size of the distances
  have hk0 := abs_nonneg k
  have hT : 0 ≤ t (M - 1) - t 0 := by have := hinc 0 (M - 1) (Nat.zero_le _) (by omega); linarith
  have hδle : ∀ i < m, δ i ≤ 2 * (t (M - 1) - t 0 + |k| + 3 * η) := by
    intro i hi
    have hle := q1.le
    have hd1 : |t (s i) - (t i + k)| ≤ t (M - 1) - t 0 + |k| := by
      have a1 := hinc 0 i (Nat.zero_le _) (by omega)
      have a2 := hinc i (M - 1) (by omega) (by omega)
      have a3 := hinc 0 (s i) (Nat.zero_le _) (q1.index i hi)
      have a4 := hinc (s i) (M - 1) (by have := q1.index i hi; omega) (by omega)
      have k1 := neg_abs_le k
      have k2 := le_abs_self k
      rw [abs_le]; constructor <;> linarith
    have hd2 := (abs_le.1 (q2 i hi).2).2
    have : 100 * (u * (t (M - 1) - t 0 + |k|)) ≤ t (M - 1) - t 0 + |k| := by
      have := mul_le_mul_of_nonneg_right hsmall (show 0 ≤ t (M - 1) - t 0 + |k| by linarith)
      linarith
    unfold timeErr at hd2
    linarith
  have hwt : ∀ i < m, Near (fweight wt (.fin α) (.fin (δ i)) : XF R) (w (δ i)) (10 * u) ∧ |w (δ i)| ≤ 1 :=
    fun i hi => hW _ (q2 i hi).1 (hδle i hi)
  have hmM : (m : K) ≤ M := by exact_mod_cast q1.le
  have hnum := near_numerator hmod hx q1.le q1.index (fun i hi => (hwt i hi).1) (fun i hi => (hwt i hi).2)
  have hP : |∑ i ∈ range m, w (δ i) * dev M x i * dev M x (s i)| ≤ 4 * (M * A ^ 2) := by
    refine (abs_sum_le_sum_abs _ _).trans ?_
    refine (sum_le_card_nsmul (range m) _ (4 * A ^ 2) fun i hi => ?_).trans ?_
    · have hi : i < m := by simpa using hi
      exact (near_term hmod hx (show i < M by have := q1.le; omega) (q1.index i hi) (hwt i hi).1 (hwt i hi).2).2
    · rw [card_range, nsmul_eq_mul]
      have := mul_le_mul_of_nonneg_right hmM h9.le
      linarith
  have hfin := near_quotient hmod hN hP (sumSq_le hmod.one_le hx) hnum (near_norm hmod hx hf) hκ hb1 hb2
  obtain ⟨v, hv, hv'⟩ := hfin
  have hω : 0 ≤ ω := by
    have := hL 0 0 le_rfl le_rfl (by
      rw [sub_self, abs_zero]
      unfold timeErr
      have := mul_nonneg hu (show 0 ≤ t (M - 1) - t 0 + |k| by linarith)
      linarith)
    simpa using this
  refine ⟨m, s, v, q1, ?_, ?_⟩
  · rw [← hv]; exact hat
  -- exact distances instead of the computed ones
  have hdiff : |∑ i ∈ range m, w (δ i) * dev M x i * dev M x (s i)
      - ∑ i ∈ range m, w |t (s i) - (t i + k)| * dev M x i * dev M x (s i)| ≤ 4 * (M * A ^ 2) * ω := by
    rw [← sum_sub_distrib]
    refine (abs_sum_le_sum_abs _ _).trans ?_
    refine (sum_le_card_nsmul (range m) _ (4 * A ^ 2 * ω) fun i hi => ?_).trans ?_
    · have hi : i < m := by simpa using hi
      have e : w (δ i) * dev M x i * dev M x (s i) - w |t (s i) - (t i + k)| * dev M x i * dev M x (s i)
          = (dev M x i * dev M x (s i)) * (w (δ i) - w |t (s i) - (t i + k)|) := by ring
      rw [e, abs_mul, abs_mul]
      have d1 := abs_dev_le hmod.one_le hx (show i < M by have := q1.le; omega)
      have d2 := abs_dev_le hmod.one_le hx (q1.index i hi)
      have d3 := hL _ _ (q2 i hi).1 (abs_nonneg (t (s i) - (t i + k))) (q2 i hi).2
      have hA := hmod.pos
      have e2 : 4 * A ^ 2 * ω = (2 * A) * (2 * A) * ω := by ring
      rw [e2]
      exact mul_le_mul (mul_le_mul d1 d2 (abs_nonneg _) (by linarith)) d3 (abs_nonneg _) (by positivity)
    · rw [card_range, nsmul_eq_mul]
      have := mul_le_mul_of_nonneg_right hmM (mul_nonneg h9.le hω)
      linarith
  set P := ∑ i ∈ range m, w (δ i) * dev M x i * dev M x (s i) with hPd
  set S := sumSq M x with hS
  set κ := M * A ^ 2 / S with hκd
  have hρ : matchedAcf m M t x w s S k = (∑ i ∈ range m, w |t (s i) - (t i + k)| * dev M x i * dev M x (s i)) / S := rfl
  set ρ := matchedAcf m M t x w s S k with hρd
  have hκ0 : 0 ≤ κ := div_nonneg (by linarith) hN.le
  have hPρ : |P / S - ρ| ≤ 4 * κ * ω := by
    rw [hρ, ← sub_div, abs_div, abs_of_pos hN, div_le_iff₀ hN]
    refine hdiff.trans (le_of_eq ?_)
    rw [hκd]; field_simp
  have hVκ : 122 * (V * κ) ≤ 1 := by
    have e : 122 * (V * κ) = 122 * V * (M * A ^ 2) / S := by rw [hκd]; ring
    rw [e, div_le_one hN]; exact hκ
  have hPabs : |P / S| ≤ |ρ| + 4 * κ * ω := near_abs hPρ le_rfl
  have e1 : v - ρ = (v - P / S) + (P / S - ρ) := by ring
  rw [e1]
  refine (abs_add_le _ _).trans ?_
  have hVκ0 : 0 ≤ V * κ := mul_nonneg hV0 hκ0
  have a1 : 250 * V * κ * (1 + |P / S|) ≤ 250 * V * κ * (1 + (|ρ| + 4 * κ * ω)) := by
    have := mul_le_mul_of_nonneg_left hPabs hVκ0
    linarith
  have a2 : 122 * (V * κ) * (κ * ω) ≤ 1 * (κ * ω) := mul_le_mul_of_nonneg_right hVκ (mul_nonneg hκ0 hω)
  have a3 := mul_nonneg hκ0 hω
  linarith

/-! ### how fast the weights change -/

theorem weight_lip {wt : String} (hw : wt = "fractional" ∨ wt = "fractional_squared") {α δ δ' : K} (hα : 0 < α) (h : 0 ≤ δ) (h' : 0 ≤ δ')
    (e : K → K) : |weight e wt α δ - weight e wt α δ'| ≤ |δ - δ'| / α := by
  have key : |δ / α - δ' / α| = |δ - δ'| / α := by rw [← sub_div, abs_div, abs_of_pos hα]
  rw [← key]
  have ha : 0 ≤ δ / α := div_nonneg h hα.le
  have hb : 0 ≤ δ' / α := div_nonneg h' hα.le
  rcases hw with rfl | rfl
  · have e1 : ∀ z, weight e "fractional" α z = 1 / (1 + z / α) := fun z => rfl
    rw [e1, e1]
    generalize δ / α = a at *
    generalize δ' / α = b at *
    have hp : 0 < (1 + a) * (1 + b) := by positivity
    have e2 : 1 / (1 + a) - 1 / (1 + b) = (b - a) / ((1 + a) * (1 + b)) := by field_simp; ring
    rw [e2, abs_div, abs_of_pos hp, div_le_iff₀ hp, abs_sub_comm]
    have : 1 ≤ (1 + a) * (1 + b) := by nlinarith
    exact le_mul_of_one_le_right (abs_nonneg _) this
  · have e1 : ∀ z, weight e "fractional_squared" α z = 1 / (1 + (z / α) ^ 2) := fun z => rfl
    rw [e1, e1]
    generalize δ / α = a at *
    generalize δ' / α = b at *
    have hp : 0 < (1 + a ^ 2) * (1 + b ^ 2) := by positivity
    have e2 : 1 / (1 + a ^ 2) - 1 / (1 + b ^ 2) = ((b - a) * (a + b)) / ((1 + a ^ 2) * (1 + b ^ 2)) := by field_simp; ring
    rw [e2, abs_div, abs_of_pos hp, div_le_iff₀ hp, abs_mul, abs_sub_comm b a, abs_of_nonneg (add_nonneg ha hb)]
    apply mul_le_mul_of_nonneg_left _ (abs_nonneg _)
    nlinarith [sq_nonneg (a - 1), sq_nonneg (b - 1), mul_nonneg (sq_nonneg a) (sq_nonneg b)]

theorem gauss_lip {e : K → K} {σ : K} (he : ExpLike e σ) {α δ δ' : K} (hα : 0 < α) (h : 0 ≤ δ) (h' : 0 ≤ δ') :
    |weight e "gaussian" α δ - weight e "gaussian" α δ'| ≤ 2 * (|δ - δ'| / α) + σ := by
  wlog hle : δ' ≤ δ generalizing δ δ'
  · have := this h' h (le_of_not_ge hle)
    rwa [abs_sub_comm, abs_sub_comm δ δ']
  have e1 : ∀ z, weight e "gaussian" α z = e (-(z ^ 2 / (2 * α ^ 2))) := fun z => rfl
  rw [e1, e1]
  have key : |δ - δ'| / α = δ / α - δ' / α := by rw [abs_of_nonneg (sub_nonneg.2 hle), sub_div]
  have hsq : ∀ z, z ^ 2 / (2 * α ^ 2) = (z / α) ^ 2 / 2 := fun z => by field_simp
  rw [key, hsq, hsq]
  have hb : 0 ≤ δ' / α := div_nonneg h' hα.le
  have hba : δ' / α ≤ δ / α := (div_le_div_iff_of_pos_right hα).2 hle
  generalize δ / α = a at *
  generalize δ' / α = b at *
  have ha : 0 ≤ a := hb.trans hba
  have hna : -(a ^ 2 / 2) ≤ 0 := by have := sq_nonneg a; linarith
  have hnb : -(b ^ 2 / 2) ≤ 0 := by have := sq_nonneg b; linarith
  have hσ : 0 ≤ σ := by simpa using he.lip 0 le_rfl 0 le_rfl
  have hdiff : |-(b ^ 2 / 2) - -(a ^ 2 / 2)| = (a - b) * (a + b) / 2 := by
    have e2 : -(b ^ 2 / 2) - -(a ^ 2 / 2) = (a - b) * (a + b) / 2 := by ring
    rw [e2, abs_of_nonneg]
    exact div_nonneg (mul_nonneg (by linarith) (by linarith)) (by norm_num)
  rw [abs_sub_comm]
  by_cases h2 : a ≤ 2
  · have := he.lip _ hna _ hnb
    rw [hdiff] at this
    have : (a - b) * (a + b) ≤ (a - b) * 4 := mul_le_mul_of_nonneg_left (by linarith) (by linarith)
    linarith
  · by_cases h3 : 2 * (a - b) ≤ 1
    · have ha0 : 0 < a := by linarith
      have hε : (a - b) * 2 / a ≤ 2 * (a - b) := by
        rw [div_le_iff₀ ha0]
        have := mul_le_mul_of_nonneg_left (show (1 : K) ≤ a by linarith) (show 0 ≤ 2 * (a - b) by linarith)
        linarith
      have := he.rel _ hna _ hnb ((a - b) * 2 / a) (div_nonneg (by linarith) ha) (by
        have e4 : 2 * ((a - b) * 2 / a) = (4 * (a - b)) / a := by ring
        rw [e4, div_le_one ha0]; linarith) (by
        rw [hdiff, abs_of_nonpos hna]
        have e4 : (a - b) * 2 / a * - -(a ^ 2 / 2) = (a - b) * (2 * a) / 2 := by field_simp
        rw [e4]
        have := mul_le_mul_of_nonneg_left (show a + b ≤ 2 * a by linarith) (show 0 ≤ a - b by linarith)
        linarith)
      linarith
    · have r1 := he.range _ hna
      have r2 := he.range _ hnb
      rw [abs_le]; constructor <;> linarith [r1.1, r1.2, r2.1, r2.2]

/-- **C70**: arbitrary time stamps in order, either fractional weight function, any lag `k` reported.  The samples are matched correctly up to
`10 q`, where `q = u (span + |k|) + η`, and the value returned is within `250 V κ (1 + |ρ|) + 65 κ q / α` of the selective autocorrelation `ρ`
of that matching, evaluated exactly at the given times. -/
theorem C70_error (hmod : Moderate R u η big V A M) (d : DS (XF R)) (hd : Constructed d)
    (ht : d.timeseries = samples M t) (hinc : InOrder M t)
    (j : ℕ) (hrow : d.HasRow j (samples M x)) (hx : ∀ i < M, |x i| ≤ A)
    (hf : ∀ i < M, Near (Arith.toFloat (.fin (x i) : XF R)) (x i) (2 * (V * A)))
    (ga : LagArgs (XF R)) (wt : String) (hw : wt = "fractional" ∨ wt = "fractional_squared") (r : AcResult (XF R))
    (hr : autocorrelation .fabs d ga "natural" wt = .ok r) (α : K) (hα : r.corr.alpha = .fin α) (hα0 : 0 < α)
    (n : ℕ) (k : K) (hn : r.lags[n]? = some (.fin k)) (hbig : 4 * (t (M - 1) - t 0 + |k| + η) ≤ big)
    (hκ : 122 * V * (M * A ^ 2) ≤ sumSq M x) (hN : 0 < sumSq M x)
    (hb1 : 2 ≤ sumSq M x * big) (hb2 : 24 * (M * A ^ 2) ≤ sumSq M x * big) (hb3 : 4 ≤ big)
    (hb4 : 4 * (2 * (t (M - 1) - t 0 + |k| + 3 * η) / α + (2 * (t (M - 1) - t 0 + |k| + 3 * η) / α) ^ 2) ≤ big) :
    ∃ (m : ℕ) (s : ℕ → ℕ) (v : K), NearlySelects M t k (10 * (u * (t (M - 1) - t 0 + |k|) + η)) m s ∧
      r.At j n (.fin k) (.fin v) ∧
      |v - matchedAcf m M t x (weight R.expK wt α) s (sumSq M x) k|
        ≤ 250 * V * (M * A ^ 2 / sumSq M x) * (1 + |matchedAcf m M t x (weight R.expK wt α) s (sumSq M x) k|) +
          65 * (M * A ^ 2 / sumSq M x) * ((u * (t (M - 1) - t 0 + |k|) + η) / α) := by
  have hsmall : 100 * u ≤ 1 := by
    obtain ⟨hu, hη, hM, huV, _⟩ := hmod.facts
    have := hmod.V_le; linarith
  obtain ⟨m, s, v, h1, h2, h3⟩ := anyTimes_core hmod d hd ht hinc j hrow hx hf ga wt (by unfold KnownWeight; tauto) r hr α hα n k hn hbig hκ hN hb1 hb2 _
    (fun δ h0 h1 => near_weight hmod.acc hsmall hmod.under1 hb3 hw hα0 h0 (le_trans (by
      have e1 : δ / α ≤ 2 * (t (M - 1) - t 0 + |k| + 3 * η) / α := (div_le_div_iff_of_pos_right hα0).2 h1
      have := pow_le_pow_left₀ (div_nonneg h0 hα0.le) e1 2
      linarith) hb4) R.expK)
    (5 * timeErr u η M t k / α) (fun δ δ' h0 h0' hle => (weight_lip hw hα0 h0 h0' _).trans ((div_le_div_iff_of_pos_right hα0).2 hle))
  refine ⟨m, s, v, h1, h2, h3.trans (le_of_eq ?_)⟩
  unfold timeErr
  ring

/-- **C70** for the Gaussian weight function, with a library `exp` within `2 u` of the function `e`. -/
theorem C70_gaussian (hmod : Moderate R u η big V A M) (d : DS (XF R)) (hd : Constructed d)
    (ht : d.timeseries = samples M t) (hinc : InOrder M t)
    (j : ℕ) (hrow : d.HasRow j (samples M x)) (hx : ∀ i < M, |x i| ≤ A)
    (hf : ∀ i < M, Near (Arith.toFloat (.fin (x i) : XF R)) (x i) (2 * (V * A)))
    (ga : LagArgs (XF R)) (r : AcResult (XF R))
    (hr : autocorrelation .fabs d ga "natural" "gaussian" = .ok r) (α : K) (hα : r.corr.alpha = .fin α) (hα0 : 0 < α)
    (n : ℕ) (k : K) (hn : r.lags[n]? = some (.fin k)) (hbig : 4 * (t (M - 1) - t 0 + |k| + η) ≤ big)
    (hκ : 122 * V * (M * A ^ 2) ≤ sumSq M x) (hN : 0 < sumSq M x)
    (hb1 : 2 ≤ sumSq M x * big) (hb2 : 24 * (M * A ^ 2) ≤ sumSq M x * big) (hb3 : 4 ≤ big)
    (e : K → K) {σ : K} (he : ExpLike e σ) (hσ : 100 * σ ≤ u) (hacc : ∀ x ≤ 0, |R.expK x - e x| ≤ 2 * u)
    (hη : 8 * η ≤ u) (hη1 : 8 * η ≤ u * α) (hη2 : 8 * η ≤ u * α ^ 2) (hb4 : 2 * α ≤ big) (hb5 : 4 * α ^ 2 ≤ big)
    (hb6 : (2 * (t (M - 1) - t 0 + |k| + 3 * η)) ^ 2 ≤ big)
    (hb7 : 2 * ((2 * (t (M - 1) - t 0 + |k| + 3 * η)) ^ 2 / (2 * α ^ 2)) ≤ big) :
    ∃ (m : ℕ) (s : ℕ → ℕ) (v : K), NearlySelects M t k (10 * (u * (t (M - 1) - t 0 + |k|) + η)) m s ∧
      r.At j n (.fin k) (.fin v) ∧
      |v - matchedAcf m M t x (weight e "gaussian" α) s (sumSq M x) k|
        ≤ 250 * V * (M * A ^ 2 / sumSq M x) * (1 + |matchedAcf m M t x (weight e "gaussian" α) s (sumSq M x) k|) +
          13 * (M * A ^ 2 / sumSq M x) * (10 * ((u * (t (M - 1) - t 0 + |k|) + η) / α) + σ) := by
  have hsmall : 100 * u ≤ 1 := by
    obtain ⟨hu, hη, hM, huV, _⟩ := hmod.facts
    have := hmod.V_le; linarith
  obtain ⟨m, s, v, h1, h2, h3⟩ := anyTimes_core hmod d hd ht hinc j hrow hx hf ga "gaussian" (by unfold KnownWeight; simp) r hr α hα n k hn hbig hκ hN hb1 hb2
    (weight e "gaussian" α) (fun δ h0 h1 => by
      have e1 := pow_le_pow_left₀ h0 h1 2
      have e2 : δ ^ 2 / (2 * α ^ 2) ≤ (2 * (t (M - 1) - t 0 + |k| + 3 * η)) ^ 2 / (2 * α ^ 2) := div_le_div_of_nonneg_right e1 (by positivity)
      exact near_gauss hmod.acc hsmall hη he hσ hacc hα0 h0 hη1 hη2 hb3 hb4 hb5 (e1.trans hb6) (by linarith))
    (2 * (5 * timeErr u η M t k / α) + σ) (fun δ δ' h0 h0' hle => by
      refine (gauss_lip he hα0 h0 h0').trans ?_
      have := (div_le_div_iff_of_pos_right hα0).2 hle
      linarith)
  refine ⟨m, s, v, h1, h2, h3.trans (le_of_eq ?_)⟩
  unfold timeErr
  ring

/-- **C70**: when no decision at lag `k` is closer than the tolerance, the matching is exactly that of the definition. -/
theorem C70_clear_cut {k ε nrm : K} {m : ℕ} {s s' : ℕ → ℕ} (h : NearlySelects M t k ε m s') (hc : ClearCut M t k ε s) (w : K → K) :
    Selects M t k s ∧ matchedAcf m M t x w s' nrm k = sacf M t x w s nrm k := by
  have hε : ∀ i < M, (i < m ↔ t i + k ≤ t (M - 1)) := by
    intro i hi
    have he := hc.edge i hi
    rw [lt_abs] at he
    constructor
    · intro him
      have := h.inside i him
      rcases he with he | he
      · linarith
      · by_contra hcon
        have := h.nearest i him _ (h.index i him)
        linarith
    · intro hle
      by_contra hcon
      have := h.outside i (by omega) hi
      rcases he with he | he <;> linarith
  have hset : (range M).filter (fun i : ℕ => t i + k ≤ t (M - 1)) = range m := by
    ext i
    simp only [Finset.mem_filter, Finset.mem_range]
    have hle := h.le
    constructor
    · rintro ⟨hi, h⟩; exact (hε i hi).2 h
    · intro hi; exact ⟨by omega, (hε i (by omega)).1 hi⟩
  have hsel : ∀ i < m, s' i = s i := by
    intro i hi
    have hle := h.le
    have hi' := (hε i (by omega)).1 hi
    by_contra hne
    have h1 := hc.gap i (by omega) hi' _ (h.index i hi) hne
    have h2 := h.nearest i hi _ (hc.index i (by omega) hi')
    linarith
  refine ⟨fun i hi hle => ⟨hc.index i hi hle, fun n hn => ?_⟩, ?_⟩
  · by_cases hne : n = s i
    · right; subst hne; exact ⟨rfl, le_rfl⟩
    · left
      have h1 := hc.gap i hi hle n hn hne
      have h0 := (hε i hi).2 hle
      have h2 := h.nearest i h0 _ (h.index i h0)
      linarith
  · unfold matchedAcf sacf
    rw [hset]
    congr 1
    apply Finset.sum_congr rfl
    intro i hi
    rw [hsel i (by simpa using hi)]

end Sacf
