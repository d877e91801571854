import Verif.Lemmas.Units
import Verif.Lemmas.Binary
import Verif.Props.Binary

/-!
# Times on an exactly representable grid (C60)

Time stamps that are integers (or multiples of a power of two) are handled without any rounding error: the default
lags, the selected samples and their distances are the mathematical ones.  What remains is the rounding of the sums.
-/

set_option linter.unusedSectionVars false
set_option exponentiation.threshold 3000

namespace Sacf

open Arith

variable {K : Type} [Field K] [LinearOrder K] [IsStrictOrderedRing K] [FloorRing K] {R : Rnd K} {g : K} {B : ℤ}

theorem planWt_fweight {F : Type} [Arith F] {wt : String} (hw : KnownWeight wt) : planWt (F := F) wt = .ok (fweight wt) := by
  rcases hw with rfl | rfl | rfl <;> rfl

/-- the parameters of the correlator in the result of a call -/
theorem result_params {F : Type} [Arith F] {a : AbsFn} {d : DS F} (h : d.WF) {ga : LagArgs F} {sel wt : String}
    {r : AcResult F} (hr : autocorrelation a d ga sel wt = .ok r) :
    r.corr.minLag = ga.minLag.getD (neg (lastD d.normT)) ∧ r.corr.maxLag = ga.maxLag.getD (lastD d.normT) ∧
    r.corr.lagRes = ga.lagRes.getD (findMinDiff d.normT) ∧ r.corr.alpha = ga.alpha.getD d.tMedian := by
  obtain ⟨n, L, hL, hlags, _, hc⟩ := autocorrelation_ok h hr
  rw [hc, setUp_fields]
  exact ⟨rfl, rfl, rfl, rfl⟩

/-- **C60** (any rounding in which the multiples of the unit `g` are exact): for increasing time stamps that are
multiples of `g`, a call with default lags returns, and the lags are exactly `-T + n δ` up to `T`, and 0, where `T` is the
observed span and `δ` the smallest gap.  `C` bounds `2T/δ`, the number of lags. -/
theorem C60_default_lags (h : ExactUnit R g B) (d : DS (XF R)) (hd : Constructed d) (M : ℕ) (τ : ℕ → ℤ)
    (ht : d.timeseries = samples M fun i => (τ i : K) * g) (hM : 2 ≤ M) (hinc : IncreasingZ M τ) (δ : ℤ)
    (hδ : IsMinGapZ M τ δ) (hB : 2 * (τ (M - 1) - τ 0) ≤ B) (C : ℤ) (hC : 2 * (τ (M - 1) - τ 0) ≤ C * δ)
    (hC31 : C + 3 < 2 ^ 31) (h1 : ∀ n : ℤ, |n| ≤ C → (XF.round (n : K) : XF R) = .fin n) (α : Option (XF R)) (wt : String)
    (hw : KnownWeight wt) :
    ∃ r, autocorrelation .fabs d { alpha := α } "natural" wt = .ok r ∧
      ∃ ks : List K, r.lags = ks.map .fin ∧ ks.Pairwise (· < ·) ∧ ∀ k, k ∈ ks ↔
        (∃ n : ℕ, -(τ (M - 1) - τ 0) + n * δ ≤ τ (M - 1) - τ 0 ∧ k = ((-(τ (M - 1) - τ 0) + n * δ : ℤ) : K) * g) ∨ k = 0 := by
  have hle : ∀ i < M, 0 ≤ τ i - τ 0 ∧ τ i - τ 0 ≤ τ (M - 1) - τ 0 := fun i hi => by
    have a1 := hinc.le (Nat.zero_le i) hi
    have a2 := hinc.le (show i ≤ M - 1 by omega) (by omega)
    omega
  have hT0 : 0 < τ (M - 1) - τ 0 := by have := hinc 0 (M - 1) (by omega) (by omega); omega
  obtain ⟨hM0, hnt⟩ := ticks_normT h hd ht (fun i hi => by
    have := hle i hi
    rw [abs_of_nonneg this.1]; omega)
  have hu : IncreasingZ M fun i => τ i - τ 0 := fun i j hij hj => by have := hinc i j hij hj; simp only; omega
  have hgap : IsMinGapZ M (fun i => τ i - τ 0) δ := by
    obtain ⟨⟨i, j, hij, hj, he⟩, h2⟩ := hδ
    exact ⟨⟨i, j, hij, hj, by simp only; omega⟩, fun i j hij hj => by have := h2 i j hij hj; simp only; omega⟩
  have hmin : findMinDiff d.normT = .fin (δ * g) := by
    rw [hnt]
    exact findMinDiff_ticks h hM hu (by omega) hgap
  have hδ0 : 0 < δ := by
    obtain ⟨⟨i, j, hij, hj, he⟩, _⟩ := hδ
    have := hinc i j hij hj; omega
  have hδT : δ ≤ τ (M - 1) - τ 0 := hδ.2 0 (M - 1) (by omega) (by omega)
  have hlast : lastD d.normT = .fin (((τ (M - 1) - τ 0 : ℤ) : K) * g) := by rw [hnt, samples_last hM0]
  generalize hT : τ (M - 1) - τ 0 = T at *
  have hneg : neg (lastD d.normT) = .fin (((-T : ℤ) : K) * g) := by rw [hlast, xf_neg]; push_cast; rw [neg_mul]
  obtain ⟨hg1, hg2⟩ := gridCount_ticks (R := R) h hδ0 hδT hB
  obtain ⟨n, hn1, hn2⟩ := slots_ticks (R := R) h hδ0 hδT hB hC (by norm_num at hC31; omega) h1
  have hslots : slotsOf d.normT = .ok n := by
    unfold slotsOf
    rw [hneg, hlast, hmin]
    exact hn1
  have hq0 : 0 ≤ 2 * T / δ := Int.ediv_nonneg (by omega) hδ0.le
  obtain ⟨r, hr⟩ := natural_ok hd { alpha := α } hw hslots (m := (2 * T / δ + 1).toNat)
    (by simp only [Option.getD_none]; rw [hneg, hlast, hmin]; exact hg1) (by omega) (by omega)
  refine ⟨r, hr, ?_⟩
  obtain ⟨p1, p2, p3, _⟩ := result_params hd.wf hr
  simp only [Option.getD_none] at p1 p2 p3
  obtain ⟨m, hgm, hlm⟩ := result_lags hd.wf hr
  rw [p1, p2, p3, hneg, hlast, hmin] at hgm
  rw [p1, p3, hneg, hmin] at hlm
  have hm := hgm.unique hg1
  rw [hm] at hlm
  obtain ⟨ks, k1, k2, k3⟩ := lagList_mono (f := fun n : ℕ => ((-T + n * δ : ℤ) : K) * g) (fun n hn => hg2 n hn.le) (by
    intro i j hij _
    apply mul_lt_mul_of_pos_right _ h.pos
    have h1 : (i : ℤ) * δ < j * δ := mul_lt_mul_of_pos_right (by exact_mod_cast hij) hδ0
    exact_mod_cast (show -T + (i : ℤ) * δ < -T + j * δ by linarith)) hlm
  have hin : ∀ n : ℕ, n < (2 * T / δ + 1).toNat ↔ -T + n * δ ≤ T := by
    intro n
    have e : (n < (2 * T / δ + 1).toNat) ↔ (n : ℤ) ≤ 2 * T / δ := by omega
    rw [e, Int.le_ediv_iff_mul_le hδ0]
    constructor <;> intro h <;> linarith
  refine ⟨ks, k1, k2, fun k => ?_⟩
  rw [k3]
  constructor
  · rintro (⟨n, hn, rfl⟩ | ⟨h0, _⟩)
    · exact Or.inl ⟨n, (hin n).1 hn, rfl⟩
    · exact Or.inr h0
  · rintro (⟨n, hn, rfl⟩ | h0)
    · exact Or.inl ⟨n, (hin n).2 hn, rfl⟩
    · have h2 : 2 * T < (2 * T / δ + 1) * δ := Int.lt_ediv_add_one_mul_self _ hδ0
      refine Or.inr ⟨h0, (2 * T / δ).toNat, by omega, ?_⟩
      apply mul_pos _ h.pos
      have e : (((2 * T / δ).toNat : ℕ) : ℤ) = 2 * T / δ := by omega
      rw [e]
      exact_mod_cast (show 0 < -T + 2 * T / δ * δ by linarith)

/-- **C60**: at every lag that is a multiple of the unit, the samples are matched with the mathematically nearest one and
the weights are computed from the exact distances: the value is the sum of `w_i dev_i dev_s(i)`, computed from the left,
times one over the computed normaliser.  The values may be any doubles except NaN. -/
theorem C60_value (h : ExactUnit R g B) (d : DS (XF R)) (hd : Constructed d) (M : ℕ) (τ : ℕ → ℤ)
    (ht : d.timeseries = samples M fun i => (τ i : K) * g) (hinc : IncreasingZ M τ)
    (j : ℕ) (x : ℕ → XF R) (hrow : d.HasRow j ((List.range M).map x)) (hx : ∀ i < M, x i ≠ .nan)
    (ga : LagArgs (XF R)) (wt : String) (hw : KnownWeight wt) (r : AcResult (XF R))
    (hr : autocorrelation .fabs d ga "natural" wt = .ok r) (n : ℕ) (k : ℤ) (hn : r.lags[n]? = some (.fin (k * g)))
    (hk : |k| + (τ (M - 1) - τ 0) ≤ B) :
    ∃ (m : ℕ) (s : ℕ → ℕ), m ≤ M ∧ (∀ i < M, (i < m ↔ τ i + k ≤ τ (M - 1))) ∧
      (∀ i < m, s i < M ∧ ∀ i' < M, |τ (s i) - (τ i + k)| < |τ i' - (τ i + k)| ∨
        (|τ (s i) - (τ i + k)| = |τ i' - (τ i + k)| ∧ i' ≤ s i)) ∧
      r.At j n (.fin (k * g)) (Arith.mul (seqDot (fun i => Arith.mul
        (fweight wt r.corr.alpha (.fin (((|τ (s i) - (τ i + k)| : ℤ) : K) * g))) (seqDev M x i)) (fun i => seqDev M x (s i)) m)
        (Arith.div Arith.one (seqNorm M x))) := by
  have hM0 : 0 < M := by
    have hne := hd.wf.ne
    obtain ⟨t', data, err, N, hN, hbu⟩ := hd.built
    have e : t' = samples M fun i => (τ i : K) * g := by rw [← hbu.ht]; exact ht
    subst e
    simpa using List.length_pos_iff.2 hbu.tne
  have hle : ∀ i < M, 0 ≤ τ i - τ 0 ∧ τ i - τ 0 ≤ τ (M - 1) - τ 0 := fun i hi => by
    have a1 := hinc.le (Nat.zero_le i) hi
    have a2 := hinc.le (show i ≤ M - 1 by omega) (by omega)
    omega
  have hk0 := abs_nonneg k
  have hk1 := neg_abs_le k
  have hk2 := le_abs_self k
  obtain ⟨_, hnt⟩ := ticks_normT h hd ht (fun i hi => by
    have := hle i hi
    rw [abs_of_nonneg this.1]; omega)
  obtain ⟨ps, hps, hat⟩ := result_at hd hr hrow hn
  have hu : IncreasingZ M fun i => τ i - τ 0 := fun i j hij hj => by have := hinc i j hij hj; simp only; omega
  obtain ⟨m, s, p1, p2, p3, p4⟩ := lagPlan_ticks h hM0 hu k (fun i hi => by
      have := hle i hi
      rw [abs_le]; constructor <;> omega) (fun i hi i' hi' hle' => by
      have a1 := hle i hi
      have a2 := hle i' hi'
      rw [abs_le]; constructor <;> omega) (planWt_fweight hw) r.corr.alpha
  rw [hnt, p4] at hps
  simp only [Res.ok.injEq] at hps
  rw [← hps, meanOf_seqMean hx, normOfRow_seqNorm hx, List.map_map] at hat
  have hsM : ∀ i < m, s i < M := fun i hi => (p3 i hi).1
  have hval := corrValue_seqDot p1 (fun i => Arith.sub (x i) (seqMean M x))
    (fun i => fweight wt r.corr.alpha (.fin (((|τ (s i) - τ 0 - (τ i - τ 0 + k)| : ℤ) : K) * g))) s hsM (seqNorm M x)
  have e : ∀ i i', τ i - τ 0 - (τ i' - τ 0 + k) = τ i - (τ i' + k) := fun i i' => by ring
  have hat' := hat
  simp only [Function.comp_def] at hat'
  rw [hval] at hat'
  simp only [e] at hat'
  refine ⟨m, s, p1, fun i hi => ?_, fun i hi => ⟨hsM i hi, fun i' hi' => ?_⟩, hat'⟩
  · rw [p2 i hi]
    constructor <;> intro h <;> omega
  · have hnear := (p3 i hi).2 i' hi'
    simp only [← sub_mul, ← Int.cast_sub, tick_abs h, e] at hnear
    rcases hnear with h1 | ⟨h1, h2⟩
    · left
      rw [mul_lt_mul_iff_left₀ h.pos] at h1
      exact_mod_cast h1
    · right
      refine ⟨?_, h2⟩
      have := mul_right_cancel₀ h.pos.ne' h1
      exact_mod_cast this

/-- the two rational weights of distance zero are one -/
theorem fweight_zero {wt : String} (hw : wt = "fractional" ∨ wt = "fractional_squared") {a : K} (ha : a ≠ 0) :
    fweight wt (.fin a : XF R) (.fin 0) = .fin 1 := by
  have h0 : (Arith.div (.fin 0) (.fin a) : XF R) = .fin 0 := by
    show (if a = 0 then _ else XF.round (0 / a)) = _
    rw [if_neg ha, zero_div]; exact round_zero
  have h1 : (Arith.add (.fin 1) (.fin 0) : XF R) = .fin 1 := by
    show XF.round (1 + 0) = _
    rw [add_zero]; exact round_one
  have h2 : (Arith.div (.fin 1) (.fin 1) : XF R) = .fin 1 := by
    show (if (1 : K) = 0 then _ else XF.round (1 / 1)) = _
    rw [if_neg one_ne_zero, div_one]; exact round_one
  rcases hw with rfl | rfl
  · unfold fweight
    rw [if_neg (by decide), if_neg (by decide), h0]
    simp only [xf_one, h1, h2]
  · unfold fweight
    rw [if_neg (by decide), if_pos rfl, h0, one_addMul_zero]
    exact h2

/-- **C60**: for regularly spaced time stamps `a, a + p, a + 2p, …` (multiples of the unit) the value at the lag `m p`, `m ≥ 0`,
is the textbook autocorrelation `Σ dev_i dev_(i+m) / Σ dev²` computed from left to right, operation by operation: matching
and weighting do not show. -/
theorem C60_textbook (h : ExactUnit R g B) (d : DS (XF R)) (hd : Constructed d) (M : ℕ) (a p : ℤ) (hp : 0 < p)
    (ht : d.timeseries = samples M fun i => ((a + i * p : ℤ) : K) * g)
    (j : ℕ) (x : ℕ → XF R) (hrow : d.HasRow j ((List.range M).map x)) (hx : ∀ i < M, x i ≠ .nan)
    (ga : LagArgs (XF R)) (wt : String) (hw : wt = "fractional" ∨ wt = "fractional_squared") (r : AcResult (XF R))
    (hr : autocorrelation .fabs d ga "natural" wt = .ok r) (α : K) (hα : r.corr.alpha = .fin α) (hα0 : α ≠ 0)
    (n m : ℕ) (hm : m < M) (hn : r.lags[n]? = some (.fin ((m * p : ℤ) * g))) (hB : 2 * M * p ≤ B) :
    r.At j n (.fin ((m * p : ℤ) * g)) (Arith.mul (seqDot (seqDev M x) (fun i => seqDev M x (i + m)) (M - m))
      (Arith.div Arith.one (seqNorm M x))) := by
  have hM1 : ((M - 1 : ℕ) : ℤ) = M - 1 := by omega
  have hmono : ∀ i i' : ℤ, i * p ≤ i' * p ↔ i ≤ i' := fun i i' => by
    constructor
    · intro h; exact le_of_mul_le_mul_right h hp
    · intro h; exact mul_le_mul_of_nonneg_right h hp.le
  obtain ⟨m', s, q1, q2, q3, q4⟩ := C60_value h d hd M (fun i => a + i * p) ht (fun i i' hij _ => by
      simp only
      have : (i : ℤ) * p < i' * p := mul_lt_mul_of_pos_right (by exact_mod_cast hij) hp
      linarith) j x hrow hx ga wt (by unfold KnownWeight; tauto) r hr n (m * p) (by rw [hn]) (by
      have h1 : (m : ℤ) * p ≤ M * p := (hmono _ _).2 (by omega)
      have h2 : ((M : ℤ) - 1) * p ≤ M * p := (hmono _ _).2 (by omega)
      have h0 : 0 ≤ (m : ℤ) * p := mul_nonneg (by omega) hp.le
      simp only [hM1]
      rw [abs_of_nonneg h0]
      push_cast
      linarith)
  have hm' : m' = M - m := by
    have key : ∀ i < M, (i < m' ↔ i + m ≤ M - 1) := by
      intro i hi
      rw [q2 i hi]
      have e : (a + (i : ℤ) * p + m * p ≤ a + ((M - 1 : ℕ) : ℤ) * p) ↔ ((i : ℤ) + m) * p ≤ ((M - 1 : ℕ) : ℤ) * p := by
        constructor <;> intro h <;> linarith
      rw [e, hmono]
      omega
    rcases Nat.lt_trichotomy m' (M - m) with h1 | h1 | h1
    · have := (key m' (by omega)).2 (by omega); omega
    · exact h1
    · have := (key (M - m) (by omega)).1 h1; omega
  have hs : ∀ i < m', s i = i + m ∧ |a + (s i : ℤ) * p - (a + i * p + m * p)| = 0 := by
    intro i hi
    have hz : |a + ((i + m : ℕ) : ℤ) * p - (a + i * p + m * p)| = 0 := by
      rw [abs_eq_zero]; push_cast; ring
    have hnear := (q3 i hi).2 (i + m) (by omega)
    rw [hz] at hnear
    have h0 : |a + (s i : ℤ) * p - (a + i * p + m * p)| = 0 := by
      rcases hnear with h1 | h1
      · exact absurd h1 (not_lt.2 (abs_nonneg _))
      · exact h1.1
    refine ⟨?_, h0⟩
    rw [abs_eq_zero] at h0
    have : (s i : ℤ) * p = ((i : ℤ) + m) * p := by linarith
    have := mul_right_cancel₀ hp.ne' this
    omega
  have hsum : ∀ n ≤ m', seqDot (fun i => Arith.mul
        (fweight wt r.corr.alpha (.fin (((|a + (s i : ℤ) * p - (a + i * p + m * p)| : ℤ) : K) * g))) (seqDev M x i)) (fun i => seqDev M x (s i)) n
      = seqDot (seqDev M x) (fun i => seqDev M x (i + m)) n := by
    intro n hn
    induction n with
    | zero => rfl
    | succ n ih =>
      unfold seqDot
      rw [ih (by omega)]
      obtain ⟨e1, e2⟩ := hs n (by omega)
      rw [e2, e1, hα, Int.cast_zero, zero_mul, fweight_zero hw hα0, one_mul_isDouble]
      exact sub_isDouble _ _
  have q4' := q4
  rw [hsum m' le_rfl, hm'] at q4'
  exact q4'

/-- two strictly increasing lists with the same members are equal -/
theorem sorted_ext {l l' : List K} (h : l.Pairwise (· < ·)) (h' : l'.Pairwise (· < ·)) (hm : ∀ k, k ∈ l ↔ k ∈ l') : l = l' := by
  have hnd : l.Nodup := h.imp fun h => ne_of_lt h
  have hnd' : l'.Nodup := h'.imp fun h => ne_of_lt h
  exact ((List.perm_ext_iff_of_nodup hnd hnd').2 hm).eq_of_pairwise
    (fun a b _ _ h1 h2 => absurd h1 (not_lt.2 h2.le)) h h'

/-- **C60**: for `M` regularly spaced time stamps the lags of a default call are exactly the `2M - 1` multiples
`-(M-1)p, …, 0, …, (M-1)p` of the spacing. -/
theorem C60_regular_lags (h : ExactUnit R g B) (d : DS (XF R)) (hd : Constructed d) (M : ℕ) (a p : ℤ) (hp : 0 < p)
    (ht : d.timeseries = samples M fun i => ((a + i * p : ℤ) : K) * g) (hM : 2 ≤ M) (hB : 2 * M * p ≤ B)
    (hM30 : M < 2 ^ 30) (h1 : ∀ n : ℤ, |n| ≤ 2 * M → (XF.round (n : K) : XF R) = .fin n)
    (α : Option (XF R)) (wt : String) (hw : KnownWeight wt) :
    ∃ r, autocorrelation .fabs d { alpha := α } "natural" wt = .ok r ∧
      r.lags = (List.range (2 * M - 1)).map fun n => .fin (((((n : ℤ) - (M - 1)) * p : ℤ) : K) * g) := by
  have hM1 : ((M - 1 : ℕ) : ℤ) = M - 1 := by omega
  have hlt : ∀ i i' : ℤ, i < i' → i * p < i' * p := fun i i' h => mul_lt_mul_of_pos_right h hp
  have hT : a + ((M - 1 : ℕ) : ℤ) * p - (a + ((0 : ℕ) : ℤ) * p) = (M - 1) * p := by rw [hM1]; push_cast; ring
  have hMp : ((M : ℤ) - 1) * p ≤ M * p := (hlt _ _ (by omega)).le
  obtain ⟨r, hr, ks, k1, k2, k3⟩ := C60_default_lags h d hd M (fun i => a + i * p) ht hM (fun i i' hij _ => by
      have := hlt i i' (by exact_mod_cast hij)
      simp only
      linarith) p ⟨⟨0, 1, by omega, by omega, by push_cast; ring⟩, fun i i' hij _ => by
        have : ((i : ℤ) + 1) * p ≤ i' * p := mul_le_mul_of_nonneg_right (by omega) hp.le
        linarith⟩ (by rw [hT]; linarith) (2 * M - 2) (by rw [hT]; linarith) (by norm_num at hM30 ⊢; omega)
    (fun n hn => h1 n (by omega)) α wt hw
  refine ⟨r, hr, ?_⟩
  simp only [hT] at k3
  rw [k1]
  have hks : ks = (List.range (2 * M - 1)).map fun n : ℕ => ((((n : ℤ) - (M - 1)) * p : ℤ) : K) * g := by
    apply sorted_ext k2
    · rw [List.pairwise_map, List.pairwise_iff_getElem]
      intro i j hi hj hij
      simp only [List.getElem_range]
      apply mul_lt_mul_of_pos_right _ h.pos
      exact_mod_cast hlt _ _ (by omega)
    · intro k
      rw [k3]
      simp only [List.mem_map, List.mem_range]
      constructor
      · rintro (⟨n, hn, rfl⟩ | rfl)
        · refine ⟨n, ?_, ?_⟩
          · by_contra hc
            have := hlt (2 * (M - 1)) n (by omega)
            linarith
          · congr 2; ring
        · exact ⟨M - 1, by omega, by rw [hM1]; simp⟩
      · rintro ⟨n, hn, rfl⟩
        left
        refine ⟨n, ?_, by congr 2; ring⟩
        have : (n : ℤ) * p ≤ (2 * (M - 1)) * p := mul_le_mul_of_nonneg_right (by omega) hp.le
        linarith
  rw [hks, List.map_map]
  rfl

/-- the median of regularly spaced times is exact (the spacing is an even multiple of the unit) -/
theorem regular_median (h : ExactUnit R g B) {d : DS (XF R)} (hd : Constructed d) {M : ℕ} {a p : ℤ} (hp : 0 < p)
    (ht : d.timeseries = samples M fun i => ((a + i * (2 * p) : ℤ) : K) * g) (hM : 2 ≤ M) (hB : 2 * M * (2 * p) ≤ B) :
    d.tMedian = .fin ((((M : ℤ) - 1) * p : ℤ) * g) := by
  have hb : ∀ i : ℕ, i < 2 * M → |(i : ℤ) * (2 * p)| ≤ B := by
    intro i hi
    rw [abs_of_nonneg (mul_nonneg (by omega) (by omega))]
    have : (i : ℤ) * (2 * p) ≤ (2 * M) * (2 * p) := mul_le_mul_of_nonneg_right (by omega) (by omega)
    linarith
  have e0 : ∀ i : ℕ, a + (i : ℤ) * (2 * p) - (a + ((0 : ℕ) : ℤ) * (2 * p)) = i * (2 * p) := by intro i; push_cast; ring
  obtain ⟨hM0, hnt⟩ := ticks_normT h hd ht (fun i hi => by
    rw [e0]; exact hb i (by omega))
  simp only [e0] at hnt
  obtain ⟨_, _, _, _, _, hbu⟩ := hd.built
  have hmed := hbu.med
  unfold settMedian at hmed
  rw [hnt] at hmed
  simp only [samples_length] at hmed
  have hget : ∀ i < M, rawGet (samples M (fun i => (((i : ℤ) * (2 * p) : ℤ) : K) * g) : List (XF R)) i
      = .ok (.fin ((((i : ℤ) * (2 * p) : ℤ) : K) * g)) := by
    intro i hi
    rw [rawGet_eq_ok, samples_getElem? hi]
  split at hmed
  · rename_i heven
    have e : ((M / 2 - 1 : ℕ) : ℤ) * (2 * p) + ((M / 2 : ℕ) : ℤ) * (2 * p) = 2 * ((M - 1) * p) := by
      have e1 : ((M / 2 - 1 : ℕ) : ℤ) = (M / 2 : ℕ) - 1 := by omega
      have e2 : (M : ℤ) = 2 * ((M / 2 : ℕ) : ℤ) := by omega
      rw [e1, e2]
      have e3 : (2 * ((M / 2 : ℕ) : ℤ)).toNat = M := by omega
      ring
    have hMp : 0 ≤ ((M : ℤ) - 1) * p := mul_nonneg (by omega) hp.le
    have hMp' : ((M : ℤ) - 1) * p ≤ M * p := mul_le_mul_of_nonneg_right (by omega) hp.le
    have hMpp : 0 ≤ (M : ℤ) * p := mul_nonneg (by omega) hp.le
    rw [hget _ (by omega), hget _ (by omega)] at hmed
    simp only [Res.ok_bind, Res.ok.injEq] at hmed
    rw [tick_add h (by rw [e, abs_of_nonneg (by linarith)]; linarith), e] at hmed
    rw [← hmed]
    show (if (2 : K) = 0 then _ else XF.round _) = _
    rw [if_neg two_ne_zero]
    have e2 : (((2 * ((M - 1) * p) : ℤ) : K) * g) / 2 = (((M - 1) * p : ℤ) : K) * g := by push_cast; ring
    rw [e2]
    exact h.exact _ (by rw [abs_of_nonneg hMp]; linarith)
  · rename_i hodd
    rw [hget _ (by omega)] at hmed
    simp only [Res.ok.injEq] at hmed
    rw [← hmed]
    congr 2
    have e2 : ((M / 2 : ℕ) : ℤ) * 2 = M - 1 := by omega
    have : ((M / 2 : ℕ) : ℤ) * (2 * p) = ((M : ℤ) - 1) * p := by rw [← e2]; ring
    rw [this]

/-! ### binary64 -/

variable {ex : ℚ → ℚ} {fu : Bool}

/-- multiples of a power of two in binary64 -/
theorem exactUnit64 (e : ℤ) (h1 : -1074 ≤ e) (h2 : e ≤ 970) : ExactUnit (Rnd.binary64 ex fu) (pow2 e) (2 ^ 53) := by
  have hbig : (2 : ℚ) ^ 53 * pow2 e ≤ big := by
    have hm : pow2 e ≤ pow2 970 := pow2_mono h2
    have e1 : pow2 971 = pow2 970 * 2 := by rw [← pow2_one, ← pow2_add]; rfl
    have hp := pow2_pos 970
    unfold big
    rw [e1]
    nlinarith
  refine ⟨pow2_pos e, ?_, ?_⟩
  · intro n hn
    have hfix : b64 (n * pow2 e) = n * pow2 e := roundTo_fixed (p := 53) (emin := -1074) (by norm_num) hn h1
    have : |(n : ℚ) * pow2 e| ≤ big := by
      rw [abs_mul, abs_of_pos (pow2_pos e)]
      refine le_trans ?_ hbig
      apply mul_le_mul_of_nonneg_right _ (pow2_pos e).le
      exact_mod_cast hn
    rw [d64_round this, hfix]
  · have : ((2 ^ 53 : ℤ) : ℚ) = 2 ^ 53 := by push_cast; rfl
    rw [this]
    exact hbig

theorem round_int64 (n : ℤ) (h : |n| ≤ 2 ^ 53) : (XF.round (n : ℚ) : D64 ex fu) = .fin n := by
  have := (exactUnit64 (ex := ex) (fu := fu) 0 (by norm_num) (by norm_num)).exact n h
  simpa [pow2_zero] using this

/-- **C60 in binary64**: `M` samples at times `(a + i p) 2^e`, for instance integers or multiples of 1/4, `M < 2^29`, values any
doubles except NaN.  The default call returns; its lags are the `2M - 1` multiples of the spacing; and the value at
lag `m p 2^e`, `m ≥ 0`, is bit for bit what the textbook formula gives when evaluated from left to right. -/
theorem C60_binary64 (e : ℤ) (he : -1073 ≤ e) (he' : e ≤ 970) (d : DS (D64 ex fu)) (hd : Constructed d) (M : ℕ) (a p : ℤ) (hp : 0 < p)
    (ht : d.timeseries = samples M fun i => ((a + i * p : ℤ) : ℚ) * pow2 e) (hM : 2 ≤ M) (hM30 : M < 2 ^ 30)
    (hB : M * p ≤ 2 ^ 51) :
    ∃ r, autocorrelation .fabs d {} "natural" "fractional" = .ok r ∧
      r.lags = (List.range (2 * M - 1)).map (fun n => .fin (((((n : ℤ) - (M - 1)) * p : ℤ) : ℚ) * pow2 e)) ∧
      ∀ (j : ℕ) (x : ℕ → D64 ex fu), d.HasRow j ((List.range M).map x) → (∀ i < M, x i ≠ .nan) → ∀ m < M,
        r.At j (M - 1 + m) (.fin ((m * p : ℤ) * pow2 e))
          (Arith.mul (seqDot (seqDev M x) (fun i => seqDev M x (i + m)) (M - m))
            (Arith.div Arith.one (seqNorm M x))) := by
  have hu := exactUnit64 (ex := ex) (fu := fu) (e - 1) (by omega) (by omega)
  have hpe : pow2 e = 2 * pow2 (e - 1) := by
    rw [← pow2_one, ← pow2_add]; congr 1; ring
  have hscale : ∀ z : ℤ, (z : ℚ) * pow2 e = ((2 * z : ℤ) : ℚ) * pow2 (e - 1) := by
    intro z; rw [hpe]; push_cast; ring
  have ht' : d.timeseries = samples M fun i => ((2 * a + i * (2 * p) : ℤ) : ℚ) * pow2 (e - 1) := by
    rw [ht]
    congr 1
    funext i
    rw [hscale]
    congr 2; ring
  have hMle : 2 * (M : ℤ) ≤ 2 ^ 53 := by
    have : (M : ℤ) < 2 ^ 30 := by exact_mod_cast hM30
    norm_num at this ⊢; omega
  obtain ⟨r, hr, hl⟩ := C60_regular_lags hu d hd M (2 * a) (2 * p) (by omega) ht' hM (by linarith) hM30
    (fun n hn => round_int64 n (hn.trans hMle)) none "fractional" (by unfold KnownWeight; simp)
  have hlag : r.lags = (List.range (2 * M - 1)).map (fun n => .fin (((((n : ℤ) - (M - 1)) * p : ℤ) : ℚ) * pow2 e)) := by
    rw [hl]
    apply List.map_congr_left
    intro n _
    rw [hscale]
    congr 3; ring
  refine ⟨r, hr, hlag, ?_⟩
  intro j x hrow hx m hm
  have hmed := regular_median hu hd hp ht' hM (by linarith)
  obtain ⟨_, _, _, p4⟩ := result_params hd.wf hr
  simp only [Option.getD_none] at p4
  rw [hmed] at p4
  have hpos : (0 : ℚ) < (((M : ℤ) - 1) * p : ℤ) * pow2 (e - 1) := by
    apply mul_pos _ (pow2_pos _)
    exact_mod_cast mul_pos (show (0 : ℤ) < (M : ℤ) - 1 by omega) hp
  have hidx : r.lags[M - 1 + m]? = some (.fin ((m * (2 * p) : ℤ) * pow2 (e - 1))) := by
    rw [hl, List.getElem?_map, List.getElem?_range (by omega)]
    simp only [Option.map_some, Option.some.injEq, XF.fin.injEq]
    congr 2
    have : (((M - 1 + m : ℕ) : ℤ) - (M - 1)) = m := by omega
    rw [this]
  have := C60_textbook hu d hd M (2 * a) (2 * p) (by omega) ht' j x hrow hx {} "fractional" (Or.inl rfl) r hr _ p4 hpos.ne'
    (M - 1 + m) m hm hidx (by linarith)
  rw [hscale]
  have e3 : (m : ℤ) * (2 * p) = 2 * (m * p) := by ring
  rw [e3] at this
  exact this

/-! ### cases -/

/-- times 10, 10.25, 10.5 and values 0.1, 0.2, 0.7 read as doubles -/
def uX (i : ℕ) : Sacf.B := (b [1/10, 2/10, 7/10]).getD i (.fin 0)

/-- C60_binary64 applied to them: unit 1/4, `a = 40`, `p = 1` -/
example : ∃ d r, mkFlat (b [10, 10 + 1/4, 10 + 1/2]) (b [1/10, 2/10, 7/10]) = .ok d ∧
    autocorrelation .fabs d = .ok r ∧ r.lags = b [-1/2, -1/4, 0, 1/4, 1/2] ∧
    r.At 0 3 (.fin (1/4)) (Arith.mul (seqDot (seqDev 3 uX) (fun i => seqDev 3 uX (i + 1)) 2)
      (Arith.div Arith.one (seqNorm 3 uX))) := by
  obtain ⟨d, hd, h1, h2⟩ : ∃ d, mkFlat (b [10, 10 + 1/4, 10 + 1/2]) (b [1/10, 2/10, 7/10]) = .ok d ∧
      d.timeseries = (samples 3 fun i => ((40 + i * 1 : ℤ) : ℚ) * pow2 (-2)) ∧ d.data2d = .ok [(List.range 3).map uX] := by
    have key : ((mkFlat (b [10, 10 + 1/4, 10 + 1/2]) (b [1/10, 2/10, 7/10])).bind fun d => .ok (d.timeseries, d.data2d))
        = .ok ((samples 3 fun i => ((40 + i * 1 : ℤ) : ℚ) * pow2 (-2)), .ok [(List.range 3).map uX]) := by decide +kernel
    obtain ⟨d, hd, he⟩ := Res.bind_eq_ok.1 key
    simp only [Res.ok.injEq, Prod.mk.injEq] at he
    exact ⟨d, hd, he.1, he.2⟩
  obtain ⟨r, hr, hl, hv⟩ := C60_binary64 (-2) (by norm_num) (by norm_num) d (.flat hd) 3 40 1 one_pos h1 (by norm_num)
    (by norm_num) (by norm_num)
  refine ⟨d, r, hd, hr, hl.trans (by decide +kernel), ?_⟩
  have := hv 0 uX ⟨_, h2, rfl⟩ (by decide +kernel) 1 (by norm_num)
  have e : (((1 : ℕ) : ℤ) * 1 : ℤ) * pow2 (-2) = (1/4 : ℚ) := by decide +kernel
  rw [e] at this
  exact this

/-- the value of that formula, and what the call returns -/
example : Arith.mul (seqDot (seqDev 3 uX) (fun i => seqDev 3 uX (i + 1)) 2)
      (Arith.div Arith.one (seqNorm 3 uX)) = (.fin (-6198503019829837 / 2 ^ 56) : Sacf.B) ∧
    ((mkFlat (b [10, 10 + 1/4, 10 + 1/2]) (b [1/10, 2/10, 7/10])).bind fun d => (autocorrelation .fabs d).bind fun r =>
      .ok (r.corrs.rows.map (·[3]?))) = .ok [some (.fin (-6198503019829837 / 2 ^ 56))] := by
  decide +kernel

/-- **C60 needs the power of two**: the times `i * 0.1`, read as doubles, have spacing 0.1 to within rounding, but the
default call returns 8 lags instead of 7, -2^-54 is one of them, and none of them is the double 0.1. -/
theorem C60_false_decimal : ((mkFlat (b [0, 1/10, 2/10, 3/10]) (b [1, 2, 3, 4])).bind fun d =>
    (autocorrelation .fabs d).bind fun r => .ok (r.lags.length, decide ((.fin (-1 / 2 ^ 54) : Sacf.B) ∈ r.lags),
      decide ((.fin (b64 (1/10)) : Sacf.B) ∈ r.lags))) = .ok (8, true, false) := by
  decide +kernel

end Sacf
