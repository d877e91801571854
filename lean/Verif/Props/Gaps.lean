import Verif.Props.Stability
import Verif.Props.StatsRounded

/-!
# What the gaps between the times say about the correlations: C33 for any non-negative lag, and the default `alpha` (C81)

`δ` and `G` bound the gaps between neighbouring times from below and above.  A sample is then matched at most `⌈G / δ⌉` times at a
non-negative lag and every matched sample is within `G / 2`.
-/

set_option linter.unusedSectionVars false

namespace Sacf

open Finset

/-- neighbouring times are at least `δ` and at most `G` apart -/
def GapsWithin {K : Type} [LE K] [Sub K] (M : ℕ) (t : ℕ → K) (δ G : K) : Prop :=
  ∀ i, i + 1 < M → δ ≤ t (i + 1) - t i ∧ t (i + 1) - t i ≤ G

section exact
variable {K : Type} [Field K] [LinearOrder K] [IsStrictOrderedRing K] [FloorRing K]
variable {dm : K} {f32 ex : K → K}
variable {d : DS (Exact dm f32 ex)} {g : LagArgs (Exact dm f32 ex)} {wt : String} {r : AcResult (Exact dm f32 ex)}
  {M : ℕ} {t : ℕ → K} {j : ℕ} {x : ℕ → K} {α δ G k : K}

theorem GapsWithin.le_sub (h : GapsWithin M t δ G) {i : ℕ} : ∀ {n : ℕ}, i + n < M → n * δ ≤ t (i + n) - t i
  | 0, _ => by simp
  | n + 1, hn => by
    have h1 := h.le_sub (i := i) (n := n) (by omega)
    have h2 := (h (i + n) (by omega)).1
    push_cast
    rw [← add_assoc]
    linarith

/-- the sample nearest to a time not before the first and not after the last one -/
theorem nearest_gap (h : GapsWithin M t δ G) (hinc : Increasing M t) (hG : 0 < G) {y : K} {n : ℕ} (hn : IsNearest M t y n) (h0 : t 0 ≤ y)
    (h1 : y ≤ t (M - 1)) : t n - G / 2 ≤ y ∧ y ≤ t n + G / 2 ∧ (y < t n + G / 2) := by
  obtain ⟨hnM, hn⟩ := hn
  have lo : t n - G / 2 ≤ y := by
    by_contra hlt
    rw [not_le] at hlt
    have hn0 : n ≠ 0 := by rintro rfl; linarith
    have hg := (h (n - 1) (by omega)).2
    rw [show n - 1 + 1 = n by omega] at hg
    have h2 : t (n - 1) < t n := hinc (n - 1) n (by omega) hnM
    have h3 : |t n - y| ≤ |t (n - 1) - y| := by rcases hn (n - 1) (by omega) with h | ⟨h, _⟩; exacts [h.le, h.le]
    rw [abs_of_pos (by linarith)] at h3
    rcases abs_cases (t (n - 1) - y) with ⟨e, _⟩ | ⟨e, _⟩ <;> rw [e] at h3 <;> linarith
  have hi : y < t n + G / 2 := by
    by_contra hlt
    rw [not_lt] at hlt
    have hn1 : n + 1 < M := by
      by_contra hc
      rw [show M - 1 = n by omega] at h1
      linarith
    have hg := (h n hn1).2
    have h2 : t n < t (n + 1) := hinc n (n + 1) (by omega) hn1
    have h3 : |t n - y| < |t (n + 1) - y| := by
      rcases hn (n + 1) hn1 with h | ⟨_, h⟩
      · exact h
      · omega
    rw [abs_of_neg (by linarith)] at h3
    rcases abs_cases (t (n + 1) - y) with ⟨e, _⟩ | ⟨e, _⟩ <;> rw [e] at h3 <;> linarith
  exact ⟨lo, hi.le, hi⟩

/-- at a non-negative lag matched samples are within half of the largest gap -/
theorem selects_near (h : GapsWithin M t δ G) (hinc : Increasing M t) (hG : 0 < G) (hk : 0 ≤ k) {s : ℕ → ℕ} (hs : Selects M t k s)
    (i : ℕ) (hi : i < M) (hle : t i + k ≤ t (M - 1)) : |t (s i) - (t i + k)| ≤ G / 2 := by
  have h0 := hinc.le (Nat.zero_le i) hi
  obtain ⟨a1, a2, _⟩ := nearest_gap h hinc hG (hs i hi hle) (by linarith) hle
  rw [abs_le]
  constructor <;> linarith

/-- at a non-negative lag no sample is matched more than `⌈G / δ⌉` times -/
theorem selects_card (h : GapsWithin M t δ G) (hinc : Increasing M t) (hδ : 0 < δ) (hG : 0 < G) (hk : 0 ≤ k) {s : ℕ → ℕ} (hs : Selects M t k s)
    (n : ℕ) : ((range M).filter fun i => t i + k ≤ t (M - 1) ∧ s i = n).card ≤ ⌈G / δ⌉₊ := by
  set F := (range M).filter fun i => t i + k ≤ t (M - 1) ∧ s i = n with hF
  rcases F.eq_empty_or_nonempty with he | hne
  · rw [he]; simp
  have hm : ∀ i ∈ F, i < M ∧ t i + k ≤ t (M - 1) ∧ s i = n := fun i hi => by
    rw [hF, Finset.mem_filter, Finset.mem_range] at hi; exact hi
  have key : ∀ i ∈ F, t n - G / 2 ≤ t i + k ∧ t i + k < t n + G / 2 := fun i hi => by
    obtain ⟨h1, h2, h3⟩ := hm i hi
    have h0 := hinc.le (Nat.zero_le i) h1
    have := hs i h1 h2
    rw [h3] at this
    obtain ⟨a1, _, a2⟩ := nearest_gap h hinc hG this (by linarith) h2
    exact ⟨a1, a2⟩
  set a := F.min' hne with ha
  have haF : a ∈ F := F.min'_mem hne
  have hsub : F ⊆ Finset.Ico a (a + ⌈G / δ⌉₊) := by
    intro b hb
    have hab : a ≤ b := F.min'_le b hb
    rw [Finset.mem_Ico]
    refine ⟨hab, ?_⟩
    have h1 := h.le_sub (i := a) (n := b - a) (by have := (hm b hb).1; omega)
    rw [show a + (b - a) = b by omega] at h1
    have h2 := (key a haF).1
    have h3 := (key b hb).2
    have h4 : ((b - a : ℕ) : K) < G / δ := by rw [lt_div_iff₀ hδ]; linarith
    have h5 : b - a < ⌈G / δ⌉₊ := Nat.lt_ceil.2 h4
    omega
  simpa using Finset.card_le_card hsub

/-- **C33**: if the largest gap between neighbouring times is at most `G` and the smallest at least `δ`, the square of any correlation at a non-negative lag
is at most `⌈G / δ⌉`. -/
theorem C33_gaps_partial (h : NaturalRun d g wt r M t j x α) (hf : ∀ i < M, f32 (x i) = x i) (hv : sumSq M x ≠ 0)
    (he : wt = "gaussian" → ∀ y ≤ 0, 0 ≤ ex y ∧ ex y ≤ 1) (hg : GapsWithin M t δ G) (hδ : 0 < δ) (hG : 0 < G)
    (n : ℕ) (k : K) (hk : 0 ≤ k) (hn : r.lags[n]? = some (.fin k)) :
    ∃ v, r.At j n (.fin k) (.fin v) ∧ v ^ 2 ≤ ⌈G / δ⌉₊ := by
  obtain ⟨s, hs⟩ := selects_exists M t k
  exact ⟨_, C47_formula h hf hv n k hn s hs, sacf_bound (fun y hy => weight_bounds h.wt_known he h.alpha_pos hy)
    (fun i hi hk => (hs i hi hk).1) (fun n' _ => selects_card hg h.inc hδ hG hk hs n') hv⟩

/-- **C33**: on a regular grid all correlations at non-negative lags, whole or not, are in [-1, 1]. -/
theorem C33_regular_any_lag_partial {t0 : K} (h : NaturalRun d g wt r M (fun i : ℕ => t0 + i * δ) j x α) (hδ : 0 < δ)
    (hf : ∀ i < M, f32 (x i) = x i) (hv : sumSq M x ≠ 0) (he : wt = "gaussian" → ∀ y ≤ 0, 0 ≤ ex y ∧ ex y ≤ 1)
    (n : ℕ) (k : K) (hk : 0 ≤ k) (hn : r.lags[n]? = some (.fin k)) :
    ∃ v, r.At j n (.fin k) (.fin v) ∧ |v| ≤ 1 := by
  obtain ⟨v, h1, h2⟩ := C33_gaps_partial (δ := δ) (G := δ) h hf hv he (fun i _ => by
    have : t0 + ((i + 1 : ℕ) : K) * δ - (t0 + (i : K) * δ) = δ := by push_cast; ring
    simp only [this, le_refl, and_self]) hδ hδ n k hk hn
  refine ⟨v, h1, ?_⟩
  rw [div_self hδ.ne', Nat.ceil_one, Nat.cast_one] at h2
  rwa [abs_le_one_iff_mul_self_le_one, ← sq]

/-- the median of the times counted from the first -/
theorem median_gap (hd : Constructed d) (ht : d.timeseries = samples M t) (hg : GapsWithin M t δ G) {m : K} (hm : d.tMedian = .fin m) :
    ((M : K) - 1) / 2 * δ ≤ m := by
  obtain ⟨hM, hn, _⟩ := built_times hd ht
  obtain ⟨_, _, _, _, _, hb⟩ := hd.built
  have hmed := hb.med
  rw [hn, hm] at hmed
  unfold settMedian at hmed
  simp only [samples_length] at hmed
  have hle : ∀ i < M, (i : K) * δ ≤ t i - t 0 := fun i hi => by
    have := hg.le_sub (i := 0) (n := i) (by omega)
    rwa [zero_add] at this
  have hr : ∀ i < M, rawGet (samples M (fun i => t i - t 0) : List (Exact dm f32 ex)) i = .ok (.fin (t i - t 0)) := by
    intro i hi; rw [rawGet_eq_ok, samples_getElem? hi]
  by_cases hev : M % 2 = 0
  · rw [if_pos hev, hr _ (by omega), hr _ (by omega)] at hmed
    simp only [Res.ok_bind, ex_add, xf_two] at hmed
    rw [ex_div two_ne_zero] at hmed
    simp only [Res.ok.injEq, XF.fin.injEq] at hmed
    rw [← hmed]
    have h1 := hle (M / 2 - 1) (by omega)
    have h2 := hle (M / 2) (by omega)
    have e1 : (M : K) = 2 * ((M / 2 : ℕ) : K) := by
      rw [← Nat.cast_ofNat, ← Nat.cast_mul, Nat.cast_inj]; omega
    have e2 : ((M / 2 - 1 : ℕ) : K) = ((M / 2 : ℕ) : K) - 1 := by rw [Nat.cast_sub (by omega), Nat.cast_one]
    rw [e2] at h1
    rw [e1]
    nlinarith
  · rw [if_neg hev, hr _ (by omega)] at hmed
    simp only [Res.ok.injEq, XF.fin.injEq] at hmed
    rw [← hmed]
    have h2 := hle (M / 2) (by omega)
    have e1 : (M : K) = 2 * ((M / 2 : ℕ) : K) + 1 := by
      rw [← Nat.cast_ofNat, ← Nat.cast_mul, ← Nat.cast_add_one, Nat.cast_inj]; omega
    have e2 : ((M : K) - 1) / 2 = ((M / 2 : ℕ) : K) := by rw [e1]; ring
    rw [e2]
    exact h2

/-- **C81**: with the default `alpha` the correlation at a non-negative lag is close to the one without weights: with `ρ = G / ((M - 1) δ)`, which is small
for many samples without long gaps, it is within `√⌈G / δ⌉ ρ` (fractional weights) or `√⌈G / δ⌉ ρ²` (squared ones). -/
theorem C81_default_alpha (h : NaturalRun d g wt r M t j x α) (hga : g.alpha = none) (hw : wt = "fractional" ∨ wt = "fractional_squared")
    (hf : ∀ i < M, f32 (x i) = x i) (hv : sumSq M x ≠ 0) (hM : 2 ≤ M) (hg : GapsWithin M t δ G) (hδ : 0 < δ)
    (n : ℕ) (k : K) (hk : 0 ≤ k) (hn : r.lags[n]? = some (.fin k)) (s : ℕ → ℕ) (hs : Selects M t k s) :
    ∃ v, r.At j n (.fin k) (.fin v) ∧
      (v - sacf M t x (fun _ => 1) s (sumSq M x) k) ^ 2
        ≤ ((if wt = "fractional" then G / ((M - 1) * δ) else (G / ((M - 1) * δ)) ^ 2)) ^ 2 * ⌈G / δ⌉₊ := by
  have hG : 0 < G := hδ.trans_le ((hg 0 (by omega)).1.trans (hg 0 (by omega)).2)
  obtain ⟨v, h1, h2⟩ := C77_large h hw hf hv n k hn s hs (G / 2) (by linarith) (selects_near hg h.inc hG hk hs) ⌈G / δ⌉₊
    (fun n' _ => selects_card hg h.inc hδ hG hk hs n')
  refine ⟨v, h1, h2.trans (mul_le_mul_of_nonneg_right ?_ (Nat.cast_nonneg _))⟩
  have hα : d.tMedian = .fin α := by
    have := (result_params h.built.wf h.run).2.2.2
    rw [h.alpha, hga] at this
    exact this.symm
  have hm := median_gap h.built h.times hg hα
  have hM1 : (0 : K) < (M : K) - 1 := by
    have : (2 : K) ≤ M := by exact_mod_cast hM
    linarith
  have hα0 := h.alpha_pos
  have hq : G / 2 / α ≤ G / ((M - 1) * δ) := by
    rw [div_div]
    exact div_le_div_of_nonneg_left hG.le (mul_pos hM1 hδ) (by linarith)
  have hq0 : 0 ≤ G / 2 / α := by positivity
  split
  · exact pow_le_pow_left₀ hq0 hq 2
  · exact pow_le_pow_left₀ (sq_nonneg _) (pow_le_pow_left₀ hq0 hq 2) 2

end exact

section binary64
variable {ex : ℚ → ℚ} {fu : Bool} {d : DS (D64 ex fu)} {M j : ℕ} {τ : ℕ → ℤ} {e : ℤ} {x : ℕ → ℚ} {A V : ℚ}

theorem GapsWithin.units {p P : ℤ} (h : GapsWithin M τ p P) (e : ℤ) :
    GapsWithin M (fun i => (τ i : ℚ) * pow2 e) (p * pow2 e) (P * pow2 e) := by
  intro i hi
  obtain ⟨h1, h2⟩ := h i hi
  have he := pow2_pos e
  have e1 : (τ (i + 1) : ℚ) * pow2 e - τ i * pow2 e = ((τ (i + 1) - τ i : ℤ) : ℚ) * pow2 e := by push_cast; ring
  simp only [e1]
  exact ⟨mul_le_mul_of_nonneg_right (by exact_mod_cast h1) he.le, mul_le_mul_of_nonneg_right (by exact_mod_cast h2) he.le⟩

theorem units_inc (h : IncreasingZ M τ) (e : ℤ) : Increasing M fun i => (τ i : ℚ) * pow2 e :=
  fun i j hij hj => mul_lt_mul_of_pos_right (by exact_mod_cast h i j hij hj) (pow2_pos e)

theorem units_card {p P : ℤ} (hg : GapsWithin M τ p P) (hinc : IncreasingZ M τ) (hp : 0 < p) (hP : 0 < P) {k : ℤ} (hk : 0 ≤ k) {s : ℕ → ℕ}
    (hs : Selects M (fun i => (τ i : ℚ) * pow2 e) (k * pow2 e) s) {β : ℚ} (hβ : (⌈(P : ℚ) / p⌉₊ : ℚ) ≤ β ^ 2) (n : ℕ) :
    (((range M).filter fun i => (τ i : ℚ) * pow2 e + k * pow2 e ≤ (τ (M - 1) : ℚ) * pow2 e ∧ s i = n).card : ℚ) ≤ β ^ 2 := by
  have he := pow2_pos e
  have h := selects_card (hg.units e) (units_inc hinc e) (mul_pos (by exact_mod_cast hp) he) (mul_pos (by exact_mod_cast hP) he)
    (mul_nonneg (by exact_mod_cast hk) he.le) hs n
  rw [mul_div_mul_right _ _ he.ne'] at h
  exact le_trans (by exact_mod_cast h) hβ

/-- **C33 in binary64**, gaps of `p` to `P` units: no correlation at a non-negative lag exceeds `√⌈P / p⌉` by more than the error bound. -/
theorem C33_gaps_binary64_partial (ht : Times64 d M τ e) (hv : Values64 d M j x A V) (ga : LagArgs (D64 ex fu)) (wt : String)
    (hw : wt = "fractional" ∨ wt = "fractional_squared") (r : AcResult (D64 ex fu))
    (hr : autocorrelation .fabs d ga "natural" wt = .ok r) (α : ℚ) (hα : r.corr.alpha = .fin α) (hα0 : pow2 (e - 400) ≤ α)
    (p P : ℤ) (hg : GapsWithin M τ p P) (hp : 0 < p) (hP : 0 < P)
    (n : ℕ) (k : ℤ) (hk0 : 0 ≤ k) (hn : r.lags[n]? = some (.fin (k * pow2 e))) (hk : k + (τ (M - 1) - τ 0) ≤ 2 ^ 53) (β : ℚ) (hβ : 0 ≤ β)
    (hβ2 : (⌈(P : ℚ) / p⌉₊ : ℚ) ≤ β ^ 2) :
    ∃ v : ℚ, r.At j n (.fin (k * pow2 e)) (.fin v) ∧ |v| ≤ β + 250 * V * (M * A ^ 2 / sumSq M x) * (1 + β) := by
  obtain ⟨s, hs⟩ := selects_exists M (fun i => (τ i : ℚ) * pow2 e) (k * pow2 e)
  exact C33_error_bound_partial ht hv ga wt hw r hr α hα hα0 n k hn (by rwa [abs_of_nonneg hk0]) β hβ s hs
    fun n' _ => units_card hg ht.inc hp hP hk0 hs hβ2 n'

/-- the default `alpha` in binary64 -/
theorem median64_gap (ht : Times64 d M τ e) (hspan : τ (M - 1) - τ 0 ≤ 2 ^ 52) {p P : ℤ} (hg : GapsWithin M τ p P) :
    ∃ m : ℚ, d.tMedian = .fin m ∧ (((M - 1) / 2 : ℕ) : ℚ) * p * pow2 e ≤ m := by
  have hpe := pow2_pos e
  have hM := ht.one_le
  have hT : ∀ i < M, 0 ≤ τ i - τ 0 ∧ τ i - τ 0 ≤ τ (M - 1) - τ 0 := fun i hi => by
    have a1 := ht.inc.le (Nat.zero_le i) hi
    have a2 := ht.inc.le (show i ≤ M - 1 by omega) (by omega)
    omega
  obtain ⟨_, hnt⟩ := ticks_normT (exactUnit64 (ex := ex) (fu := fu) e ht.emin ht.emax) ht.built ht.times (fun i hi => by
    have := hT i hi
    rw [abs_of_nonneg (by omega)]; omega)
  obtain ⟨m, u, hm, hu, h1, _, _, _⟩ := C06_binary64 d ht.built M _ ht.times
    (fun i j hij hj => mul_le_mul_of_nonneg_right (by exact_mod_cast ht.inc.le hij hj) hpe.le) (by
      show _ ≤ big
      have e1 : 2 * ((τ (M - 1) : ℚ) * pow2 e - τ 0 * pow2 e) = 2 * ((τ (M - 1) - τ 0 : ℤ) : ℚ) * pow2 e := by push_cast; ring
      have h2 : ((τ (M - 1) - τ 0 : ℤ) : ℚ) ≤ 2 ^ 52 := by exact_mod_cast hspan
      have h3 : pow2 e ≤ pow2 970 := pow2_mono ht.emax
      have h4 : pow2 1023 = 2 * 2 ^ 52 * pow2 970 := by
        rw [show (1023 : ℤ) = ((53 : ℕ) : ℤ) + 970 by norm_num, pow2_add, pow2_nat]; norm_num
      have h5 := pow2_le_big
      rw [e1]
      calc 2 * ((τ (M - 1) - τ 0 : ℤ) : ℚ) * pow2 e ≤ 2 * 2 ^ 52 * pow2 970 := by gcongr
        _ ≤ big := by linarith)
  refine ⟨m, hm, ?_⟩
  have hui : ∀ i < M, u i = ((τ i - τ 0 : ℤ) : ℚ) * pow2 e := fun i hi => by
    have := congrArg (fun l => l[i]?) (hu.symm.trans hnt)
    simpa [samples_getElem? hi] using this
  set a := (M - 1) / 2 with ha
  have hua : u a ≤ m := by
    by_contra hlt
    rw [not_le] at hlt
    have hsub : (range M).filter (fun i => u i ≤ m) ⊆ range a := by
      intro i hi
      rw [Finset.mem_filter, Finset.mem_range] at hi
      rw [Finset.mem_range]
      by_contra hai
      have := hui i hi.1
      have h2 := hui a (by omega)
      have h3 : ((τ a - τ 0 : ℤ) : ℚ) ≤ ((τ i - τ 0 : ℤ) : ℚ) := by
        have := ht.inc.le (show a ≤ i by omega) hi.1
        exact_mod_cast (by omega : τ a - τ 0 ≤ τ i - τ 0)
      have h4 := mul_le_mul_of_nonneg_right h3 hpe.le
      linarith [hi.2]
    have := Finset.card_le_card hsub
    rw [Finset.card_range] at this
    omega
  have h2 := (hg.units e).le_sub (i := 0) (n := a) (by omega)
  rw [zero_add] at h2
  rw [hui a (by omega)] at hua
  push_cast at hua
  linarith

/-- **C81 in binary64**: as `C81_default_alpha`, for gaps of `p` to `P` units, with `ρ = P / (2 ⌊(M - 1) / 2⌋ p)` and the error bound of C61. -/
theorem C81_binary64 (ht : Times64 d M τ e) (hv : Values64 d M j x A V) (ga : LagArgs (D64 ex fu)) (hga : ga.alpha = none) (wt : String)
    (hw : wt = "fractional" ∨ wt = "fractional_squared") (r : AcResult (D64 ex fu))
    (hr : autocorrelation .fabs d ga "natural" wt = .ok r) (hM : 3 ≤ M) (hspan : τ (M - 1) - τ 0 ≤ 2 ^ 52)
    (p P : ℤ) (hg : GapsWithin M τ p P) (hp : 0 < p)
    (n : ℕ) (k : ℤ) (hk0 : 0 ≤ k) (hn : r.lags[n]? = some (.fin (k * pow2 e))) (hk : k + (τ (M - 1) - τ 0) ≤ 2 ^ 53)
    (s : ℕ → ℕ) (hs : Selects M (fun i => (τ i : ℚ) * pow2 e) (k * pow2 e) s) (β : ℚ) (hβ : 0 ≤ β) (hβ2 : (⌈(P : ℚ) / p⌉₊ : ℚ) ≤ β ^ 2)
    (ρ : ℚ) (hρ : ρ = P / (2 * ((M - 1) / 2 : ℕ) * p)) :
    ∃ v : ℚ, r.At j n (.fin (k * pow2 e)) (.fin v) ∧
      |v - sacf M (fun i => (τ i : ℚ) * pow2 e) x (fun _ => 1) s (sumSq M x) (k * pow2 e)|
        ≤ (if wt = "fractional" then ρ else ρ ^ 2) * β + 250 * V * (M * A ^ 2 / sumSq M x) * (1 + β) := by
  have hpe := pow2_pos e
  have hP : 0 < P := hp.trans_le ((hg 0 (by omega)).1.trans (hg 0 (by omega)).2)
  have hPq : (0 : ℚ) < P := by exact_mod_cast hP
  have hpq : (1 : ℚ) ≤ p := by exact_mod_cast hp
  obtain ⟨α, hm, hle⟩ := median64_gap ht hspan hg
  have hα : r.corr.alpha = .fin α := by
    rw [(result_params ht.built.wf hr).2.2.2, hga]
    exact hm
  have ha1 : (1 : ℚ) ≤ (((M - 1) / 2 : ℕ) : ℚ) := by exact_mod_cast (by omega : 1 ≤ (M - 1) / 2)
  have h1 : pow2 e ≤ (((M - 1) / 2 : ℕ) : ℚ) * p * pow2 e := by
    have := one_le_mul_of_one_le_of_one_le ha1 hpq
    nlinarith
  have hα0 : pow2 (e - 400) ≤ α := (pow2_mono (by omega)).trans (h1.trans hle)
  have hαp : 0 < α := lt_of_lt_of_le (pow2_pos _) hα0
  obtain ⟨v, h2, h3⟩ := C77_binary64_large ht hv ga wt hw r hr α hα hα0 n k hn (by rwa [abs_of_nonneg hk0]) s hs (P * pow2 e / 2) (by positivity)
    (selects_near (hg.units e) (units_inc ht.inc e) (by positivity) (mul_nonneg (by exact_mod_cast hk0) hpe.le) hs) β hβ
    (fun n' _ => units_card hg ht.inc hp hP hk0 hs hβ2 n')
  refine ⟨v, h2, h3.trans (add_le_add (mul_le_mul_of_nonneg_right ?_ hβ) le_rfl)⟩
  have hq0 : 0 ≤ P * pow2 e / 2 / α := by positivity
  have hq : P * pow2 e / 2 / α ≤ ρ := by
    rw [hρ, div_div, div_le_div_iff₀ (by positivity) (by positivity)]
    nlinarith
  split
  · exact hq
  · exact pow_le_pow_left₀ hq0 hq 2

end binary64

/-! ### cases -/

/-- times 0, 2, 4, 7, 9, 11 -/
def gT (i : ℕ) : ℚ := [0, 2, 4, 7, 9, 11].getD i 0
/-- values 1, 3, 2, 4, 6, 2 -/
def gX (i : ℕ) : ℚ := [1, 3, 2, 4, 6, 2].getD i 0
/-- samples matched at lag 3 -/
def gS (i : ℕ) : ℕ := [2, 2, 3, 5, 0, 0].getD i 0

theorem gT_inc : Increasing 6 gT := by
  intro i j hij hj
  interval_cases j <;> interval_cases i <;> decide +kernel

theorem gT_gaps : GapsWithin 6 gT 2 3 := by
  intro i hi
  have : i < 5 := by omega
  interval_cases i <;> decide +kernel

theorem gT_selects : Selects 6 gT 3 gS := by
  unfold Selects IsNearest
  decide +kernel

/-- C33_gaps_partial and C81_default_alpha: lag 3, default `alpha` 11/2 -/
example : ∃ (r : AcResult Q) (v v' : ℚ), r.At 0 1 (.fin 3) (.fin v) ∧ v ^ 2 ≤ 2 ∧ r.At 0 1 (.fin 3) (.fin v') ∧ (v' - sacf 6 gT gX (fun _ => 1) gS (sumSq 6 gX) 3) ^ 2 ≤ (3/10) ^ 2 * 2 := by
  obtain ⟨d, r, h1, h2, h3⟩ := runArgs_ok (t := (samples 6 gT : List Q)) (v := samples 6 gX) (wt := "fractional")
    (g := ⟨some (.fin 3), some (.fin 3), none, none⟩) (P := fun d r => decide (d.timeseries = samples 6 gT ∧ d.data2d = .ok [samples 6 gX] ∧
      r.corr.alpha = .fin (11/2) ∧ r.lags = q [0, 3])) (by decide +kernel)
  obtain ⟨h3, h4, h5, h6⟩ := of_decide_eq_true h3
  have h : NaturalRun (dm := 10 ^ 100) (f32 := id) (ex := fun x => 1 / (1 - x)) d ⟨some (.fin 3), some (.fin 3), none, none⟩ "fractional" r 6 gT 0 gX (11/2) :=
    ⟨.flat h1, h3, gT_inc, ⟨_, h4, rfl⟩, h2, by unfold KnownWeight; simp, h5, by norm_num⟩
  have hl : r.lags[1]? = some (.fin 3) := by rw [h6]; rfl
  have hc : ⌈(3 : ℚ) / 2⌉₊ = 2 := by rw [Nat.ceil_eq_iff (by norm_num)]; norm_num
  obtain ⟨v, a1, a2⟩ := C33_gaps_partial h (fun _ _ => rfl) (by decide +kernel) (by simp) gT_gaps (by norm_num) (by norm_num) 1 3 (by norm_num) hl
  obtain ⟨v', b1, b2⟩ := C81_default_alpha h rfl (.inl rfl) (fun _ _ => rfl) (by decide +kernel) (by norm_num) gT_gaps (by norm_num) 1 3 (by norm_num) hl gS
    gT_selects
  rw [hc] at a2 b2
  exact ⟨r, v, v', a1, by simpa using a2, b1, b2.trans (by norm_num)⟩


/-- C33_regular_any_lag_partial: times 0, 1, 2, 3, lag 9/4 -/
example : ∃ (r : AcResult Q) (v : ℚ), r.At 0 1 (.fin (9/4)) (.fin v) ∧ |v| ≤ 1 := by
  obtain ⟨d, r, h, hl⟩ := lag_witness wT' wX' (9/4) "gaussian" (by unfold KnownWeight; simp) wT'_inc (by decide +kernel)
  obtain ⟨v, h1, h2⟩ := C33_regular_any_lag_partial (t0 := 0) (δ := 1) h one_pos (fun _ _ => rfl) (by decide +kernel) (fun _ y hy => (ex_case.2 y hy).2) 1 _
    (by norm_num) hl
  exact ⟨r, v, h1, h2⟩

/-- times 0, 2, 4, 7, 9, 11 -/
def gτ (i : ℕ) : ℤ := [0, 2, 4, 7, 9, 11].getD i 0

theorem gτ_inc : IncreasingZ 6 gτ := by
  intro i j hij hj
  interval_cases j <;> interval_cases i <;> decide +kernel

theorem gτ_gaps : GapsWithin 6 gτ 2 3 := by
  intro i hi
  have : i < 5 := by omega
  interval_cases i <;> decide +kernel

/-- C33_gaps_binary64_partial and C81_binary64: the same in binary64 -/
example : ∃ (r : AcResult B) (v v' : ℚ), r.At 0 1 (.fin (3 * pow2 0)) (.fin v) ∧ |v| ≤ 151/100 ∧ r.At 0 1 (.fin (3 * pow2 0)) (.fin v') ∧
    |v' - sacf 6 (fun i => (gτ i : ℚ) * pow2 0) gX (fun _ => 1) gS (sumSq 6 gX) (3 * pow2 0)| ≤ 3/5 := by
  obtain ⟨d, r, h1, h2, h3⟩ := runArgs_ok (t := (samples 6 (fun i => (gτ i : ℚ) * pow2 0) : List B)) (v := samples 6 gX) (wt := "fractional")
    (g := ⟨some (.fin 3), some (.fin 3), none, none⟩) (P := fun d r => decide (d.timeseries = samples 6 (fun i => (gτ i : ℚ) * pow2 0) ∧
      d.data2d = .ok [samples 6 gX] ∧ r.corr.alpha = .fin (11/2) ∧ r.lags = [.fin 0, .fin (3 * pow2 0)])) (by decide +kernel)
  obtain ⟨h3, h4, h5, h6⟩ := of_decide_eq_true h3
  have ht : Times64 d 6 gτ 0 := ⟨.flat h1, h3, gτ_inc, by norm_num, by norm_num, by norm_num, by norm_num⟩
  have hv : Values64 d 6 0 gX 8 (pow2 (-50)) := ⟨⟨_, h4, rfl⟩, by decide +kernel, by decide +kernel, by decide +kernel, by decide +kernel, by decide +kernel,
    .inr (by decide +kernel), by decide +kernel⟩
  have hl : r.lags[1]? = some (.fin ((3 : ℤ) * pow2 0)) := by rw [h6]; rfl
  have hc : ⌈((3 : ℤ) : ℚ) / (2 : ℤ)⌉₊ = 2 := by rw [Nat.ceil_eq_iff (by norm_num)]; norm_num
  obtain ⟨v, a1, a2⟩ := C33_gaps_binary64_partial ht hv _ _ (.inl rfl) r h2 _ h5 (by decide +kernel) 2 3 gτ_gaps (by norm_num) (by norm_num) 1 3 (by norm_num) hl
    (by decide +kernel) (3/2) (by norm_num) (by rw [hc]; norm_num)
  obtain ⟨v', b1, b2⟩ := C81_binary64 ht hv _ rfl _ (.inl rfl) r h2 (by norm_num) (by decide +kernel) 2 3 gτ_gaps (by norm_num) 1 3 (by norm_num) hl
    (by decide +kernel) gS (by
      unfold Selects IsNearest
      decide +kernel) (3/2) (by norm_num) (by rw [hc]; norm_num) _ rfl
  exact ⟨r, v, v', a1, a2.trans (by decide +kernel), b1, b2.trans (by decide +kernel)⟩

end Sacf
