import Verif.Props.SumsAnyTimes
import Verif.Props.Shapes

/-!
# Signals with two levels: transits, eclipses, drop-outs, a change of level (C104)

The correlation of a signal that takes two values depends only on how many samples are at either level and on which pairs of matched samples are at the same level.
In exact arithmetic at any times, and in binary64 with the error bound of C61.
-/

set_option linter.unusedSectionVars false

namespace Sacf

open Finset

section spec
variable {K : Type} [Field K] [LinearOrder K] [IsStrictOrderedRing K]

/-- total weight of the matched pairs whose first sample satisfies `P` and whose second one satisfies `Q` -/
def pairWeight (M : ℕ) (t : ℕ → K) (w : K → K) (s : ℕ → ℕ) (k : K) (P Q : ℕ → Prop) [DecidablePred P] [DecidablePred Q] : K :=
  ∑ i ∈ range M with t i + k ≤ t (M - 1) ∧ P i ∧ Q (s i), w |t (s i) - (t i + k)|

/-- the correlation of a signal that is high at `h` of `M` samples: `a`, `b` and `c` are the weights of the pairs that are both high, both low, and different -/
def levelAcf (M h : ℕ) (a b c : K) : K :=
  (a * (M - h) ^ 2 + b * h ^ 2 - c * (h * (M - h))) / (M * (h * (M - h)))

/-- the same on a regular grid: `u` is the number of samples `m` steps before a sample that are high, `v` that of those `m` steps after one, `a` that of the pairs both high -/
def gridAcf (M m h a u v : ℕ) : K :=
  (a * M ^ 2 + (M - m) * h ^ 2 - (u + v) * (h * M)) / (M * (h * (M - h)))

end spec

section lemmas
variable {K : Type} [Field K] [LinearOrder K] [IsStrictOrderedRing K] {M h : ℕ} {t x : ℕ → K} {w : K → K} {s : ℕ → ℕ} {k c a : K}
  {H : ℕ → Prop} [DecidablePred H]

theorem level_sum (hx : ∀ i < M, x i = if H i then c + a else c) (hh : ((range M).filter H).card = h) : ∑ i ∈ range M, x i = M * c + h * a := by
  have e1 : ∀ i ∈ range M, x i = c + if H i then a else 0 := fun i hi => by
    rw [hx i (mem_range.1 hi)]
    split_ifs <;> ring
  rw [sum_congr rfl e1, sum_add_distrib, sum_const, card_range, ← sum_filter, sum_const, hh, nsmul_eq_mul, nsmul_eq_mul]

theorem level_dev (hM : 0 < M) (hx : ∀ i < M, x i = if H i then c + a else c) (hh : ((range M).filter H).card = h) {i : ℕ} (hi : i < M) :
    dev M x i = if H i then a * (M - h) / M else -(a * h / M) := by
  have hM0 : (M : K) ≠ 0 := by exact_mod_cast hM.ne'
  unfold dev mean
  rw [level_sum hx hh, hx i hi]
  split_ifs <;> field_simp <;> ring

theorem level_sumSq (hM : 0 < M) (hx : ∀ i < M, x i = if H i then c + a else c) (hh : ((range M).filter H).card = h) :
    sumSq M x = a ^ 2 * (h * (M - h)) / M := by
  have hM0 : (M : K) ≠ 0 := by exact_mod_cast hM.ne'
  have e1 : ∀ i ∈ range M, dev M x i ^ 2 = (a * h / M) ^ 2 + if H i then (a * (M - h) / M) ^ 2 - (a * h / M) ^ 2 else 0 := fun i hi => by
    rw [level_dev hM hx hh (mem_range.1 hi)]
    split_ifs <;> ring
  unfold sumSq
  rw [sum_congr rfl e1, sum_add_distrib, sum_const, card_range, ← sum_filter, sum_const, hh, nsmul_eq_mul, nsmul_eq_mul]
  field_simp
  ring

/-- the formula for a signal with two levels -/
theorem level_sacf (hM : 0 < M) (hx : ∀ i < M, x i = if H i then c + a else c) (hh : ((range M).filter H).card = h) (hv : sumSq M x ≠ 0)
    (hs : ∀ i < M, t i + k ≤ t (M - 1) → s i < M) :
    sacf M t x w s (sumSq M x) k = levelAcf M h (pairWeight M t w s k H H) (pairWeight M t w s k (fun i => ¬ H i) fun i => ¬ H i)
      (pairWeight M t w s k H (fun i => ¬ H i) + pairWeight M t w s k (fun i => ¬ H i) H) := by
  have hM0 : (M : K) ≠ 0 := by exact_mod_cast hM.ne'
  have e0 := level_sumSq hM hx hh
  have hq : a ^ 2 * ((h : K) * (M - h)) ≠ 0 := fun h0 => hv (by rw [e0, h0, zero_div])
  have ha : a ≠ 0 := fun h0 => hq (by rw [h0]; ring)
  have hq' : (h : K) * (M - h) ≠ 0 := fun h0 => hq (by rw [h0, mul_zero])
  have e1 : ∀ i ∈ (range M).filter (fun i => t i + k ≤ t (M - 1)), w |t (s i) - (t i + k)| * dev M x i * dev M x (s i)
      = a ^ 2 / M ^ 2 * ((if H i ∧ H (s i) then w |t (s i) - (t i + k)| else 0) * (M - h) ^ 2
          + (if ¬ H i ∧ ¬ H (s i) then w |t (s i) - (t i + k)| else 0) * h ^ 2
          - ((if H i ∧ ¬ H (s i) then w |t (s i) - (t i + k)| else 0) + if ¬ H i ∧ H (s i) then w |t (s i) - (t i + k)| else 0) * (h * (M - h))) := by
    intro i hi
    rw [mem_filter, mem_range] at hi
    rw [level_dev hM hx hh hi.1, level_dev hM hx hh (hs i hi.1 hi.2)]
    by_cases h1 : H i <;> by_cases h2 : H (s i) <;> simp [h1, h2] <;> field_simp
  have e2 : ∀ P Q : ℕ → Prop, ∀ [DecidablePred P] [DecidablePred Q], pairWeight M t w s k P Q
      = ∑ i ∈ range M with t i + k ≤ t (M - 1), if P i ∧ Q (s i) then w |t (s i) - (t i + k)| else 0 := by
    intro P Q _ _
    unfold pairWeight
    rw [← sum_filter, filter_filter]
  unfold sacf levelAcf
  rw [e2, e2, e2, e2, sum_congr rfl e1, ← mul_sum, sum_sub_distrib, sum_add_distrib, ← sum_mul, ← sum_mul, ← sum_mul, sum_add_distrib, e0]
  field_simp

theorem level_sumSq_ne (hx : ∀ i < M, x i = if H i then c + a else c) (ha : a ≠ 0) (hh : ((range M).filter H).card = h) (h0 : 0 < h) (h1 : h < M) : sumSq M x ≠ 0 := by
  have hM : 0 < M := by omega
  rw [level_sumSq hM hx hh]
  have e1 : (h : K) ≠ 0 := by exact_mod_cast h0.ne'
  have e2 : (M : K) ≠ 0 := by exact_mod_cast hM.ne'
  have e3 : (M : K) - h ≠ 0 := sub_ne_zero.2 (by exact_mod_cast h1.ne')
  exact div_ne_zero (mul_ne_zero (pow_ne_zero _ ha) (mul_ne_zero e1 e3)) e2

/-- the formula for a signal with two levels on a regular grid -/
theorem level_quotient (hx : ∀ i < M, x i = if H i then c + a else c) (ha : a ≠ 0) (hh : ((range M).filter H).card = h) (h0 : 0 < h) (h1 : h < M) {m : ℕ} (hm : m < M) :
    autoCov M x m / sumSq M x = gridAcf M m h ((range (M - m)).filter fun i => H i ∧ H (i + m)).card ((range (M - m)).filter H).card
      ((range (M - m)).filter fun i => H (i + m)).card := by
  have hM : 0 < M := by omega
  have e1 : (h : K) ≠ 0 := by exact_mod_cast h0.ne'
  have e2 : (M : K) ≠ 0 := by exact_mod_cast hM.ne'
  have e3 : (M : K) - h ≠ 0 := sub_ne_zero.2 (by exact_mod_cast h1.ne')
  have e4 : ∀ i ∈ range (M - m), dev M x i * dev M x (i + m)
      = a ^ 2 / M ^ 2 * ((if H i ∧ H (i + m) then (M : K) ^ 2 else 0) + h ^ 2 - ((if H i then (h * M : K) else 0) + if H (i + m) then (h * M : K) else 0)) := by
    intro i hi
    rw [mem_range] at hi
    rw [level_dev hM hx hh (show i < M by omega), level_dev hM hx hh (show i + m < M by omega)]
    by_cases h1 : H i <;> by_cases h2 : H (i + m) <;> simp [h1, h2] <;> field_simp <;> ring
  unfold autoCov gridAcf
  rw [sum_congr rfl e4, ← mul_sum, sum_sub_distrib, sum_add_distrib, sum_add_distrib, ← sum_filter, ← sum_filter, ← sum_filter, sum_const, sum_const, sum_const, sum_const,
    card_range, level_sumSq hM hx hh, nsmul_eq_mul, nsmul_eq_mul, nsmul_eq_mul, nsmul_eq_mul, Nat.cast_sub hm.le]
  field_simp

theorem card_box {M p L : ℕ} (h : p + L ≤ M) : ((range M).filter fun i => p ≤ i ∧ i < p + L).card = L := by
  have e1 : ((range M).filter fun i => p ≤ i ∧ i < p + L) = Ico p (p + L) := by
    ext i
    simp only [mem_filter, mem_range, mem_Ico]
    omega
  rw [e1, Nat.card_Ico]
  omega

/-- a box at least `m` samples away from both ends -/
theorem box_quotient {p L : ℕ} (hx : ∀ i < M, x i = if p ≤ i ∧ i < p + L then c + a else c) (ha : a ≠ 0) (hL : 0 < L) {m : ℕ} (hp : m ≤ p) (hM : p + L + m ≤ M) (hLM : L < M) :
    autoCov M x m / sumSq M x = ((L - m : ℕ) * M ^ 2 - (M + m) * L ^ 2) / (M * (L * (M - L))) := by
  rw [level_quotient (H := fun i => p ≤ i ∧ i < p + L) hx ha (card_box (by omega)) hL hLM (by omega)]
  have e1 : ((range (M - m)).filter fun i => (p ≤ i ∧ i < p + L) ∧ p ≤ i + m ∧ i + m < p + L) = Ico p (p + (L - m)) := by
    ext i
    simp only [mem_filter, mem_range, mem_Ico]
    omega
  have e2 : ((range (M - m)).filter fun i => p ≤ i + m ∧ i + m < p + L) = Ico (p - m) (p - m + L) := by
    ext i
    simp only [mem_filter, mem_range, mem_Ico]
    omega
  rw [e1, e2, card_box (by omega), Nat.card_Ico, Nat.card_Ico, show p + (L - m) - p = L - m by omega, show p - m + L - (p - m) = L by omega]
  unfold gridAcf
  congr 1
  ring

/-- a change of level before sample `p` -/
theorem step_quotient {p : ℕ} (hx : ∀ i < M, x i = if p ≤ i then c + a else c) (ha : a ≠ 0) {m : ℕ} (h0 : 0 < p) (h1 : p < M) (hp : m ≤ p) (hM : p + m ≤ M) :
    autoCov M x m / sumSq M x = 1 - m * (M ^ 2 - p * (M - p)) / (M * (p * (M - p))) := by
  have e0 : ((range M).filter fun i => p ≤ i).card = M - p := by
    have : ((range M).filter fun i => p ≤ i) = Ico p M := by
      ext i
      simp only [mem_filter, mem_range, mem_Ico]
      omega
    rw [this, Nat.card_Ico]
  rw [level_quotient (H := fun i => p ≤ i) hx ha e0 (by omega) (by omega) (by omega)]
  have e1 : ((range (M - m)).filter fun i => p ≤ i ∧ p ≤ i + m) = Ico p (M - m) := by
    ext i
    simp only [mem_filter, mem_range, mem_Ico]
    omega
  have e2 : ((range (M - m)).filter fun i => p ≤ i + m) = Ico (p - m) (M - m) := by
    ext i
    simp only [mem_filter, mem_range, mem_Ico]
    omega
  have e3 : ((range (M - m)).filter fun i => p ≤ i) = Ico p (M - m) := by
    ext i
    simp only [mem_filter, mem_range, mem_Ico]
    omega
  rw [e1, e2, e3, Nat.card_Ico, Nat.card_Ico]
  have f1 : (p : K) ≠ 0 := by exact_mod_cast h0.ne'
  have f2 : (M : K) ≠ 0 := by exact_mod_cast (by omega : M ≠ 0)
  have f3 : (M : K) - p ≠ 0 := sub_ne_zero.2 (by exact_mod_cast h1.ne')
  have f4 : ((M - m - p : ℕ) : K) = M - m - p := by rw [Nat.cast_sub (by omega), Nat.cast_sub (by omega)]
  have f5 : ((M - m - (p - m) : ℕ) : K) = M - p := by rw [show M - m - (p - m) = M - p by omega, Nat.cast_sub (by omega)]
  unfold gridAcf
  rw [f4, f5, Nat.cast_sub h1.le]
  have f6 : (M : K) - (M - p) = p := by ring
  rw [f6]
  field_simp
  ring

end lemmas

section exact
variable {K : Type} [Field K] [LinearOrder K] [IsStrictOrderedRing K] [FloorRing K]
variable {dm : K} {f32 ex : K → K} {d : DS (Exact dm f32 ex)} {g : LagArgs (Exact dm f32 ex)} {wt : String} {r : AcResult (Exact dm f32 ex)}
  {M j h : ℕ} {t x : ℕ → K} {α c a : K} {H : ℕ → Prop} [DecidablePred H]

/-- **C104**: a signal that is `c + a` at the `h` samples in `H` and `c` at all others, at any times.  The correlation is the closed form `levelAcf` of the number `h` and the
weights of the matched pairs that are both high, both low, and different; the two levels do not matter. -/
theorem C104_two_levels (hr : NaturalRun d g wt r M t j x α) (hx : ∀ i < M, x i = if H i then c + a else c) (ha : a ≠ 0)
    (hh : ((range M).filter H).card = h) (h0 : 0 < h) (h1 : h < M) (hf : ∀ i < M, f32 (x i) = x i) (n : ℕ) (k : K) (hn : r.lags[n]? = some (.fin k))
    (s : ℕ → ℕ) (hs : Selects M t k s) :
    r.At j n (.fin k) (.fin (levelAcf M h (pairWeight M t (weight ex wt α) s k H H) (pairWeight M t (weight ex wt α) s k (fun i => ¬ H i) fun i => ¬ H i)
      (pairWeight M t (weight ex wt α) s k H (fun i => ¬ H i) + pairWeight M t (weight ex wt α) s k (fun i => ¬ H i) H))) := by
  have hM : 0 < M := by omega
  have hv := level_sumSq_ne hx ha hh h0 h1
  rw [← level_sacf hM hx hh hv fun i hi hk => (hs i hi hk).1]
  exact C47_formula hr hf hv n k hn s hs

/-- **C104 on a regular grid**: the counts of the pairs instead of their weights. -/
theorem C104_regular {t0 δ : K} (hr : NaturalRun d g wt r M (fun i : ℕ => t0 + i * δ) j x α) (hδ : 0 < δ) (hx : ∀ i < M, x i = if H i then c + a else c) (ha : a ≠ 0)
    (hh : ((range M).filter H).card = h) (h0 : 0 < h) (h1 : h < M) (hf : ∀ i < M, f32 (x i) = x i) (he : wt = "gaussian" → ex 0 = 1)
    (m n : ℕ) (hm : m < M) (hn : r.lags[n]? = some (.fin (m * δ))) :
    r.At j n (.fin (m * δ)) (.fin (gridAcf M m h ((range (M - m)).filter fun i => H i ∧ H (i + m)).card ((range (M - m)).filter H).card
      ((range (M - m)).filter fun i => H (i + m)).card)) := by
  rw [← level_quotient hx ha hh h0 h1 hm]
  exact C30_regular hr hδ hf (level_sumSq_ne hx ha hh h0 h1) he m n hm hn

/-- **C104, a transit**: `L` samples in a row at another level, on a regular grid.  At `m` steps, if the transit is at least so far from both ends, the correlation is
`((L - m)⁺ M² - (M + m) L²) / (M L (M - L))`, whatever its depth and place: it falls linearly and is negative from the length of the transit on. -/
theorem C104_transit {t0 δ : K} (hr : NaturalRun d g wt r M (fun i : ℕ => t0 + i * δ) j x α) (hδ : 0 < δ) (p L : ℕ)
    (hx : ∀ i < M, x i = if p ≤ i ∧ i < p + L then c + a else c) (ha : a ≠ 0) (hL : 0 < L) (hLM : L < M) (hf : ∀ i < M, f32 (x i) = x i) (he : wt = "gaussian" → ex 0 = 1)
    (m n : ℕ) (hp : m ≤ p) (hM : p + L + m ≤ M) (hn : r.lags[n]? = some (.fin (m * δ))) :
    ∃ v, r.At j n (.fin (m * δ)) (.fin v) ∧ v = ((L - m : ℕ) * M ^ 2 - (M + m) * L ^ 2) / (M * (L * (M - L))) ∧ (L ≤ m → v < 0) := by
  refine ⟨_, C30_regular hr hδ hf (level_sumSq_ne hx ha (card_box (by omega)) hL hLM) he m n (by omega) hn, box_quotient hx ha hL hp hM hLM, fun h => ?_⟩
  rw [box_quotient hx ha hL hp hM hLM, Nat.sub_eq_zero_of_le h]
  have e1 : (0 : K) < L := by exact_mod_cast hL
  have e2 : (L : K) < M := by exact_mod_cast hLM
  have e3 : (0 : K) ≤ m := Nat.cast_nonneg m
  have e4 : (0 : K) < M - L := by linarith
  have e5 : (0 : K) < M := by linarith
  refine div_neg_of_neg_of_pos ?_ (by positivity)
  have : 0 < ((M : K) + m) * L ^ 2 := by positivity
  push_cast
  linarith

/-- **C104, a change of level**: one level for `p` samples and another for the remaining ones, on a regular grid.  As long as `m` is at most the number of samples at either
level the correlation falls linearly, by `(M² - p (M - p)) / (M p (M - p))` per step. -/
theorem C104_step {t0 δ : K} (hr : NaturalRun d g wt r M (fun i : ℕ => t0 + i * δ) j x α) (hδ : 0 < δ) (p : ℕ)
    (hx : ∀ i < M, x i = if p ≤ i then c + a else c) (ha : a ≠ 0) (h0 : 0 < p) (h1 : p < M) (hf : ∀ i < M, f32 (x i) = x i) (he : wt = "gaussian" → ex 0 = 1)
    (m n : ℕ) (hp : m ≤ p) (hM : p + m ≤ M) (hn : r.lags[n]? = some (.fin (m * δ))) :
    r.At j n (.fin (m * δ)) (.fin (1 - m * (M ^ 2 - p * (M - p)) / (M * (p * (M - p))))) := by
  rw [← step_quotient hx ha h0 h1 hp hM]
  refine C30_regular hr hδ hf ?_ he m n (by omega) hn
  refine level_sumSq_ne (H := fun i => p ≤ i) (h := M - p) hx ha ?_ (by omega) (by omega)
  have : ((range M).filter fun i => p ≤ i) = Ico p M := by
    ext i
    simp only [mem_filter, mem_range, mem_Ico]
    omega
  rw [this, Nat.card_Ico]

end exact

section binary64
variable {ex : ℚ → ℚ} {fu : Bool} {d : DS (D64 ex fu)} {ga : LagArgs (D64 ex fu)} {r : AcResult (D64 ex fu)} {wt : String}
  {M j h : ℕ} {τ : ℕ → ℤ} {e : ℤ} {x : ℕ → ℚ} {A V α c a : ℚ} {H : ℕ → Prop} [DecidablePred H]

/-- `pairWeight` over the reals, with the real exponential, of times and lag that are multiples of a power of two -/
noncomputable def realPairs (M : ℕ) (τ : ℕ → ℤ) (e : ℤ) (wt : String) (α : ℚ) (s : ℕ → ℕ) (k : ℤ) (P Q : ℕ → Prop) [DecidablePred P] [DecidablePred Q] : ℝ :=
  pairWeight M (fun i => ((τ i * pow2 e : ℚ) : ℝ)) (weight Real.exp wt (α : ℝ)) s ((k * pow2 e : ℚ) : ℝ) P Q

/-- **C104 in binary64**: any times, lags, weights and `alpha`; the weights are those over the reals. -/
theorem C104_binary64 (ht : Times64 d M τ e) (hv : Values64 d M j x A V) (hr : Run64 d ga wt r α e) (hx : ∀ i < M, x i = if H i then c + a else c)
    (hh : ((range M).filter H).card = h) (n : ℕ) (k : ℤ) (hn : r.lags[n]? = some (.fin (k * pow2 e))) (hk : |k| + (τ (M - 1) - τ 0) ≤ 2 ^ 53)
    (s : ℕ → ℕ) (hs : Selects M (fun i => (τ i : ℚ) * pow2 e) (k * pow2 e) s) (β : ℚ) (hβ : 0 ≤ β)
    (hB : ∀ i' < M, (((range M).filter fun i => (τ i : ℚ) * pow2 e + k * pow2 e ≤ (τ (M - 1) : ℚ) * pow2 e ∧ s i = i').card : ℚ) ≤ β ^ 2) :
    ∃ v : ℚ, r.At j n (.fin (k * pow2 e)) (.fin v) ∧
      |(v : ℝ) - levelAcf M h (realPairs M τ e wt α s k H H) (realPairs M τ e wt α s k (fun i => ¬ H i) fun i => ¬ H i)
          (realPairs M τ e wt α s k H (fun i => ¬ H i) + realPairs M τ e wt α s k (fun i => ¬ H i) H)|
        ≤ (250 * V * (M * A ^ 2 / sumSq M x) * (1 + β) : ℚ) := by
  obtain ⟨hN, _⟩ := hv.pos ht
  obtain ⟨v, h1, h2⟩ := real64_le ht hv hr hn hk hs hβ hB
  refine ⟨v, h1, ?_⟩
  have hM : 0 < M := ht.one_le
  have hN' : sumSq M (fun i => (x i : ℝ)) ≠ 0 := by
    rw [sumSq_cast]
    exact_mod_cast hN.ne'
  have e1 : realAcf M τ e x wt α s k = _ := level_sacf (c := (c : ℝ)) (a := (a : ℝ)) hM
    (fun i hi => by rw [hx i hi]; split_ifs <;> push_cast <;> rfl) hh hN' fun i hi hk' => ((selects_cast hs) i hi hk').1
  unfold realPairs
  rw [← e1]
  exact h2

/-- **C104 in binary64 on a regular grid**: default call. -/
theorem C104_binary64_regular {b0 q : ℤ} (ht : Regular64 d M b0 q e) (hv : Values64 d M j x A V) (hx : ∀ i < M, x i = if H i then c + a else c) (ha : a ≠ 0)
    (hh : ((range M).filter H).card = h) (h0 : 0 < h) (h1 : h < M) :
    ∃ r, autocorrelation .fabs d {} "natural" "fractional" = .ok r ∧ ∀ m < M, ∃ v : ℚ,
      r.At j (M - 1 + m) (.fin ((m * q : ℤ) * pow2 e)) (.fin v) ∧
      |v - gridAcf M m h ((range (M - m)).filter fun i => H i ∧ H (i + m)).card ((range (M - m)).filter H).card ((range (M - m)).filter fun i => H (i + m)).card|
        ≤ 500 * V * (M * A ^ 2 / sumSq M x) := by
  obtain ⟨hN, _, r, hr, h2⟩ := ht.result hv
  refine ⟨r, hr, fun m hm => ?_⟩
  rw [← level_quotient hx ha hh h0 h1 hm]
  exact h2 m hm

/-- **C104, a transit, in binary64**: default call. -/
theorem C104_binary64_transit {b0 q : ℤ} (ht : Regular64 d M b0 q e) (hv : Values64 d M j x A V) (p L : ℕ) (hx : ∀ i < M, x i = if p ≤ i ∧ i < p + L then c + a else c)
    (ha : a ≠ 0) (hL : 0 < L) (hLM : L < M) :
    ∃ r, autocorrelation .fabs d {} "natural" "fractional" = .ok r ∧ ∀ m, m ≤ p → p + L + m ≤ M → ∃ v : ℚ,
      r.At j (M - 1 + m) (.fin ((m * q : ℤ) * pow2 e)) (.fin v) ∧
      |v - ((L - m : ℕ) * M ^ 2 - (M + m) * L ^ 2) / (M * (L * (M - L)))| ≤ 500 * V * (M * A ^ 2 / sumSq M x) := by
  obtain ⟨hN, _, r, hr, h2⟩ := ht.result hv
  refine ⟨r, hr, fun m hp hM => ?_⟩
  rw [← box_quotient hx ha hL hp hM hLM]
  exact h2 m (by omega)

/-- **C104, a change of level, in binary64**: default call. -/
theorem C104_binary64_step {b0 q : ℤ} (ht : Regular64 d M b0 q e) (hv : Values64 d M j x A V) (p : ℕ) (hx : ∀ i < M, x i = if p ≤ i then c + a else c)
    (ha : a ≠ 0) (h0 : 0 < p) (h1 : p < M) :
    ∃ r, autocorrelation .fabs d {} "natural" "fractional" = .ok r ∧ ∀ m, m ≤ p → p + m ≤ M → ∃ v : ℚ,
      r.At j (M - 1 + m) (.fin ((m * q : ℤ) * pow2 e)) (.fin v) ∧
      |v - (1 - m * (M ^ 2 - p * (M - p)) / (M * (p * (M - p))))| ≤ 500 * V * (M * A ^ 2 / sumSq M x) := by
  obtain ⟨hN, _, r, hr, h2⟩ := ht.result hv
  refine ⟨r, hr, fun m hp hM => ?_⟩
  rw [← step_quotient hx ha h0 h1 hp hM]
  exact h2 m (by omega)

end binary64
end Sacf
