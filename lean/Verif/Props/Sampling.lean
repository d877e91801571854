import Verif.Spec.Sampling
import Verif.Props.Gauss64
import Verif.Props.Gaps

/-!
# Sampling: missing samples (C87), nearly regular times (C88), lags between the samples (C89)
-/

set_option linter.unusedSectionVars false

namespace Sacf

open Finset

section exact
variable {K : Type} [Field K] [LinearOrder K] [IsStrictOrderedRing K] [FloorRing K]
variable {dm : K} {f32 ex : K → K}
variable {d : DS (Exact dm f32 ex)} {g : LagArgs (Exact dm f32 ex)} {wt : String} {r : AcResult (Exact dm f32 ex)}
  {M : ℕ} {t : ℕ → K} {j : ℕ} {x : ℕ → K} {α : K}

/-! ## weights near and far -/

theorem weightLoss_nonneg {D : K} (hα : 0 < α) (hD : 0 ≤ D) : 0 ≤ weightLoss wt α D := by
  unfold weightLoss
  split_ifs <;> positivity

theorem weightRest_nonneg {D : K} (hα : 0 < α) (hD : 0 ≤ D) : 0 ≤ weightRest wt α D := by
  unfold weightRest
  split_ifs <;> positivity

theorem weight_loss (he : wt = "gaussian" → ∀ y ≤ 0, 1 + y ≤ ex y ∧ ex y ≤ 1) (hα : 0 < α) {δ D : K} (h0 : 0 ≤ δ) (hD : δ ≤ D) :
    |weight ex wt α δ - 1| ≤ weightLoss wt α D := by
  have hq : δ / α ≤ D / α := (div_le_div_iff_of_pos_right hα).2 hD
  have hq0 : 0 ≤ δ / α := by positivity
  unfold weight weightLoss
  split_ifs with h1 h2
  · have hy : -(δ ^ 2 / (2 * α ^ 2)) ≤ 0 := neg_nonpos.2 (by positivity)
    obtain ⟨a1, a2⟩ := he h1 _ hy
    have h3 : δ ^ 2 / (2 * α ^ 2) ≤ D ^ 2 / (2 * α ^ 2) := (div_le_div_iff_of_pos_right (by positivity)).2 (pow_le_pow_left₀ h0 hD 2)
    rw [abs_le]
    constructor <;> linarith
  · have hp : 0 < 1 + (δ / α) ^ 2 := by positivity
    have e1 : 1 / (1 + (δ / α) ^ 2) - 1 = -((δ / α) ^ 2 / (1 + (δ / α) ^ 2)) := by field_simp; ring
    rw [e1, abs_neg, abs_of_nonneg (by positivity)]
    exact (div_le_self (sq_nonneg _) (by nlinarith [sq_nonneg (δ / α)])).trans (pow_le_pow_left₀ hq0 hq 2)
  · have hp : 0 < 1 + δ / α := by positivity
    have e1 : 1 / (1 + δ / α) - 1 = -((δ / α) / (1 + δ / α)) := by field_simp; ring
    rw [e1, abs_neg, abs_of_nonneg (by positivity)]
    exact (div_le_self hq0 (by linarith)).trans hq

theorem weight_rest (hw : KnownWeight wt) (he : wt = "gaussian" → ex 0 = 1 ∧ ∀ y ≤ 0, 0 ≤ ex y ∧ ex y ≤ 1 / (1 - y)) (hα : 0 < α) {δ D : K} (hD : 0 < D)
    (h0 : δ = 0 ∨ D ≤ δ) : |weight ex wt α δ - (if δ = 0 then 1 else 0)| ≤ weightRest wt α D := by
  rcases h0 with rfl | h0
  · rw [if_pos rfl, weight_zero hw (fun h => (he h).1), sub_self, abs_zero]
    exact weightRest_nonneg hα hD.le
  · have hδ : 0 < δ := hD.trans_le h0
    rw [if_neg hδ.ne', sub_zero]
    have hq : α / δ ≤ α / D := div_le_div_of_nonneg_left hα.le hD h0
    have hq0 : 0 < α / δ := by positivity
    unfold weight weightRest
    split_ifs with h1 h2
    · have hy : -(δ ^ 2 / (2 * α ^ 2)) ≤ 0 := neg_nonpos.2 (by positivity)
      obtain ⟨a1, a2⟩ := (he h1).2 _ hy
      rw [abs_of_nonneg a1]
      refine a2.trans ?_
      have hz : 0 < D ^ 2 / (2 * α ^ 2) := by positivity
      have hz' : D ^ 2 / (2 * α ^ 2) ≤ δ ^ 2 / (2 * α ^ 2) := (div_le_div_iff_of_pos_right (by positivity)).2 (pow_le_pow_left₀ hD.le h0 2)
      calc 1 / (1 - -(δ ^ 2 / (2 * α ^ 2))) ≤ 1 / (D ^ 2 / (2 * α ^ 2)) := one_div_le_one_div_of_le hz (by linarith)
        _ = 2 * α ^ 2 / D ^ 2 := one_div_div _ _
    · rw [abs_of_nonneg (by positivity)]
      calc 1 / (1 + (δ / α) ^ 2) ≤ 1 / (δ / α) ^ 2 := one_div_le_one_div_of_le (by positivity) (by linarith)
        _ = (α / δ) ^ 2 := by rw [div_pow, one_div_div, div_pow]
        _ ≤ (α / D) ^ 2 := pow_le_pow_left₀ hq0.le hq 2
    · rw [abs_of_nonneg (by positivity)]
      calc 1 / (1 + δ / α) ≤ 1 / (δ / α) := one_div_le_one_div_of_le (by positivity) (by linarith)
        _ = α / δ := one_div_div _ _
        _ ≤ α / D := hq

/-! ## missing samples -/

/-- with weight 1 at distance 0 and 0 elsewhere, the formula is the sum over pairs -/
theorem sacf_pairs {z : ℕ → ℤ} {t0 δ : K} (hδ : 0 < δ) (ht : ∀ i < M, t i = t0 + z i * δ) (hinc : Increasing M t) {m : ℤ} {s : ℕ → ℕ}
    (hs : Selects M t (m * δ) s) (nrm : K) : sacf M t x (fun δ => if δ = 0 then 1 else 0) s nrm (m * δ) = pairSum M z x m / nrm := by
  unfold sacf pairSum
  congr 1
  rw [Finset.sum_filter]
  refine Finset.sum_congr rfl fun i hi => ?_
  rw [Finset.mem_range] at hi
  have hz : ∀ a < M, (z a = z i + m ↔ t a = t i + m * δ) := by
    intro a ha
    rw [ht a ha, ht i hi]
    constructor
    · intro h; rw [h]; push_cast; ring
    · intro h
      have h1 : (z a : K) * δ = ((z i + m : ℤ) : K) * δ := by push_cast; linarith
      exact_mod_cast mul_right_cancel₀ hδ.ne' h1
  by_cases hex : ∃ a < M, z a = z i + m
  · obtain ⟨a, ha, haz⟩ := hex
    have hta := (hz a ha).1 haz
    have hle : t i + m * δ ≤ t (M - 1) := by
      rw [← hta]
      exact hinc.le (by omega) (by omega)
    obtain ⟨h1, h2⟩ := hs i hi hle
    have hsa : s i = a := by
      have h3 := h2 a ha
      rw [hta, sub_self, abs_zero] at h3
      have h4 : t (s i) = t a := by
        rcases h3 with h3 | ⟨h3, _⟩
        · exact absurd h3 (not_lt.2 (abs_nonneg _))
        · rw [hta]; exact sub_eq_zero.1 (abs_eq_zero.1 h3)
      by_contra hne
      rcases lt_or_gt_of_ne hne with h | h
      · exact absurd h4 (hinc _ _ h ha).ne
      · exact absurd h4 (hinc _ _ h h1).ne'
    rw [if_pos hle, hsa, hta, sub_self, abs_zero]
    beta_reduce
    rw [if_pos rfl, one_mul, Finset.sum_eq_single a]
    · rw [if_pos haz]
    · intro b hb hne
      rw [Finset.mem_range] at hb
      rw [if_neg]
      intro h
      have h4 := (hz b hb).1 h
      rw [← hta] at h4
      rcases lt_or_gt_of_ne hne with h | h
      · exact absurd h4 (hinc _ _ h ha).ne
      · exact absurd h4 (hinc _ _ h hb).ne'
    · intro h; exact absurd (Finset.mem_range.2 ha) h
  · rw [Finset.sum_eq_zero]
    · split_ifs with hle
      · obtain ⟨h1, _⟩ := hs i hi hle
        have : |t (s i) - (t i + m * δ)| ≠ 0 := by
          rw [abs_ne_zero, sub_ne_zero]
          intro h
          exact hex ⟨_, h1, (hz _ h1).2 h⟩
        simp [this]
      · rfl
    · intro b hb
      rw [Finset.mem_range] at hb
      rw [if_neg]
      intro h
      exact hex ⟨b, hb, h⟩

/-- distances on a grid are zero or at least one step -/
theorem grid_far {z : ℕ → ℤ} {t0 δ : K} (hδ : 0 < δ) (ht : ∀ i < M, t i = t0 + z i * δ) {m : ℤ} {i i' : ℕ} (hi : i < M) (hi' : i' < M) :
    |t i' - (t i + m * δ)| = 0 ∨ δ ≤ |t i' - (t i + m * δ)| := by
  have e1 : t i' - (t i + m * δ) = ((z i' - (z i + m) : ℤ) : K) * δ := by
    rw [ht i hi, ht i' hi']; push_cast; ring
  rw [e1, abs_mul, abs_of_pos hδ]
  by_cases h : z i' - (z i + m) = 0
  · left; rw [h]; simp
  · right
    have : (1 : K) ≤ |((z i' - (z i + m) : ℤ) : K)| := by exact_mod_cast Int.one_le_abs h
    nlinarith

/-- **C87**: samples at points `z i` of a grid with step `δ`, gaps of at most `G` steps.  At a lag of `m` steps the correlation is the sum over the pairs of
samples `m` steps apart, up to `√G` times the weight at distance `δ`, which is small if `α` is small compared to `δ`. -/
theorem C87_missing_samples {z : ℕ → ℤ} {t0 δ : K} (h : NaturalRun d g wt r M t j x α) (hδ : 0 < δ) (ht : ∀ i < M, t i = t0 + z i * δ)
    (he : wt = "gaussian" → ex 0 = 1 ∧ ∀ y ≤ 0, 0 ≤ ex y ∧ ex y ≤ 1 / (1 - y)) (hf : ∀ i < M, f32 (x i) = x i) (hv : sumSq M x ≠ 0)
    (G : ℕ) (hG0 : 0 < G) (hG : ∀ i, i + 1 < M → z (i + 1) - z i ≤ G) (n m : ℕ) (hn : r.lags[n]? = some (.fin (m * δ))) :
    ∃ v, r.At j n (.fin (m * δ)) (.fin v) ∧ (v - pairSum M z x m / sumSq M x) ^ 2 ≤ weightRest wt α δ ^ 2 * G := by
  obtain ⟨s, hs⟩ := selects_exists M t (m * δ)
  refine ⟨_, C47_formula h hf hv n _ hn s hs, ?_⟩
  have hs' : Selects M t (((m : ℤ) : K) * δ) s := by rw [Int.cast_natCast]; exact hs
  have hp := sacf_pairs (x := x) hδ ht h.inc hs' (sumSq M x)
  rw [Int.cast_natCast] at hp
  rw [← hp]
  have hgw : GapsWithin M t δ (G * δ) := by
    intro i hi
    have h1 := h.inc i (i + 1) (by omega) hi
    have e1 : t (i + 1) - t i = ((z (i + 1) - z i : ℤ) : K) * δ := by rw [ht _ hi, ht i (by omega)]; push_cast; ring
    have h2 : 0 < z (i + 1) - z i := by
      have h2 : 0 < ((z (i + 1) - z i : ℤ) : K) * δ := by rw [← e1]; linarith
      exact_mod_cast (mul_pos_iff_of_pos_right hδ).1 h2
    rw [e1]
    have h3 : (1 : K) ≤ ((z (i + 1) - z i : ℤ) : K) := by exact_mod_cast h2
    have h4 : ((z (i + 1) - z i : ℤ) : K) ≤ G := by exact_mod_cast hG i hi
    exact ⟨by nlinarith, mul_le_mul_of_nonneg_right h4 hδ.le⟩
  have hGK : (0 : K) < G := by exact_mod_cast hG0
  refine sacf_weights_near hs (fun i hi hle => ?_) (fun n' _ => ?_) hv
  · refine weight_rest h.wt_known he h.alpha_pos hδ ?_
    have := grid_far hδ ht (m := m) hi (hs i hi hle).1
    rwa [Int.cast_natCast] at this
  · have := selects_card hgw h.inc hδ (mul_pos hGK hδ) (by positivity) hs n'
    rwa [mul_div_assoc, div_self hδ.ne', mul_one, Nat.ceil_natCast] at this

/-! ## nearly regular times -/

/-- which samples count and are matched with which -/
theorem nearly_regular {t0 δ η κ k : K} {m : ℕ} (hr : NearlyRegular M t t0 δ η) (hk : |k - m * δ| ≤ κ) (hsmall : 2 * (2 * η + κ) < δ) (hm : m < M)
    {s : ℕ → ℕ} (hs : Selects M t k s) : (∀ i, i + m + 1 < M → t i + k ≤ t (M - 1)) ∧
      ∀ i < M, t i + k ≤ t (M - 1) → i + m < M ∧ s i = i + m ∧ |t (s i) - (t i + k)| ≤ 2 * η + κ := by
  have hη0 : 0 ≤ η := (abs_nonneg _).trans (hr 0 (by omega))
  have hκ0 : 0 ≤ κ := (abs_nonneg _).trans hk
  have hδ : 0 < δ := by linarith
  obtain ⟨k1, k2⟩ := abs_le.1 hk
  obtain ⟨l1, l2⟩ := abs_le.1 (hr (M - 1) (by omega))
  have hle : ∀ a b : ℕ, a ≤ b → (a : K) * δ ≤ b * δ := fun a b h => mul_le_mul_of_nonneg_right (by exact_mod_cast h) hδ.le
  refine ⟨fun i hi => ?_, fun i hi hc => ?_⟩
  · obtain ⟨i1, i2⟩ := abs_le.1 (hr i (by omega))
    have := hle (i + m + 1) (M - 1) (by omega)
    push_cast at this
    linarith
  · obtain ⟨i1, i2⟩ := abs_le.1 (hr i hi)
    have him : i + m < M := by
      by_contra hge
      have := hle ((M - 1) + 1) (i + m) (by omega)
      push_cast at this
      linarith
    obtain ⟨h1, h2⟩ := hs i hi hc
    obtain ⟨m1, m2⟩ := abs_le.1 (hr (i + m) him)
    have hd : |t (i + m) - (t i + k)| ≤ 2 * η + κ := by
      push_cast at m1 m2
      rw [abs_le]
      constructor <;> linarith
    have hsi : s i = i + m := by
      by_contra hne
      have h3 : |t (s i) - (t i + k)| ≤ |t (i + m) - (t i + k)| := by rcases h2 (i + m) him with h | ⟨h, _⟩; exacts [h.le, h.le]
      obtain ⟨s1, s2⟩ := abs_le.1 (hr (s i) h1)
      obtain ⟨d1, d2⟩ := abs_le.1 (h3.trans hd)
      rcases lt_or_gt_of_ne hne with h | h
      · have := hle (s i + 1) (i + m) (by omega)
        push_cast at this
        linarith
      · have := hle (i + m + 1) (s i) (by omega)
        push_cast at this
        linarith
    exact ⟨him, hsi, by rw [hsi]; exact hd⟩

/-- products of deviations `m` samples apart -/
theorem shift_prod {n m : ℕ} (h : n + m ≤ M) : ∑ i ∈ range n, |dev M x i * dev M x (i + m)| ≤ sumSq M x := by
  have h1 : ∑ i ∈ range n, dev M x i ^ 2 ≤ sumSq M x :=
    Finset.sum_le_sum_of_subset_of_nonneg (Finset.range_subset_range.2 (by omega)) fun _ _ _ => sq_nonneg _
  have h2 : ∑ i ∈ range n, dev M x (i + m) ^ 2 ≤ sumSq M x := by
    have e1 : ∑ i ∈ range n, dev M x (i + m) ^ 2 = ∑ i ∈ Finset.Ico m (m + n), dev M x i ^ 2 := by
      rw [Finset.sum_Ico_eq_sum_range, Nat.add_sub_cancel_left]
      exact Finset.sum_congr rfl fun i _ => by rw [add_comm]
    rw [e1]
    refine Finset.sum_le_sum_of_subset_of_nonneg (fun i hi => ?_) fun _ _ _ => sq_nonneg _
    rw [Finset.mem_Ico] at hi
    exact Finset.mem_range.2 (by omega)
  have h3 : ∀ i ∈ range n, 2 * |dev M x i * dev M x (i + m)| ≤ dev M x i ^ 2 + dev M x (i + m) ^ 2 := by
    intro i _
    rcases abs_cases (dev M x i * dev M x (i + m)) with ⟨e, _⟩ | ⟨e, _⟩ <;> rw [e] <;> nlinarith [sq_nonneg (dev M x i + dev M x (i + m)), sq_nonneg (dev M x i - dev M x (i + m))]
  have h4 := Finset.sum_le_sum h3
  rw [← Finset.mul_sum, Finset.sum_add_distrib] at h4
  linarith

/-- the formula at nearly regular times -/
theorem sacf_nearly {t0 δ η κ k C : K} {m : ℕ} {w : K → K} (hr : NearlyRegular M t t0 δ η) (hk : |k - m * δ| ≤ κ) (hsmall : 2 * (2 * η + κ) < δ)
    (hm : m < M) {s : ℕ → ℕ} (hs : Selects M t k s) (hw : ∀ D, 0 ≤ D → D ≤ 2 * η + κ → |w D - 1| ≤ C) (hv : sumSq M x ≠ 0) :
    |sacf M t x w s (sumSq M x) k - autoCov M x m / sumSq M x|
      ≤ C + if t (M - 1 - m) + k ≤ t (M - 1) then 0 else |dev M x (M - 1 - m) * dev M x (M - 1)| / sumSq M x := by
  have hSS : 0 < sumSq M x := lt_of_le_of_ne (Finset.sum_nonneg fun i _ => sq_nonneg _) (Ne.symm hv)
  obtain ⟨ha, hb⟩ := nearly_regular hr hk hsmall hm hs
  have main : ∀ n, n + m ≤ M → ((range M).filter fun i => t i + k ≤ t (M - 1)) = range n →
      |sacf M t x w s (sumSq M x) k - (∑ i ∈ range n, dev M x i * dev M x (i + m)) / sumSq M x| ≤ C := by
    intro n hn hF
    unfold sacf
    rw [hF, ← sub_div, ← Finset.sum_sub_distrib, abs_div, abs_of_pos hSS, div_le_iff₀ hSS]
    refine (Finset.abs_sum_le_sum_abs _ _).trans ?_
    have hC0 : 0 ≤ C := (abs_nonneg _).trans (hw 0 le_rfl (by
      have hη0 : 0 ≤ η := (abs_nonneg _).trans (hr 0 (by omega))
      have hκ0 : 0 ≤ κ := (abs_nonneg _).trans hk
      linarith))
    refine le_trans (Finset.sum_le_sum (g := fun i => C * |dev M x i * dev M x (i + m)|) fun i hi => ?_) ?_
    · have hi' : i ∈ (range M).filter fun i => t i + k ≤ t (M - 1) := by rw [hF]; exact hi
      rw [Finset.mem_filter, Finset.mem_range] at hi'
      obtain ⟨_, h2, h3⟩ := hb i hi'.1 hi'.2
      have e1 : w |t (s i) - (t i + k)| * dev M x i * dev M x (s i) - dev M x i * dev M x (i + m)
          = (w |t (s i) - (t i + k)| - 1) * (dev M x i * dev M x (i + m)) := by
        rw [h2]; ring
      rw [e1, abs_mul]
      exact mul_le_mul_of_nonneg_right (hw _ (abs_nonneg _) h3) (abs_nonneg _)
    · rw [← Finset.mul_sum]
      exact mul_le_mul_of_nonneg_left (shift_prod hn) hC0
  split_ifs with hc
  · rw [add_zero]
    refine main (M - m) (by omega) ?_
    ext i
    simp only [Finset.mem_filter, Finset.mem_range]
    constructor
    · rintro ⟨h1, h2⟩
      have := (hb i h1 h2).1
      omega
    · intro hi
      refine ⟨by omega, ?_⟩
      by_cases hlast : i = M - 1 - m
      · rw [hlast]; exact hc
      · exact ha i (by omega)
  · have h1 := main (M - 1 - m) (by omega) (by
      ext i
      simp only [Finset.mem_filter, Finset.mem_range]
      constructor
      · rintro ⟨h1, h2⟩
        have := (hb i h1 h2).1
        by_contra hge
        have : i = M - 1 - m := by omega
        rw [this] at h2
        exact hc h2
      · intro hi
        exact ⟨by omega, ha i (by omega)⟩)
    have e1 : autoCov M x m = (∑ i ∈ range (M - 1 - m), dev M x i * dev M x (i + m)) + dev M x (M - 1 - m) * dev M x (M - 1) := by
      unfold autoCov
      rw [show M - m = M - 1 - m + 1 by omega, Finset.sum_range_succ, show M - 1 - m + m = M - 1 by omega]
    rw [e1, add_div, ← sub_sub]
    refine (abs_sub _ _).trans (add_le_add h1 ?_)
    rw [abs_div, abs_of_pos hSS]

/-- **C88**: times within `η` of a regular grid with step `δ`, and a lag within `κ` of `m` steps, `4 η + 2 κ < δ`.  The correlation is the textbook one
at `m` samples, up to the loss of the weights at distance `2 η + κ` and, if the last pair falls off the end, that pair. -/
theorem C88_nearly_regular {t0 δ η κ k : K} {m : ℕ} (h : NaturalRun d g wt r M t j x α) (hr : NearlyRegular M t t0 δ η) (hk : |k - m * δ| ≤ κ)
    (hsmall : 2 * (2 * η + κ) < δ) (hm : m < M) (he : wt = "gaussian" → ∀ y ≤ 0, 1 + y ≤ ex y ∧ ex y ≤ 1) (hf : ∀ i < M, f32 (x i) = x i)
    (hv : sumSq M x ≠ 0) (n : ℕ) (hn : r.lags[n]? = some (.fin k)) :
    ∃ v, r.At j n (.fin k) (.fin v) ∧ |v - autoCov M x m / sumSq M x|
      ≤ weightLoss wt α (2 * η + κ) + if t (M - 1 - m) + k ≤ t (M - 1) then 0 else |dev M x (M - 1 - m) * dev M x (M - 1)| / sumSq M x := by
  obtain ⟨s, hs⟩ := selects_exists M t k
  exact ⟨_, C47_formula h hf hv n _ hn s hs, sacf_nearly hr hk hsmall hm hs (fun D h0 hD => weight_loss he h.alpha_pos h0 hD) hv⟩

/-! ## lags between the samples of a regular grid -/

/-- a lag of `m + f` steps, `0 < f < 1/2` -/
theorem sacf_below_half {t0 δ f : K} {m : ℕ} (hδ : 0 < δ) (hf0 : 0 < f) (hf1 : 2 * f < 1) (hm : m < M) (w : K → K) (nrm : K) :
    Selects M (fun i : ℕ => t0 + i * δ) ((m + f) * δ) (fun i => i + m) ∧
    sacf M (fun i : ℕ => t0 + i * δ) x w (fun i => i + m) nrm ((m + f) * δ)
      = w (f * δ) * ((autoCov M x m - dev M x (M - 1 - m) * dev M x (M - 1)) / nrm) := by
  have hle : ∀ a b : ℕ, a ≤ b → (a : K) * δ ≤ b * δ := fun a b h => mul_le_mul_of_nonneg_right (by exact_mod_cast h) hδ.le
  have hfδ : 0 < f * δ := mul_pos hf0 hδ
  have hfδ' : 2 * (f * δ) < δ := by nlinarith
  have hcond : ∀ i < M, (t0 + (i : K) * δ + (m + f) * δ ≤ t0 + ((M - 1 : ℕ) : K) * δ ↔ i < M - 1 - m) := by
    intro i hi
    constructor
    · intro h
      by_contra hge
      have := hle (M - 1) (i + m) (by omega)
      push_cast at this
      linarith
    · intro h
      have := hle (i + m + 1) (M - 1) (by omega)
      push_cast at this
      linarith
  have hd : ∀ i : ℕ, t0 + ((i + m : ℕ) : K) * δ - (t0 + (i : K) * δ + (m + f) * δ) = -(f * δ) := by intro i; push_cast; ring
  constructor
  · intro i hi hc
    have hlt := (hcond i hi).1 hc
    refine ⟨by beta_reduce; omega, fun a ha => ?_⟩
    beta_reduce
    rw [hd, abs_neg, abs_of_pos hfδ]
    by_cases hne : a = i + m
    · right
      rw [hne, hd, abs_neg, abs_of_pos hfδ]
      exact ⟨rfl, le_rfl⟩
    · left
      rw [lt_abs]
      rcases lt_or_gt_of_ne hne with h | h
      · right
        have := hle (a + 1) (i + m) (by omega)
        push_cast at this
        linarith
      · left
        have := hle (i + m + 1) a (by omega)
        push_cast at this
        linarith
  · have hset : (range M).filter (fun i : ℕ => t0 + (i : K) * δ + (m + f) * δ ≤ t0 + ((M - 1 : ℕ) : K) * δ) = range (M - 1 - m) := by
      ext i
      simp only [Finset.mem_filter, Finset.mem_range]
      constructor
      · rintro ⟨hi, h⟩; exact (hcond i hi).1 h
      · intro hi; exact ⟨by omega, (hcond i (by omega)).2 hi⟩
    have e1 : autoCov M x m = (∑ i ∈ range (M - 1 - m), dev M x i * dev M x (i + m)) + dev M x (M - 1 - m) * dev M x (M - 1) := by
      unfold autoCov
      rw [show M - m = M - 1 - m + 1 by omega, Finset.sum_range_succ, show M - 1 - m + m = M - 1 by omega]
    unfold sacf
    rw [hset, e1, add_sub_cancel_right, ← mul_div_assoc, Finset.mul_sum]
    congr 1
    refine Finset.sum_congr rfl fun i _ => ?_
    rw [hd, abs_neg, abs_of_pos hfδ, mul_assoc]

/-- a lag of `m + f` steps, `1/2 ≤ f < 1` -/
theorem sacf_above_half {t0 δ f : K} {m : ℕ} (hδ : 0 < δ) (hf0 : 1 ≤ 2 * f) (hf1 : f < 1) (hm : m < M) (w : K → K) (nrm : K) :
    Selects M (fun i : ℕ => t0 + i * δ) ((m + f) * δ) (fun i => i + (m + 1)) ∧
    sacf M (fun i : ℕ => t0 + i * δ) x w (fun i => i + (m + 1)) nrm ((m + f) * δ) = w ((1 - f) * δ) * (autoCov M x (m + 1) / nrm) := by
  have hle : ∀ a b : ℕ, a ≤ b → (a : K) * δ ≤ b * δ := fun a b h => mul_le_mul_of_nonneg_right (by exact_mod_cast h) hδ.le
  have hfδ : 0 < (1 - f) * δ := mul_pos (by linarith) hδ
  have hfδ' : δ ≤ 2 * (f * δ) := by nlinarith
  have hfδ2 : f * δ < δ := by nlinarith
  have hcond : ∀ i < M, (t0 + (i : K) * δ + (m + f) * δ ≤ t0 + ((M - 1 : ℕ) : K) * δ ↔ i < M - (m + 1)) := by
    intro i hi
    constructor
    · intro h
      by_contra hge
      have := hle (M - 1) (i + m) (by omega)
      push_cast at this
      linarith
    · intro h
      have := hle (i + m + 1) (M - 1) (by omega)
      push_cast at this
      linarith
  have hd : ∀ i : ℕ, t0 + ((i + (m + 1) : ℕ) : K) * δ - (t0 + (i : K) * δ + (m + f) * δ) = (1 - f) * δ := by intro i; push_cast; ring
  constructor
  · intro i hi hc
    have hlt := (hcond i hi).1 hc
    refine ⟨by beta_reduce; omega, fun a ha => ?_⟩
    beta_reduce
    rw [hd, abs_of_pos hfδ]
    have e0 : (1 - f) * δ = δ - f * δ := by ring
    rw [e0]
    rcases lt_trichotomy a (i + (m + 1)) with h | h | h
    · have h3 := hle (a + 1) (i + (m + 1)) (by omega)
      push_cast at h3
      have h4 : δ - f * δ ≤ |t0 + (a : K) * δ - (t0 + (i : K) * δ + (m + f) * δ)| := by
        rw [le_abs]
        right
        linarith
      rcases h4.lt_or_eq with h5 | h5
      · exact .inl h5
      · exact .inr ⟨h5, by omega⟩
    · right
      rw [h, hd, abs_of_pos hfδ, e0]
      exact ⟨rfl, le_rfl⟩
    · left
      have := hle (i + (m + 1) + 1) a (by omega)
      push_cast at this
      rw [lt_abs]
      left
      linarith
  · have hset : (range M).filter (fun i : ℕ => t0 + (i : K) * δ + (m + f) * δ ≤ t0 + ((M - 1 : ℕ) : K) * δ) = range (M - (m + 1)) := by
      ext i
      simp only [Finset.mem_filter, Finset.mem_range]
      constructor
      · rintro ⟨hi, h⟩; exact (hcond i hi).1 h
      · intro hi; exact ⟨by omega, (hcond i (by omega)).2 hi⟩
    unfold sacf autoCov
    rw [hset, ← mul_div_assoc, Finset.mul_sum]
    congr 1
    refine Finset.sum_congr rfl fun i _ => ?_
    rw [hd, abs_of_pos hfδ, mul_assoc]

/-- **C89**: at a lag of `m + f` steps of a regular grid, `0 < f < 1/2`, the correlation is the textbook sum at `m` samples without its last term, times the
weight at distance `f` steps. -/
theorem C89_below_half {t0 δ f : K} {m : ℕ} (h : NaturalRun d g wt r M (fun i : ℕ => t0 + i * δ) j x α) (hδ : 0 < δ) (hf0 : 0 < f) (hf1 : 2 * f < 1)
    (hm : m < M) (hf : ∀ i < M, f32 (x i) = x i) (hv : sumSq M x ≠ 0) (n : ℕ) (hn : r.lags[n]? = some (.fin ((m + f) * δ))) :
    r.At j n (.fin ((m + f) * δ)) (.fin (weight ex wt α (f * δ) * ((autoCov M x m - dev M x (M - 1 - m) * dev M x (M - 1)) / sumSq M x))) := by
  obtain ⟨h1, h2⟩ := sacf_below_half (t0 := t0) (x := x) hδ hf0 hf1 hm (weight ex wt α) (sumSq M x)
  rw [← h2]
  exact C47_formula h hf hv n _ hn _ h1

/-- **C89**: for `1/2 ≤ f < 1` it is the textbook value at `m + 1` samples, times the weight at distance `1 - f` steps. -/
theorem C89_above_half {t0 δ f : K} {m : ℕ} (h : NaturalRun d g wt r M (fun i : ℕ => t0 + i * δ) j x α) (hδ : 0 < δ) (hf0 : 1 ≤ 2 * f) (hf1 : f < 1)
    (hm : m < M) (hf : ∀ i < M, f32 (x i) = x i) (hv : sumSq M x ≠ 0) (n : ℕ) (hn : r.lags[n]? = some (.fin ((m + f) * δ))) :
    r.At j n (.fin ((m + f) * δ)) (.fin (weight ex wt α ((1 - f) * δ) * (autoCov M x (m + 1) / sumSq M x))) := by
  obtain ⟨h1, h2⟩ := sacf_above_half (t0 := t0) (x := x) hδ hf0 hf1 hm (weight ex wt α) (sumSq M x)
  rw [← h2]
  exact C47_formula h hf hv n _ hn _ h1

end exact

/-! ## binary64 -/

section binary64
variable {ex : ℚ → ℚ} {fu : Bool} {d : DS (D64 ex fu)} {M j : ℕ} {τ : ℕ → ℤ} {e : ℤ} {x : ℕ → ℚ} {A V α : ℚ}
  {ga : LagArgs (D64 ex fu)} {r : AcResult (D64 ex fu)} {wt : String}

theorem exp_facts (y : ℝ) (hy : y ≤ 0) : 1 + y ≤ Real.exp y ∧ Real.exp y ≤ 1 ∧ 0 ≤ Real.exp y ∧ Real.exp y ≤ 1 / (1 - y) := by
  refine ⟨by have := Real.add_one_le_exp y; linarith, Real.exp_le_one_iff.2 hy, (Real.exp_pos y).le, ?_⟩
  have h1 := Real.add_one_le_exp (-y)
  have h2 : Real.exp y = 1 / Real.exp (-y) := by rw [Real.exp_neg, one_div, inv_inv]
  rw [h2]
  exact one_div_le_one_div_of_le (by linarith) (by linarith)

theorem Run64.alpha_pos (h : Run64 d ga wt r α e) : 0 < α := by
  rcases h with ⟨_, _, h, _⟩ | ⟨_, h⟩
  · exact (pow2_pos _).trans_le h
  · exact (pow2_pos _).trans_le h.lower

theorem Run64.known (h : Run64 d ga wt r α e) : KnownWeight wt := by
  unfold KnownWeight
  rcases h with ⟨_, _, _, h⟩ | ⟨h, _⟩ <;> tauto

theorem weight_cast (hw : wt = "fractional" ∨ wt = "fractional_squared") (α δ : ℚ) : weight Real.exp wt (α : ℝ) (δ : ℝ) = (weight ex wt α δ : ℚ) := by
  unfold weight
  rcases hw with rfl | rfl <;> simp

/-- the error bound for all three weights -/
theorem real64 (ht : Times64 d M τ e) (hv : Values64 d M j x A V) (hr : Run64 d ga wt r α e)
    {n : ℕ} {k : ℤ} (hn : r.lags[n]? = some (.fin (k * pow2 e))) (hk : |k| + (τ (M - 1) - τ 0) ≤ 2 ^ 53)
    {s : ℕ → ℕ} (hs : Selects M (fun i => (τ i : ℚ) * pow2 e) (k * pow2 e) s) :
    ∃ v : ℚ, r.At j n (.fin (k * pow2 e)) (.fin v) ∧
      |(v : ℝ) - realAcf M τ e x wt α s k| ≤ (250 * V * (M * A ^ 2 / sumSq M x) : ℚ) * (1 + |realAcf M τ e x wt α s k|) := by
  rcases hr with ⟨h1, h2, h3, h4⟩ | ⟨rfl, h⟩
  · obtain ⟨v, hv1, hv2⟩ := error64 ht hv h4 h1 h2 h3 hn hk hs
    refine ⟨v, hv1, ?_⟩
    unfold realAcf
    rw [sacf_cast (t := fun i => (τ i : ℚ) * pow2 e) (weight_cast (ex := ex) h4 α)]
    exact_mod_cast hv2
  · exact gauss64 ht hv h hn hk hs

theorem realAcf_le (hN : 0 < sumSq M x) (hr : Run64 d ga wt r α e) {s : ℕ → ℕ} {k : ℤ} (hs : Selects M (fun i => (τ i : ℚ) * pow2 e) (k * pow2 e) s)
    {β : ℚ} (hβ : 0 ≤ β)
    (hB : ∀ i' < M, (((range M).filter fun i => (τ i : ℚ) * pow2 e + k * pow2 e ≤ (τ (M - 1) : ℚ) * pow2 e ∧ s i = i').card : ℚ) ≤ β ^ 2) :
    |realAcf M τ e x wt α s k| ≤ (β : ℝ) := by
  have hα := hr.alpha_pos
  have hb : realAcf M τ e x wt α s k ^ 2 ≤ (⌊β ^ 2⌋₊ : ℕ) := by
    refine sacf_bound (fun y hy => weight_bounds hr.known (fun _ y hy => ⟨(exp_facts y hy).2.2.1, (exp_facts y hy).2.1⟩) (by exact_mod_cast hα) hy)
      (fun i hi hk => (selects_cast hs i hi hk).1) ?_ (by rw [sumSq_cast]; exact_mod_cast hN.ne')
    intro n hn
    rw [filter_cast' (fun i => (τ i : ℚ) * pow2 e)]
    exact card_floor hB n hn
  refine abs_le_of_sq_le_sq (hb.trans ?_) (by exact_mod_cast hβ)
  have := Nat.floor_le (sq_nonneg β)
  exact_mod_cast this

/-- the error bound when no sample is matched more than `β²` times -/
theorem real64_le (ht : Times64 d M τ e) (hv : Values64 d M j x A V) (hr : Run64 d ga wt r α e)
    {n : ℕ} {k : ℤ} (hn : r.lags[n]? = some (.fin (k * pow2 e))) (hk : |k| + (τ (M - 1) - τ 0) ≤ 2 ^ 53)
    {s : ℕ → ℕ} (hs : Selects M (fun i => (τ i : ℚ) * pow2 e) (k * pow2 e) s) {β : ℚ} (hβ : 0 ≤ β)
    (hB : ∀ i' < M, (((range M).filter fun i => (τ i : ℚ) * pow2 e + k * pow2 e ≤ (τ (M - 1) : ℚ) * pow2 e ∧ s i = i').card : ℚ) ≤ β ^ 2) :
    ∃ v : ℚ, r.At j n (.fin (k * pow2 e)) (.fin v) ∧ |(v : ℝ) - realAcf M τ e x wt α s k| ≤ (250 * V * (M * A ^ 2 / sumSq M x) * (1 + β) : ℚ) := by
  obtain ⟨hN, hV0⟩ := hv.pos ht
  obtain ⟨v, h1, h2⟩ := real64 ht hv hr hn hk hs
  refine ⟨v, h1, h2.trans ?_⟩
  have hc : (0 : ℝ) ≤ (250 * V * (M * A ^ 2 / sumSq M x) : ℚ) := Rat.cast_nonneg.2 (by positivity)
  have := mul_le_mul_of_nonneg_left (show 1 + |realAcf M τ e x wt α s k| ≤ 1 + (β : ℝ) by linarith [realAcf_le hN hr hs hβ hB]) hc
  refine this.trans_eq ?_
  rw [Rat.cast_mul _ (1 + β), Rat.cast_add, Rat.cast_one]

theorem weightRest_cast (wt : String) (α D : ℚ) : weightRest wt (α : ℝ) (D : ℝ) = (weightRest wt α D : ℚ) := by
  unfold weightRest
  split_ifs <;> push_cast <;> rfl

theorem weightLoss_cast (wt : String) (α D : ℚ) : weightLoss wt (α : ℝ) (D : ℝ) = (weightLoss wt α D : ℚ) := by
  unfold weightLoss
  split_ifs <;> push_cast <;> rfl

theorem pairSum_cast (z : ℕ → ℤ) (m : ℤ) : pairSum M z (fun i => (x i : ℝ)) m = (pairSum M z x m : ℚ) := by
  unfold pairSum
  rw [Rat.cast_sum]
  refine sum_congr rfl fun i _ => ?_
  rw [Rat.cast_sum]
  refine sum_congr rfl fun i' _ => ?_
  split_ifs
  · rw [dev_cast, dev_cast, Rat.cast_mul]
  · norm_num

theorem autoCov_cast (m : ℕ) : autoCov M (fun i => (x i : ℝ)) m = (autoCov M x m : ℚ) := by
  unfold autoCov
  rw [Rat.cast_sum]
  exact sum_congr rfl fun i _ => by rw [dev_cast, dev_cast, Rat.cast_mul]

/-- the number of times a sample is matched, given an injective matching -/
theorem card_one {s : ℕ → ℕ} {p : ℕ → Prop} [DecidablePred p] (h : ∀ i < M, p i → ∀ i' < M, p i' → s i = s i' → i = i') (n : ℕ) :
    (((range M).filter fun i => p i ∧ s i = n).card : ℚ) ≤ 1 ^ 2 := by
  have : ((range M).filter fun i => p i ∧ s i = n).card ≤ 1 := by
    rw [Finset.card_le_one]
    intro a ha b hb
    rw [Finset.mem_filter, Finset.mem_range] at ha hb
    exact h a ha.1 ha.2.1 b hb.1 hb.2.1 (ha.2.2.trans hb.2.2.symm)
  norm_num
  exact_mod_cast this

/-- **C87 in binary64**, all three weights: samples at the points `z i` of a grid with step `p 2^e`. -/
theorem C87_binary64 (z : ℕ → ℤ) (a p : ℤ) (hp : 0 < p) (ht : Times64 d M (fun i => a + z i * p) e) (hv : Values64 d M j x A V) (hr : Run64 d ga wt r α e)
    (G : ℕ) (hG0 : 0 < G) (hG : ∀ i, i + 1 < M → z (i + 1) - z i ≤ G) (n m : ℕ) (hn : r.lags[n]? = some (.fin ((m * p : ℤ) * pow2 e)))
    (hk : m * p + (z (M - 1) - z 0) * p ≤ 2 ^ 53) (β : ℚ) (hβ : 0 ≤ β) (hβ2 : (G : ℚ) ≤ β ^ 2) :
    ∃ v : ℚ, r.At j n (.fin ((m * p : ℤ) * pow2 e)) (.fin v) ∧
      |v - pairSum M z x m / sumSq M x| ≤ weightRest wt α (p * pow2 e) * β + 250 * V * (M * A ^ 2 / sumSq M x) * (1 + β) := by
  obtain ⟨hN, hV0⟩ := hv.pos ht
  have hpe := pow2_pos e
  have hp' : (0 : ℚ) < p := by exact_mod_cast hp
  have hδ : 0 < (p : ℚ) * pow2 e := mul_pos hp' hpe
  have hN' : sumSq M (fun i => (x i : ℝ)) ≠ 0 := by rw [sumSq_cast]; exact_mod_cast hN.ne'
  have hα := hr.alpha_pos
  obtain ⟨s, hs⟩ := selects_exists M (fun i => ((a + z i * p : ℤ) : ℚ) * pow2 e) ((m * p : ℤ) * pow2 e)
  have htq : ∀ i < M, ((a + z i * p : ℤ) : ℚ) * pow2 e = a * pow2 e + z i * (p * pow2 e) := fun i _ => by push_cast; ring
  have hlag : ((m * p : ℤ) : ℚ) * pow2 e = ((m : ℤ) : ℚ) * (p * pow2 e) := by push_cast; ring
  have hcard : ∀ i' < M, (((range M).filter fun i => ((a + z i * p : ℤ) : ℚ) * pow2 e + (m * p : ℤ) * pow2 e ≤ ((a + z (M - 1) * p : ℤ) : ℚ) * pow2 e ∧
      s i = i').card : ℚ) ≤ β ^ 2 := by
    intro i' _
    have hgw : GapsWithin M (fun i => ((a + z i * p : ℤ) : ℚ) * pow2 e) (p * pow2 e) (G * (p * pow2 e)) := by
      intro i hi
      have h1 := ht.inc i (i + 1) (by omega) hi
      have e1 : ((a + z (i + 1) * p : ℤ) : ℚ) * pow2 e - ((a + z i * p : ℤ) : ℚ) * pow2 e = ((z (i + 1) - z i : ℤ) : ℚ) * (p * pow2 e) := by push_cast; ring
      have h2 : 0 < z (i + 1) - z i := by
        have : 0 < (z (i + 1) - z i) * p := by linarith
        exact (mul_pos_iff_of_pos_right hp).1 this
      have h3 : (1 : ℚ) ≤ ((z (i + 1) - z i : ℤ) : ℚ) := by exact_mod_cast h2
      have h4 : ((z (i + 1) - z i : ℤ) : ℚ) ≤ G := by exact_mod_cast hG i hi
      beta_reduce
      rw [e1]
      exact ⟨by nlinarith, mul_le_mul_of_nonneg_right h4 hδ.le⟩
    have h5 := selects_card hgw ht.increasing hδ (mul_pos (by exact_mod_cast hG0) hδ) (by positivity) hs i'
    rw [mul_div_assoc, div_self hδ.ne', mul_one, Nat.ceil_natCast] at h5
    exact le_trans (by exact_mod_cast h5) hβ2
  obtain ⟨v, h1, h2⟩ := real64_le ht hv hr hn (by
    have : (0 : ℤ) ≤ m * p := by positivity
    rw [abs_of_nonneg this]
    linarith) hs hβ hcard
  refine ⟨v, h1, ?_⟩
  have hinc : Increasing M fun i => ((((a + z i * p : ℤ) : ℚ) * pow2 e : ℚ) : ℝ) := fun i i' h1 h2 => Rat.cast_lt.2 (ht.increasing i i' h1 h2)
  have htr : ∀ i < M, ((((a + z i * p : ℤ) : ℚ) * pow2 e : ℚ) : ℝ) = ((a * pow2 e : ℚ) : ℝ) + z i * ((p * pow2 e : ℚ) : ℝ) := fun i hi => by
    rw [htq i hi]; push_cast; ring
  have hlagr : ((((m * p : ℤ) : ℚ) * pow2 e : ℚ) : ℝ) = ((m : ℤ) : ℝ) * ((p * pow2 e : ℚ) : ℝ) := by rw [hlag]; push_cast; ring
  have hδr : (0 : ℝ) < ((p * pow2 e : ℚ) : ℝ) := by exact_mod_cast hδ
  have hsr := selects_cast hs
  rw [hlagr] at hsr
  have hst := sacf_weights_near (x := fun i => (x i : ℝ)) (w := weight Real.exp wt (α : ℝ)) (w' := fun δ => if δ = 0 then 1 else 0)
    (C := weightRest wt (α : ℝ) ((p * pow2 e : ℚ) : ℝ)) (B := ⌊β ^ 2⌋₊) hsr (fun i hi hle => by
      refine weight_rest hr.known (fun _ => ⟨Real.exp_zero, fun y hy => (exp_facts y hy).2.2⟩) (by exact_mod_cast hα) hδr ?_
      exact grid_far hδr htr hi (hsr i hi hle).1)
    (fun n hn => by
      rw [← hlagr, filter_cast' (fun i => ((a + z i * p : ℤ) : ℚ) * pow2 e)]
      exact card_floor hcard n hn) hN'
  have hfl : ((⌊β ^ 2⌋₊ : ℕ) : ℝ) ≤ (β : ℝ) ^ 2 := by
    have := Nat.floor_le (sq_nonneg β)
    exact_mod_cast this
  have hst' := abs_le_of_sq_le_sq (hst.trans ((mul_le_mul_of_nonneg_left hfl (sq_nonneg _)).trans_eq (mul_pow _ _ 2).symm))
    (mul_nonneg (weightRest_nonneg (by exact_mod_cast hα) hδr.le) (by exact_mod_cast hβ))
  rw [sacf_pairs hδr htr hinc hsr, pairSum_cast, sumSq_cast, weightRest_cast] at hst'
  unfold realAcf at h2
  rw [hlagr, sumSq_cast] at h2
  have h3 := (abs_sub_le (v : ℝ) _ _).trans (add_le_add h2 hst')
  have h4 : |v - pairSum M z x m / sumSq M x| ≤ 250 * V * (M * A ^ 2 / sumSq M x) * (1 + β) + weightRest wt α (p * pow2 e) * β := by
    exact_mod_cast h3
  linarith

/-- **C88 in binary64**, all three weights; everything is counted in units of `2^e`. -/
theorem C88_binary64 (a p η κ : ℤ) (ht : Times64 d M τ e) (hv : Values64 d M j x A V) (hr : Run64 d ga wt r α e)
    (hη : ∀ i < M, |τ i - (a + i * p)| ≤ η) (m : ℕ) (hm : m < M) (k : ℤ) (hκ : |k - m * p| ≤ κ) (hsmall : 2 * (2 * η + κ) < p)
    (n : ℕ) (hn : r.lags[n]? = some (.fin (k * pow2 e))) (hk : |k| + (τ (M - 1) - τ 0) ≤ 2 ^ 53) :
    ∃ v : ℚ, r.At j n (.fin (k * pow2 e)) (.fin v) ∧ |v - autoCov M x m / sumSq M x|
      ≤ weightLoss wt α ((2 * η + κ : ℤ) * pow2 e) + (if τ (M - 1 - m) + k ≤ τ (M - 1) then 0 else |dev M x (M - 1 - m) * dev M x (M - 1)| / sumSq M x)
        + 500 * V * (M * A ^ 2 / sumSq M x) := by
  obtain ⟨hN, hV0⟩ := hv.pos ht
  have hpe := pow2_pos e
  have hα := hr.alpha_pos
  have hN' : sumSq M (fun i => (x i : ℝ)) ≠ 0 := by rw [sumSq_cast]; exact_mod_cast hN.ne'
  obtain ⟨s, hs⟩ := selects_exists M (fun i => (τ i : ℚ) * pow2 e) (k * pow2 e)
  have hq : NearlyRegular M (fun i => (τ i : ℚ) * pow2 e) (a * pow2 e) (p * pow2 e) (η * pow2 e) := by
    intro i hi
    have e1 : (τ i : ℚ) * pow2 e - (a * pow2 e + i * (p * pow2 e)) = ((τ i - (a + i * p) : ℤ) : ℚ) * pow2 e := by push_cast; ring
    rw [e1, abs_mul, abs_of_pos hpe]
    exact mul_le_mul_of_nonneg_right (by exact_mod_cast hη i hi) hpe.le
  have hkq : |(k : ℚ) * pow2 e - m * (p * pow2 e)| ≤ κ * pow2 e := by
    have e1 : (k : ℚ) * pow2 e - m * (p * pow2 e) = ((k - m * p : ℤ) : ℚ) * pow2 e := by push_cast; ring
    rw [e1, abs_mul, abs_of_pos hpe]
    exact mul_le_mul_of_nonneg_right (by exact_mod_cast hκ) hpe.le
  have hsq : 2 * (2 * ((η : ℚ) * pow2 e) + κ * pow2 e) < p * pow2 e := by
    have h1 : ((2 * (2 * η + κ) : ℤ) : ℚ) < p := by exact_mod_cast hsmall
    have := mul_lt_mul_of_pos_right h1 hpe
    push_cast at this
    linarith
  obtain ⟨_, hb⟩ := nearly_regular hq hkq hsq hm hs
  obtain ⟨v, h1, h2⟩ := real64_le ht hv hr hn hk hs (β := 1) (by norm_num) (fun n _ => card_one (fun i hi hc i' hi' hc' h => by
    have a1 := (hb i hi hc).2.1
    have a2 := (hb i' hi' hc').2.1
    omega) n)
  refine ⟨v, h1, ?_⟩
  have hst := sacf_nearly (t := fun i => ((τ i * pow2 e : ℚ) : ℝ)) (x := fun i => (x i : ℝ)) (t0 := ((a * pow2 e : ℚ) : ℝ)) (δ := ((p * pow2 e : ℚ) : ℝ))
    (η := ((η * pow2 e : ℚ) : ℝ)) (κ := ((κ * pow2 e : ℚ) : ℝ)) (k := ((k * pow2 e : ℚ) : ℝ)) (w := weight Real.exp wt (α : ℝ))
    (fun i hi => by
      have := hq i hi
      beta_reduce at this ⊢
      exact_mod_cast this) (by exact_mod_cast hkq) (by exact_mod_cast hsq) hm (selects_cast hs)
    (fun D h0 hD => weight_loss (fun _ y hy => ⟨(exp_facts y hy).1, (exp_facts y hy).2.1⟩) (by exact_mod_cast hα) h0 hD) hN'
  have hiff : (((τ (M - 1 - m) * pow2 e : ℚ) : ℝ) + ((k * pow2 e : ℚ) : ℝ) ≤ ((τ (M - 1) * pow2 e : ℚ) : ℝ)) ↔ τ (M - 1 - m) + k ≤ τ (M - 1) := by
    rw [← Rat.cast_add, Rat.cast_le, ← add_mul, mul_le_mul_iff_left₀ hpe]
    exact_mod_cast Iff.rfl
  have e2 : 2 * ((η * pow2 e : ℚ) : ℝ) + ((κ * pow2 e : ℚ) : ℝ) = (((2 * η + κ : ℤ) * pow2 e : ℚ) : ℝ) := by push_cast; ring
  rw [e2, weightLoss_cast, autoCov_cast, sumSq_cast, dev_cast, dev_cast] at hst
  simp only [hiff] at hst
  unfold realAcf at h2
  rw [sumSq_cast] at h2
  have h3 := (abs_sub_le (v : ℝ) _ _).trans (add_le_add h2 hst)
  have h4 : |v - autoCov M x m / sumSq M x| ≤ 250 * V * (M * A ^ 2 / sumSq M x) * (1 + 1) + (weightLoss wt α ((2 * η + κ : ℤ) * pow2 e)
      + if τ (M - 1 - m) + k ≤ τ (M - 1) then 0 else |dev M x (M - 1 - m) * dev M x (M - 1)| / sumSq M x) := by
    split_ifs at h3 ⊢ <;> exact_mod_cast h3
  linarith

theorem regular_times_cast (a p : ℤ) : (fun i : ℕ => ((((a + i * p : ℤ) : ℚ) * pow2 e : ℚ) : ℝ)) = fun i : ℕ => (((a : ℚ) * pow2 e : ℚ) : ℝ) + i * (((p : ℚ) * pow2 e : ℚ) : ℝ) := by
  funext i; push_cast; ring

/-- **C89 in binary64**, all three weights, lags of `m p + f` units, `0 < f < p/2`. -/
theorem C89_binary64_below (a p f : ℤ) (hf0 : 0 < f) (hf1 : 2 * f < p) (ht : Times64 d M (fun i => a + i * p) e) (hv : Values64 d M j x A V)
    (hr : Run64 d ga wt r α e) (n m : ℕ) (hm : m < M) (hn : r.lags[n]? = some (.fin ((m * p + f : ℤ) * pow2 e))) (hspan : 2 * M * p ≤ 2 ^ 53) :
    ∃ v : ℚ, r.At j n (.fin ((m * p + f : ℤ) * pow2 e)) (.fin v) ∧
      |(v : ℝ) - weight Real.exp wt (α : ℝ) ((f * pow2 e : ℚ) : ℝ) * ((autoCov M x m - dev M x (M - 1 - m) * dev M x (M - 1)) / sumSq M x : ℚ)|
        ≤ (500 * V * (M * A ^ 2 / sumSq M x) : ℚ) := by
  obtain ⟨hN, hV0⟩ := hv.pos ht
  have hpe := pow2_pos e
  have hp : 0 < p := by omega
  have hpq : (0 : ℚ) < p := by exact_mod_cast hp
  have hfq : (0 : ℚ) < (f : ℚ) / p := div_pos (by exact_mod_cast hf0) hpq
  have hfq1 : 2 * ((f : ℚ) / p) < 1 := by
    rw [← mul_div_assoc, div_lt_one hpq]
    exact_mod_cast hf1
  have hlag : ((m * p + f : ℤ) : ℚ) * pow2 e = ((m : ℚ) + f / p) * (p * pow2 e) := by
    push_cast
    field_simp
  have htimes : (fun i : ℕ => ((a + i * p : ℤ) : ℚ) * pow2 e) = fun i : ℕ => ((a : ℚ) * pow2 e) + i * ((p : ℚ) * pow2 e) := by
    funext i; push_cast; ring
  obtain ⟨hs, _⟩ := sacf_below_half (t0 := (a : ℚ) * pow2 e) (δ := (p : ℚ) * pow2 e) (x := x) (mul_pos hpq hpe) hfq hfq1 hm (fun _ => 1) (sumSq M x)
  rw [← htimes, ← hlag] at hs
  obtain ⟨_, heq⟩ := sacf_below_half (t0 := (((a : ℚ) * pow2 e : ℚ) : ℝ)) (δ := (((p : ℚ) * pow2 e : ℚ) : ℝ)) (f := (((f : ℚ) / p : ℚ) : ℝ)) (x := fun i => (x i : ℝ))
    (by exact_mod_cast mul_pos hpq hpe) (by exact_mod_cast hfq) (by exact_mod_cast hfq1) hm (weight Real.exp wt (α : ℝ)) (sumSq M fun i => (x i : ℝ))
  have hMpz : ((M - 1 : ℕ) : ℤ) * p ≤ M * p := mul_le_mul_of_nonneg_right (by omega) hp.le
  have hmpz : ((m + 1 : ℕ) : ℤ) * p ≤ M * p := mul_le_mul_of_nonneg_right (by omega) hp.le
  have hmp0 : 0 ≤ (m : ℤ) * p + f := by positivity
  obtain ⟨v, h1, h2⟩ := real64_le ht hv hr hn (by rw [abs_of_nonneg hmp0]; push_cast at hmpz ⊢; linarith) hs (β := 1) (by norm_num)
    (fun n _ => card_one (fun i hi hc i' hi' hc' h => by omega) n)
  refine ⟨v, h1, ?_⟩
  have e1 : realAcf M (fun i => a + i * p) e x wt α (fun i => i + m) (m * p + f)
      = weight Real.exp wt (α : ℝ) ((f * pow2 e : ℚ) : ℝ) * ((autoCov M x m - dev M x (M - 1 - m) * dev M x (M - 1)) / sumSq M x : ℚ) := by
    have e2 : ((((m * p + f : ℤ) : ℚ) * pow2 e : ℚ) : ℝ) = ((m : ℝ) + (((f : ℚ) / p : ℚ) : ℝ)) * (((p : ℚ) * pow2 e : ℚ) : ℝ) := by
      rw [hlag]; push_cast; ring
    have e3 : (((f : ℚ) / p : ℚ) : ℝ) * (((p : ℚ) * pow2 e : ℚ) : ℝ) = ((f * pow2 e : ℚ) : ℝ) := by
      rw [← Rat.cast_mul]
      congr 1
      field_simp
    unfold realAcf
    rw [regular_times_cast, e2, heq, e3, autoCov_cast, dev_cast, dev_cast, sumSq_cast]
    push_cast
    rfl
  rw [e1] at h2
  refine h2.trans ?_
  exact_mod_cast (by linarith : 250 * V * (M * A ^ 2 / sumSq M x) * (1 + 1) ≤ 500 * V * (M * A ^ 2 / sumSq M x))

/-- **C89 in binary64**, all three weights, lags of `m p + f` units, `p/2 ≤ f < p`. -/
theorem C89_binary64_above (a p f : ℤ) (hf0 : p ≤ 2 * f) (hf1 : f < p) (ht : Times64 d M (fun i => a + i * p) e) (hv : Values64 d M j x A V)
    (hr : Run64 d ga wt r α e) (n m : ℕ) (hm : m < M) (hn : r.lags[n]? = some (.fin ((m * p + f : ℤ) * pow2 e))) (hspan : 2 * M * p ≤ 2 ^ 53) :
    ∃ v : ℚ, r.At j n (.fin ((m * p + f : ℤ) * pow2 e)) (.fin v) ∧
      |(v : ℝ) - weight Real.exp wt (α : ℝ) (((p - f : ℤ) * pow2 e : ℚ) : ℝ) * (autoCov M x (m + 1) / sumSq M x : ℚ)|
        ≤ (500 * V * (M * A ^ 2 / sumSq M x) : ℚ) := by
  obtain ⟨hN, hV0⟩ := hv.pos ht
  have hpe := pow2_pos e
  have hp : 0 < p := by omega
  have hf : 0 < f := by omega
  have hpq : (0 : ℚ) < p := by exact_mod_cast hp
  have hfq : 1 ≤ 2 * ((f : ℚ) / p) := by
    rw [← mul_div_assoc, le_div_iff₀ hpq, one_mul]
    exact_mod_cast hf0
  have hfq1 : (f : ℚ) / p < 1 := by
    rw [div_lt_one hpq]
    exact_mod_cast hf1
  have hlag : ((m * p + f : ℤ) : ℚ) * pow2 e = ((m : ℚ) + f / p) * (p * pow2 e) := by
    push_cast
    field_simp
  have htimes : (fun i : ℕ => ((a + i * p : ℤ) : ℚ) * pow2 e) = fun i : ℕ => ((a : ℚ) * pow2 e) + i * ((p : ℚ) * pow2 e) := by
    funext i; push_cast; ring
  obtain ⟨hs, _⟩ := sacf_above_half (t0 := (a : ℚ) * pow2 e) (δ := (p : ℚ) * pow2 e) (x := x) (mul_pos hpq hpe) hfq hfq1 hm (fun _ => 1) (sumSq M x)
  rw [← htimes, ← hlag] at hs
  obtain ⟨_, heq⟩ := sacf_above_half (t0 := (((a : ℚ) * pow2 e : ℚ) : ℝ)) (δ := (((p : ℚ) * pow2 e : ℚ) : ℝ)) (f := (((f : ℚ) / p : ℚ) : ℝ)) (x := fun i => (x i : ℝ))
    (by exact_mod_cast mul_pos hpq hpe) (by exact_mod_cast hfq) (by exact_mod_cast hfq1) hm (weight Real.exp wt (α : ℝ)) (sumSq M fun i => (x i : ℝ))
  have hMpz : ((M - 1 : ℕ) : ℤ) * p ≤ M * p := mul_le_mul_of_nonneg_right (by omega) hp.le
  have hmpz : ((m + 1 : ℕ) : ℤ) * p ≤ M * p := mul_le_mul_of_nonneg_right (by omega) hp.le
  have hmp0 : 0 ≤ (m : ℤ) * p + f := by positivity
  obtain ⟨v, h1, h2⟩ := real64_le ht hv hr hn (by rw [abs_of_nonneg hmp0]; push_cast at hmpz ⊢; linarith) hs (β := 1) (by norm_num)
    (fun n _ => card_one (fun i hi hc i' hi' hc' h => by omega) n)
  refine ⟨v, h1, ?_⟩
  have e1 : realAcf M (fun i => a + i * p) e x wt α (fun i => i + (m + 1)) (m * p + f)
      = weight Real.exp wt (α : ℝ) (((p - f : ℤ) * pow2 e : ℚ) : ℝ) * (autoCov M x (m + 1) / sumSq M x : ℚ) := by
    have e2 : ((((m * p + f : ℤ) : ℚ) * pow2 e : ℚ) : ℝ) = ((m : ℝ) + (((f : ℚ) / p : ℚ) : ℝ)) * (((p : ℚ) * pow2 e : ℚ) : ℝ) := by
      rw [hlag]; push_cast; ring
    have e3 : (1 - (((f : ℚ) / p : ℚ) : ℝ)) * (((p : ℚ) * pow2 e : ℚ) : ℝ) = (((p - f : ℤ) * pow2 e : ℚ) : ℝ) := by
      rw [← Rat.cast_one, ← Rat.cast_sub, ← Rat.cast_mul]
      congr 1
      push_cast
      field_simp
    unfold realAcf
    rw [regular_times_cast, e2, heq, e3, autoCov_cast, sumSq_cast]
    push_cast
    rfl
  rw [e1] at h2
  refine h2.trans ?_
  exact_mod_cast (by linarith : 250 * V * (M * A ^ 2 / sumSq M x) * (1 + 1) ≤ 500 * V * (M * A ^ 2 / sumSq M x))

end binary64

/-! ## cases -/

/-- times 0, 64, 128, 256: the fourth sample of the grid is missing -/
def mT (i : ℕ) : ℚ := [0, 64, 128, 256].getD i 0
/-- grid points 0, 1, 2, 4 -/
def mZ (i : ℕ) : ℤ := [0, 1, 2, 4].getD i 0
/-- times 0, 1.01, 1.99, 3 -/
def nT (i : ℕ) : ℚ := [0, 101/100, 199/100, 3].getD i 0
/-- values 1, 2, 6, 7 -/
def sX (i : ℕ) : ℚ := [1, 2, 6, 7].getD i 0

/-- C87_missing_samples: the lag 128 -/
example : ∃ (r : AcResult Q) (v : ℚ), r.At 0 1 (.fin 128) (.fin v) ∧ (v - (-3/7)) ^ 2 ≤ (1/1000) ^ 2 := by
  obtain ⟨d, r, h, hl⟩ := lag_witness mT wX' 128 "gaussian" (by unfold KnownWeight; simp)
    (by intro i j hij hj; interval_cases j <;> interval_cases i <;> decide +kernel) (by decide +kernel)
  obtain ⟨v, h1, h2⟩ := C87_missing_samples (z := mZ) (t0 := 0) (δ := 64) h (by norm_num)
    (fun i hi => by interval_cases i <;> decide +kernel)
    (fun _ => ⟨by norm_num, fun y hy => ⟨(ex_case.2 y hy).2.1, le_rfl⟩⟩) (fun _ _ => rfl) (by decide +kernel) 2 (by norm_num)
    (fun i hi => by have : i < 3 := by omega
                    interval_cases i <;> decide +kernel) 1 2 (by rw [hl]; norm_num)
  have e0 : ((2 : ℕ) : ℚ) * 64 = 128 := by norm_num
  have e1 : pairSum 4 mZ wX' (2 : ℕ) / sumSq 4 wX' = -3/7 := by decide +kernel
  rw [e0] at h1
  rw [e1] at h2
  exact ⟨r, v, h1, h2.trans (by decide +kernel)⟩

/-- C88_nearly_regular: the lag 1.005 -/
example : ∃ (r : AcResult Q) (v : ℚ), r.At 0 1 (.fin (201/200)) (.fin v) ∧ |v - (-1/14)| ≤ 1/3200 := by
  obtain ⟨d, r, h, hl⟩ := lag_witness nT wX' (201/200) "gaussian" (by unfold KnownWeight; simp)
    (by intro i j hij hj; interval_cases j <;> interval_cases i <;> decide +kernel) (by decide +kernel)
  obtain ⟨v, h1, h2⟩ := C88_nearly_regular (t0 := 0) (δ := 1) (η := 1/100) (κ := 1/200) (m := 1) h
    (fun i hi => by interval_cases i <;> decide +kernel) (by decide +kernel) (by decide +kernel) (by norm_num)
    (fun _ y hy => ⟨(ex_case.2 y hy).1, (ex_case.2 y hy).2.2⟩) (fun _ _ => rfl) (by decide +kernel) 1 hl
  have e1 : autoCov 4 wX' 1 / sumSq 4 wX' = -1/14 := by decide +kernel
  rw [e1] at h2
  exact ⟨r, v, h1, h2.trans (by decide +kernel)⟩

/-- C89_below_half and C89_above_half: the lags 1.25 and 1.75 on the times 0, 1, 2, 3 -/
example : ∃ r r' : AcResult Q, r.At 0 1 (.fin (5/4)) (.fin (32/429)) ∧ r'.At 0 1 (.fin (7/4)) (.fin (-64/143)) := by
  obtain ⟨d, r, h, hl⟩ := lag_witness wT' sX (5/4) "gaussian" (by unfold KnownWeight; simp) wT'_inc (by decide +kernel)
  obtain ⟨d', r', h', hl'⟩ := lag_witness wT' sX (7/4) "gaussian" (by unfold KnownWeight; simp) wT'_inc (by decide +kernel)
  have h1 := C89_below_half (t0 := 0) (δ := 1) (f := 1/4) (m := 1) h one_pos (by norm_num) (by norm_num) (by norm_num) (fun _ _ => rfl) (by decide +kernel) 1
    (by rw [hl]; norm_num)
  have h2 := C89_above_half (t0 := 0) (δ := 1) (f := 3/4) (m := 1) h' one_pos (by norm_num) (by norm_num) (by norm_num) (fun _ _ => rfl) (by decide +kernel) 1
    (by rw [hl']; norm_num)
  have e1 : (((1 : ℕ) : ℚ) + 1/4) * 1 = 5/4 := by norm_num
  have e2 : (((1 : ℕ) : ℚ) + 3/4) * 1 = 7/4 := by norm_num
  have e3 : weight (fun x : ℚ => 1 / (1 - x)) "gaussian" 1 (1/4 * 1) * ((autoCov 4 sX 1 - dev 4 sX (4 - 1 - 1) * dev 4 sX (4 - 1)) / sumSq 4 sX) = 32/429 := by
    decide +kernel
  have e4 : weight (fun x : ℚ => 1 / (1 - x)) "gaussian" 1 ((1 - 3/4) * 1) * (autoCov 4 sX (1 + 1) / sumSq 4 sX) = -64/143 := by decide +kernel
  rw [e1, e3] at h1
  rw [e2, e4] at h2
  exact ⟨r, r', h1, h2⟩

/-- C87_binary64: times 0, 1, 3, the Gaussian weight with `alpha = 1/16`, the lag 2 -/
example : ∃ (ex : ℚ → ℚ) (r : AcResult (D64 ex true)) (n : ℕ) (v : ℚ), r.At 0 n (.fin 2) (.fin v) ∧ |v - (-5/42)| ≤ 1/50 := by
  obtain ⟨ex, hex⟩ := lib_exists
  obtain ⟨d, r, ht, hrow, hg, hlags⟩ := gauss_case hex eY (1/16) (by decide +kernel) (by decide +kernel) (by decide +kernel)
  obtain ⟨n, hn⟩ := hlags 2 (by norm_num) (by norm_num)
  obtain ⟨v, h1, h2⟩ := C87_binary64 (M := 3) eT 0 1 one_pos (by simpa using ht) (case_values hrow) (.inr ⟨rfl, hg⟩) 2 (by norm_num)
    (fun i hi => by have : i < 2 := by omega
                    interval_cases i <;> decide +kernel) n 2 (by simpa using hn) (by decide +kernel) (3/2) (by norm_num) (by norm_num)
  have e1 : pairSum 3 eT eY (2 : ℕ) / sumSq 3 eY = -5/42 := by decide +kernel
  rw [e1] at h2
  exact ⟨ex, r, n, v, by simpa [pow2_zero] using h1, h2.trans (by decide +kernel)⟩

/-- times 0, 1030, 2040, 3072 in units of 2⁻¹⁰ -/
def nτ (i : ℕ) : ℤ := [0, 1030, 2040, 3072].getD i 0

/-- C88_binary64: the lag 1030/1024 -/
example : ∃ (r : AcResult B) (v : ℚ), r.At 0 1 (.fin (1030/1024)) (.fin v) ∧ |v - (-1/14)| ≤ 1/40 := by
  obtain ⟨d, r, ht, hrow, hr, hα, hl⟩ := lag64_witness nτ wX' 1030 (by intro i j hij hj; interval_cases j <;> interval_cases i <;> decide +kernel)
    (by decide +kernel)
  have hv : Values64 d 4 0 wX' 8 (pow2 (-50)) := ⟨hrow, by decide +kernel, by decide +kernel, by decide +kernel, by decide +kernel, by decide +kernel,
    .inr (by decide +kernel), by decide +kernel⟩
  obtain ⟨v, h1, h2⟩ := C88_binary64 (wt := "fractional") 0 1024 8 6 ht hv (.inl ⟨hr, hα, by decide +kernel, .inl rfl⟩)
    (fun i hi => by interval_cases i <;> decide +kernel) 1 (by norm_num) 1030 (by decide) (by norm_num) 1 hl (by decide +kernel)
  have e0 : ((1030 : ℤ) : ℚ) * pow2 (-10) = 1030/1024 := by decide +kernel
  have e1 : autoCov 4 wX' 1 / sumSq 4 wX' = -1/14 := by decide +kernel
  rw [e0] at h1
  rw [e1] at h2
  exact ⟨r, v, h1, h2.trans (by decide +kernel)⟩

/-- C89_binary64_below and C89_binary64_above: the lags 1.25 and 1.75 on the times 0, 1, 2, 3 -/
example : ∃ (r r' : AcResult B) (v v' : ℚ), r.At 0 1 (.fin (5/4)) (.fin v) ∧ |v - 4/5 * (1/13)| ≤ 1/1000 ∧
    r'.At 0 1 (.fin (7/4)) (.fin v') ∧ |v' - 4/5 * (-6/13)| ≤ 1/1000 := by
  obtain ⟨d, r, ht, hrow, hr, hα, hl⟩ := lag64_witness (fun i => 0 + i * 1024) sX 1280
    (by intro i j hij hj; interval_cases j <;> interval_cases i <;> decide +kernel) (by decide +kernel)
  obtain ⟨d', r', ht', hrow', hr', hα', hl'⟩ := lag64_witness (fun i => 0 + i * 1024) sX 1792
    (by intro i j hij hj; interval_cases j <;> interval_cases i <;> decide +kernel) (by decide +kernel)
  have hv : Values64 d 4 0 sX 8 (pow2 (-50)) := ⟨hrow, by decide +kernel, by decide +kernel, by decide +kernel, by decide +kernel, by decide +kernel,
    .inr (by decide +kernel), by decide +kernel⟩
  have hv' : Values64 d' 4 0 sX 8 (pow2 (-50)) := ⟨hrow', by decide +kernel, by decide +kernel, by decide +kernel, by decide +kernel, by decide +kernel,
    .inr (by decide +kernel), by decide +kernel⟩
  obtain ⟨v, h1, h2⟩ := C89_binary64_below (wt := "fractional") 0 1024 256 (by norm_num) (by norm_num) ht hv (.inl ⟨hr, hα, by decide +kernel, .inl rfl⟩)
    1 1 (by norm_num) hl (by norm_num)
  obtain ⟨v', h3, h4⟩ := C89_binary64_above (wt := "fractional") 0 1024 768 (by norm_num) (by norm_num) ht' hv' (.inl ⟨hr', hα', by decide +kernel, .inl rfl⟩)
    1 1 (by norm_num) hl' (by norm_num)
  have e0 : (((1 : ℕ) * 1024 + 256 : ℤ) : ℚ) * pow2 (-10) = 5/4 := by decide +kernel
  have e0' : (((1 : ℕ) * 1024 + 768 : ℤ) : ℚ) * pow2 (-10) = 7/4 := by decide +kernel
  rw [e0] at h1
  rw [e0'] at h3
  rw [weight_cast (ex := fun x => 1 / (1 - x)) (.inl rfl), ← Rat.cast_mul, ← Rat.cast_sub, ← Rat.cast_abs, Rat.cast_le] at h2 h4
  have e1 : weight (fun x : ℚ => 1 / (1 - x)) "fractional" 1 ((256 : ℤ) * pow2 (-10)) * ((autoCov 4 sX 1 - dev 4 sX (4 - 1 - 1) * dev 4 sX (4 - 1)) / sumSq 4 sX)
      = 4/5 * (1/13) := by decide +kernel
  have e2 : weight (fun x : ℚ => 1 / (1 - x)) "fractional" 1 ((1024 - 768 : ℤ) * pow2 (-10)) * (autoCov 4 sX (1 + 1) / sumSq 4 sX)
      = 4/5 * (-6/13) := by decide +kernel
  rw [e1] at h2
  rw [e2] at h4
  exact ⟨r, r', v, v', h1, h2.trans (by decide +kernel), h3, h4.trans (by decide +kernel)⟩

end Sacf
