import Verif.Spec.Gauss64
import Verif.Props.ErrorExp
import Verif.Props.Stability
import Verif.Props.Units

/-!
# The Gaussian weight in binary64

What C25, C27, C30, C31, C33, C75, C77, C78 and C79 say of the fractional weights, for the Gaussian weight with a library `exp` that errs by at most `2^-53`.
-/

namespace Sacf

open Finset

/-! ## from rationals to reals -/

theorem abs_le_cast {a b : ℚ} : |(a : ℝ)| ≤ b ↔ |a| ≤ b := by rw [← Rat.cast_abs, Rat.cast_le]

theorem selects_cast {M : ℕ} {t : ℕ → ℚ} {k : ℚ} {s : ℕ → ℕ} (h : Selects M t k s) : Selects M (fun i => (t i : ℝ)) (k : ℝ) s := by
  intro i hi hle
  have hle : t i + k ≤ t (M - 1) := by
    beta_reduce at hle
    exact_mod_cast hle
  obtain ⟨h1, h2⟩ := h i hi hle
  refine ⟨h1, fun i' hi' => ?_⟩
  have := h2 i' hi'
  beta_reduce
  exact_mod_cast this

theorem filter_cast {M : ℕ} (t : ℕ → ℚ) (k : ℚ) : ((range M).filter fun i => (t i : ℝ) + (k : ℝ) ≤ (t (M - 1) : ℝ)) = (range M).filter fun i => t i + k ≤ t (M - 1) :=
  filter_congr fun i _ => by norm_cast

theorem filter_cast' {M : ℕ} (t : ℕ → ℚ) (k : ℚ) (s : ℕ → ℕ) (n : ℕ) :
    ((range M).filter fun i => (t i : ℝ) + (k : ℝ) ≤ (t (M - 1) : ℝ) ∧ s i = n) = (range M).filter fun i => t i + k ≤ t (M - 1) ∧ s i = n :=
  filter_congr fun i _ => by norm_cast

/-- the formula with a weight function that takes rationals to rationals -/
theorem sacf_cast {M : ℕ} {t x : ℕ → ℚ} {w : ℚ → ℚ} {w' : ℝ → ℝ} (hw : ∀ δ : ℚ, w' δ = w δ) (s : ℕ → ℕ) (k : ℚ) :
    sacf M (fun i => (t i : ℝ)) (fun i => (x i : ℝ)) w' s (sumSq M fun i => (x i : ℝ)) (k : ℝ) = (sacf M t x w s (sumSq M x) k : ℚ) := by
  unfold sacf
  rw [filter_cast, sumSq_cast, Rat.cast_div, Rat.cast_sum]
  congr 1
  refine sum_congr rfl fun i _ => ?_
  rw [dev_cast, dev_cast, Rat.cast_mul, Rat.cast_mul, ← hw]
  push_cast
  rfl

theorem gauss_bounds (α : ℝ) (δ : ℝ) : 0 ≤ weight Real.exp "gaussian" α δ ∧ weight Real.exp "gaussian" α δ ≤ 1 := by
  unfold weight
  rw [if_pos rfl]
  exact ⟨(Real.exp_pos _).le, Real.exp_le_one_iff.2 (neg_nonpos.2 (by positivity))⟩

theorem gauss_zero (α : ℝ) : weight Real.exp "gaussian" α 0 = 1 := by
  unfold weight
  rw [if_pos rfl]
  norm_num

section binary64
variable {ex : ℚ → ℚ} {fu : Bool} {d d' : DS (D64 ex fu)} {M j j' : ℕ} {τ τ' : ℕ → ℤ} {e : ℤ} {x y : ℕ → ℚ} {A A' V V' α : ℚ}
  {ga ga' : LagArgs (D64 ex fu)} {r r' : AcResult (D64 ex fu)}

/-- the error bound -/
theorem gauss64 (ht : Times64 d M τ e) (hv : Values64 d M j x A V) (hg : GaussRun64 d ga r α e)
    {n : ℕ} {k : ℤ} (hn : r.lags[n]? = some (.fin (k * pow2 e))) (hk : |k| + (τ (M - 1) - τ 0) ≤ 2 ^ 53)
    {s : ℕ → ℕ} (hs : Selects M (fun i => (τ i : ℚ) * pow2 e) (k * pow2 e) s) :
    ∃ v : ℚ, r.At j n (.fin (k * pow2 e)) (.fin v) ∧
      |(v : ℝ) - gaussAcf M τ e x α s k| ≤ (250 * V * (M * A ^ 2 / sumSq M x) : ℚ) * (1 + |gaussAcf M τ e x α s k|) :=
  C61_binary64_gaussian hg.lib e ht.emin hg.emax d ht.built M τ ht.times ht.inc ht.one_le ht.le A V hv.amin hv.amax hv.unit hv.small j x hv.row
    hv.bound hv.float hv.spread ga r hg.run α hg.alpha hg.scale hg.lower hg.upper n k hn hk s hs

theorem gauss_le (hN : 0 < sumSq M x) {s : ℕ → ℕ} {k : ℤ} (hs : Selects M (fun i => (τ i : ℚ) * pow2 e) (k * pow2 e) s) {β : ℚ} (hβ : 0 ≤ β)
    (hB : ∀ i' < M, (((range M).filter fun i => (τ i : ℚ) * pow2 e + k * pow2 e ≤ (τ (M - 1) : ℚ) * pow2 e ∧ s i = i').card : ℚ) ≤ β ^ 2) :
    |gaussAcf M τ e x α s k| ≤ (β : ℝ) := by
  have hb : gaussAcf M τ e x α s k ^ 2 ≤ (⌊β ^ 2⌋₊ : ℕ) := by
    refine sacf_bound (fun y _ => gauss_bounds _ y) (fun i hi hk => (selects_cast hs i hi hk).1) ?_ (by rw [sumSq_cast]; exact_mod_cast hN.ne')
    intro n hn
    rw [filter_cast' (fun i => (τ i : ℚ) * pow2 e)]
    exact card_floor hB n hn
  refine abs_le_of_sq_le_sq (hb.trans ?_) (by exact_mod_cast hβ)
  have := Nat.floor_le (sq_nonneg β)
  exact_mod_cast this

/-- the error bound when the correlation is at most `β` -/
theorem gauss64_le (ht : Times64 d M τ e) (hv : Values64 d M j x A V) (hg : GaussRun64 d ga r α e)
    {n : ℕ} {k : ℤ} (hn : r.lags[n]? = some (.fin (k * pow2 e))) (hk : |k| + (τ (M - 1) - τ 0) ≤ 2 ^ 53)
    {s : ℕ → ℕ} (hs : Selects M (fun i => (τ i : ℚ) * pow2 e) (k * pow2 e) s) {β : ℚ} (hβ : |gaussAcf M τ e x α s k| ≤ (β : ℝ)) :
    ∃ v : ℚ, r.At j n (.fin (k * pow2 e)) (.fin v) ∧ |(v : ℝ) - gaussAcf M τ e x α s k| ≤ (250 * V * (M * A ^ 2 / sumSq M x) * (1 + β) : ℚ) := by
  obtain ⟨hN, hV0⟩ := hv.pos ht
  obtain ⟨v, h1, h2⟩ := gauss64 ht hv hg hn hk hs
  refine ⟨v, h1, h2.trans ?_⟩
  have hc : (0 : ℝ) ≤ (250 * V * (M * A ^ 2 / sumSq M x) : ℚ) := by exact_mod_cast (by positivity)
  have := mul_le_mul_of_nonneg_left (show 1 + |gaussAcf M τ e x α s k| ≤ 1 + (β : ℝ) by linarith) hc
  push_cast at this ⊢
  linarith

/-- the error bound when the correlation is the rational number `ρ` -/
theorem gauss64_eq (ht : Times64 d M τ e) (hv : Values64 d M j x A V) (hg : GaussRun64 d ga r α e)
    {n : ℕ} {k : ℤ} (hn : r.lags[n]? = some (.fin (k * pow2 e))) (hk : |k| + (τ (M - 1) - τ 0) ≤ 2 ^ 53)
    {s : ℕ → ℕ} (hs : Selects M (fun i => (τ i : ℚ) * pow2 e) (k * pow2 e) s) {ρ : ℚ} (hρ : gaussAcf M τ e x α s k = (ρ : ℝ)) :
    ∃ v : ℚ, r.At j n (.fin (k * pow2 e)) (.fin v) ∧ |v - ρ| ≤ 250 * V * (M * A ^ 2 / sumSq M x) * (1 + |ρ|) := by
  obtain ⟨v, h1, h2⟩ := gauss64_le ht hv hg hn hk hs (β := |ρ|) (by rw [hρ, Rat.cast_abs])
  rw [hρ] at h2
  exact ⟨v, h1, by exact_mod_cast h2⟩

/-- **C25 in binary64, Gaussian weight**: the correlation at lag zero is within `500 V κ` of one. -/
theorem C25_binary64_gaussian (ht : Times64 d M τ e) (hv : Values64 d M j x A V) (hspan : τ (M - 1) - τ 0 ≤ 2 ^ 53) (hg : GaussRun64 d ga r α e)
    (n : ℕ) (hn : r.lags[n]? = some (.fin 0)) : ∃ v : ℚ, r.At j n (.fin 0) (.fin v) ∧ |v - 1| ≤ 500 * V * (M * A ^ 2 / sumSq M x) := by
  obtain ⟨hN, _⟩ := hv.pos ht
  have e0 : ((0 : ℤ) : ℚ) * pow2 e = 0 := by simp
  have hN' : sumSq M (fun i => (x i : ℝ)) ≠ 0 := by rw [sumSq_cast]; exact_mod_cast hN.ne'
  have hinc : Increasing M fun i => ((τ i * pow2 e : ℚ) : ℝ) := fun i i' h1 h2 => Rat.cast_lt.2 (ht.increasing i i' h1 h2)
  obtain ⟨v, h1, h2⟩ := gauss64_eq ht hv hg (n := n) (k := 0) (by rw [e0]; exact hn) (by simpa using hspan) (s := fun i => i)
    (by rw [e0]; exact selects_zero ht.increasing) (ρ := 1) (by
      unfold gaussAcf
      rw [e0, Rat.cast_zero, sacf_zero (gauss_zero _) hinc, div_self hN']
      norm_num)
  rw [e0] at h1
  exact ⟨v, h1, h2.trans (by rw [abs_one]; linarith)⟩

/-- **C27 in binary64, Gaussian weight**: `β` bounds the exact correlation. -/
theorem C27_binary64_gaussian (ht : Times64 d M τ e) (ht' : Times64 d' M τ e) (hv : Values64 d M j x A V) (hv' : Values64 d' M j' y A' V')
    (a c : ℚ) (ha : a ≠ 0) (hy : ∀ i < M, y i = a * x i + c) (hg : GaussRun64 d ga r α e) (hg' : GaussRun64 d' ga' r' α e)
    (n n' : ℕ) (k : ℤ) (hn : r.lags[n]? = some (.fin (k * pow2 e))) (hn' : r'.lags[n']? = some (.fin (k * pow2 e)))
    (hk : |k| + (τ (M - 1) - τ 0) ≤ 2 ^ 53) (s : ℕ → ℕ) (hs : Selects M (fun i => (τ i : ℚ) * pow2 e) (k * pow2 e) s)
    (β : ℚ) (hβ : 0 ≤ β)
    (hB : ∀ i' < M, (((range M).filter fun i => (τ i : ℚ) * pow2 e + k * pow2 e ≤ (τ (M - 1) : ℚ) * pow2 e ∧ s i = i').card : ℚ) ≤ β ^ 2) :
    ∃ v v' : ℚ, r.At j n (.fin (k * pow2 e)) (.fin v) ∧ r'.At j' n' (.fin (k * pow2 e)) (.fin v') ∧
      |v - v'| ≤ 250 * (V * (M * A ^ 2 / sumSq M x) + V' * (M * A' ^ 2 / sumSq M y)) * (1 + β) := by
  obtain ⟨hN, _⟩ := hv.pos ht
  obtain ⟨hN', _⟩ := hv'.pos ht'
  obtain ⟨v, h1, h2⟩ := gauss64_le ht hv hg hn hk hs (gauss_le hN hs hβ hB)
  obtain ⟨v', h1', h2'⟩ := gauss64_le ht' hv' hg' hn' hk hs (gauss_le hN' hs hβ hB)
  have e1 : gaussAcf M τ e y α s k = gaussAcf M τ e x α s k :=
    sacf_affine (a := (a : ℝ)) (c := (c : ℝ)) (by exact_mod_cast ha) ht.one_le (fun i hi => by rw [hy i hi]; push_cast; rfl) (selects_cast hs)
  rw [e1] at h2'
  refine ⟨v, v', h1, h1', ?_⟩
  have h3 := abs_sub_le (v : ℝ) (gaussAcf M τ e x α s k) v'
  rw [abs_sub_comm (gaussAcf M τ e x α s k) (v' : ℝ)] at h3
  have h4 := h3.trans (add_le_add h2 h2')
  have h5 : |v - v'| ≤ 250 * V * (M * A ^ 2 / sumSq M x) * (1 + β) + 250 * V' * (M * A' ^ 2 / sumSq M y) * (1 + β) := by exact_mod_cast h4
  linarith

/-- **C30 and C33 in binary64, Gaussian weight**: on a regular grid the correlation at a lag of `m ≥ 0` steps is the textbook one up to `500 V κ`. -/
theorem C30_binary64_gaussian (a p : ℤ) (hp : 0 < p) (ht : Times64 d M (fun i => a + i * p) e) (hv : Values64 d M j x A V) (hg : GaussRun64 d ga r α e)
    (n m : ℕ) (hm : m < M) (hspan : 2 * M * p ≤ 2 ^ 53) (hn : r.lags[n]? = some (.fin ((m * p : ℤ) * pow2 e))) :
    ∃ v : ℚ, r.At j n (.fin ((m * p : ℤ) * pow2 e)) (.fin v) ∧ |v - autoCov M x m / sumSq M x| ≤ 500 * V * (M * A ^ 2 / sumSq M x) := by
  obtain ⟨hN, hV0⟩ := hv.pos ht
  have hpe := pow2_pos e
  have htimes : (fun i : ℕ => ((a + i * p : ℤ) : ℚ) * pow2 e) = fun i : ℕ => ((a : ℚ) * pow2 e) + i * ((p : ℚ) * pow2 e) := by
    funext i; push_cast; ring
  have hlag : ((m * p : ℤ) : ℚ) * pow2 e = m * ((p : ℚ) * pow2 e) := by push_cast; ring
  obtain ⟨hsel, _⟩ := sacf_regular (t0 := (a : ℚ) * pow2 e) (δ := (p : ℚ) * pow2 e) (mul_pos (by exact_mod_cast hp) hpe)
    (w := fun _ => 1) rfl M m hm x (sumSq M x)
  obtain ⟨_, heq⟩ := sacf_regular (t0 := (((a : ℚ) * pow2 e : ℚ) : ℝ)) (δ := (((p : ℚ) * pow2 e : ℚ) : ℝ))
    (by exact_mod_cast mul_pos (by exact_mod_cast hp) hpe) (gauss_zero (α : ℝ)) M m hm (fun i => (x i : ℝ)) (sumSq M fun i => (x i : ℝ))
  rw [← htimes, ← hlag] at hsel
  have hMpz : ((M - 1 : ℕ) : ℤ) * p ≤ M * p := mul_le_mul_of_nonneg_right (by omega) hp.le
  have hmpz : (m : ℤ) * p ≤ M * p := mul_le_mul_of_nonneg_right (by omega) hp.le
  have hmp0 : 0 ≤ (m : ℤ) * p := mul_nonneg (by omega) hp.le
  obtain ⟨v, h1, h2⟩ := gauss64_eq ht hv hg hn (by rw [abs_of_nonneg hmp0]; push_cast; linarith) hsel (ρ := autoCov M x m / sumSq M x) (by
    have e1 : (fun i : ℕ => ((((a + i * p : ℤ) : ℚ) * pow2 e : ℚ) : ℝ)) = fun i : ℕ => (((a : ℚ) * pow2 e : ℚ) : ℝ) + i * (((p : ℚ) * pow2 e : ℚ) : ℝ) := by
      funext i; push_cast; ring
    have e2 : ((((m * p : ℤ) : ℚ) * pow2 e : ℚ) : ℝ) = m * (((p : ℚ) * pow2 e : ℚ) : ℝ) := by push_cast; ring
    unfold gaussAcf
    rw [e1, e2, heq, sumSq_cast, Rat.cast_div]
    congr 1
    unfold autoCov
    push_cast
    exact sum_congr rfl fun i _ => by rw [dev_cast, dev_cast])
  refine ⟨v, h1, h2.trans ?_⟩
  have hρ := autoCov_le (x := x) hm hN.ne'
  have hc : 0 ≤ 250 * V * (M * A ^ 2 / sumSq M x) := by positivity
  nlinarith

/-- **C33 in binary64, Gaussian weight, any increasing times and any lag**. -/
theorem C33_binary64_gaussian_partial (ht : Times64 d M τ e) (hv : Values64 d M j x A V) (hg : GaussRun64 d ga r α e)
    (n : ℕ) (k : ℤ) (hn : r.lags[n]? = some (.fin (k * pow2 e))) (hk : |k| + (τ (M - 1) - τ 0) ≤ 2 ^ 53) (β : ℚ) (hβ : 0 ≤ β)
    (s : ℕ → ℕ) (hs : Selects M (fun i => (τ i : ℚ) * pow2 e) (k * pow2 e) s)
    (hB : ∀ i' < M, (((range M).filter fun i => (τ i : ℚ) * pow2 e + k * pow2 e ≤ (τ (M - 1) : ℚ) * pow2 e ∧ s i = i').card : ℚ) ≤ β ^ 2) :
    ∃ v : ℚ, r.At j n (.fin (k * pow2 e)) (.fin v) ∧ |v| ≤ β + 250 * V * (M * A ^ 2 / sumSq M x) * (1 + β) := by
  obtain ⟨hN, _⟩ := hv.pos ht
  have hb := gauss_le (α := α) hN hs hβ hB
  obtain ⟨v, h1, h2⟩ := gauss64_le ht hv hg hn hk hs hb
  refine ⟨v, h1, ?_⟩
  have e1 : (v : ℝ) = (v - gaussAcf M τ e x α s k) + gaussAcf M τ e x α s k := by ring
  have h3 : |(v : ℝ)| ≤ (β + 250 * V * (M * A ^ 2 / sumSq M x) * (1 + β) : ℚ) := by
    rw [e1]
    refine (abs_add_le _ _).trans ?_
    push_cast at h2 ⊢
    linarith
  exact abs_le_cast.1 h3

/-- **C75 in binary64, Gaussian weight**: a lag at which the series repeats. -/
theorem C75_binary64_gaussian (ht : Times64 d M τ e) (hv : Values64 d M j x A V) (hg : GaussRun64 d ga r α e)
    (n : ℕ) (k : ℤ) (hn : r.lags[n]? = some (.fin (k * pow2 e))) (hk : |k| + (τ (M - 1) - τ 0) ≤ 2 ^ 53)
    (hrep : ∀ i < M, τ i + k ≤ τ (M - 1) → ∃ i' < M, τ i' = τ i + k ∧ x i' = x i) :
    ∃ v : ℚ, r.At j n (.fin (k * pow2 e)) (.fin v) ∧
      |v - (∑ i ∈ range M with τ i + k ≤ τ (M - 1), dev M x i ^ 2) / sumSq M x| ≤ 500 * V * (M * A ^ 2 / sumSq M x) := by
  obtain ⟨hN, hV0⟩ := hv.pos ht
  have hpe := pow2_pos e
  obtain ⟨s, hs⟩ := selects_exists M (fun i => (τ i : ℚ) * pow2 e) (k * pow2 e)
  have hiff : ∀ i, ((τ i : ℚ) * pow2 e + k * pow2 e ≤ (τ (M - 1) : ℚ) * pow2 e) ↔ τ i + k ≤ τ (M - 1) := by
    intro i
    rw [← add_mul, mul_le_mul_iff_left₀ hpe]
    exact_mod_cast Iff.rfl
  have hinc : Increasing M fun i => ((τ i * pow2 e : ℚ) : ℝ) := fun i i' h1 h2 => Rat.cast_lt.2 (ht.increasing i i' h1 h2)
  have hρ := sacf_repeat (gauss_zero (α : ℝ)) (selects_cast hs) (x := fun i => (x i : ℝ))
    (by
      intro i hi hle
      have hle : (τ i : ℚ) * pow2 e + k * pow2 e ≤ (τ (M - 1) : ℚ) * pow2 e := by exact_mod_cast hle
      obtain ⟨i', h1, h2, h3⟩ := hrep i hi ((hiff i).1 hle)
      exact ⟨i', h1, by simp only [h2]; push_cast; ring, by rw [h3]⟩) hinc (sumSq M fun i => (x i : ℝ))
  obtain ⟨v, h1, h2⟩ := gauss64_eq ht hv hg hn hk hs (ρ := (∑ i ∈ range M with τ i + k ≤ τ (M - 1), dev M x i ^ 2) / sumSq M x) (by
    unfold gaussAcf
    rw [hρ, filter_cast (fun i => (τ i : ℚ) * pow2 e), sumSq_cast, Rat.cast_div]
    simp only [hiff]
    congr 1
    push_cast
    exact sum_congr rfl fun i _ => by rw [dev_cast])
  refine ⟨v, h1, h2.trans ?_⟩
  have hle : ∑ i ∈ range M with τ i + k ≤ τ (M - 1), dev M x i ^ 2 ≤ sumSq M x :=
    Finset.sum_le_sum_of_subset_of_nonneg (Finset.filter_subset _ _) fun i _ _ => sq_nonneg _
  have h0 : 0 ≤ ∑ i ∈ range M with τ i + k ≤ τ (M - 1), dev M x i ^ 2 := Finset.sum_nonneg fun i _ => sq_nonneg _
  have hb : |(∑ i ∈ range M with τ i + k ≤ τ (M - 1), dev M x i ^ 2) / sumSq M x| ≤ 1 := by
    rw [abs_of_nonneg (div_nonneg h0 hN.le)]
    exact (div_le_one hN).2 hle
  have hc : 0 ≤ 250 * V * (M * A ^ 2 / sumSq M x) := by positivity
  nlinarith

/-- comparing the computed value with the formula for another weight function -/
theorem gauss64_weights (ht : Times64 d M τ e) (hv : Values64 d M j x A V) (hg : GaussRun64 d ga r α e)
    {n : ℕ} {k : ℤ} (hn : r.lags[n]? = some (.fin (k * pow2 e))) (hk : |k| + (τ (M - 1) - τ 0) ≤ 2 ^ 53)
    {s : ℕ → ℕ} (hs : Selects M (fun i => (τ i : ℚ) * pow2 e) (k * pow2 e) s) {β C : ℚ} (hβ : 0 ≤ β) (hC0 : 0 ≤ C)
    (hB : ∀ i' < M, (((range M).filter fun i => (τ i : ℚ) * pow2 e + k * pow2 e ≤ (τ (M - 1) : ℚ) * pow2 e ∧ s i = i').card : ℚ) ≤ β ^ 2)
    {w : ℚ → ℚ} {w' : ℝ → ℝ} (hw : ∀ δ : ℚ, w' δ = w δ)
    (hC : ∀ i < M, (τ i : ℚ) * pow2 e + k * pow2 e ≤ (τ (M - 1) : ℚ) * pow2 e → ∀ δ : ℚ, δ = |(τ (s i) : ℚ) * pow2 e - ((τ i : ℚ) * pow2 e + k * pow2 e)| →
      |weight Real.exp "gaussian" (α : ℝ) (δ : ℝ) - (w δ : ℝ)| ≤ (C : ℝ)) :
    ∃ v : ℚ, r.At j n (.fin (k * pow2 e)) (.fin v) ∧
      |v - sacf M (fun i => (τ i : ℚ) * pow2 e) x w s (sumSq M x) (k * pow2 e)| ≤ C * β + 250 * V * (M * A ^ 2 / sumSq M x) * (1 + β) := by
  obtain ⟨hN, _⟩ := hv.pos ht
  have hN' : sumSq M (fun i => (x i : ℝ)) ≠ 0 := by rw [sumSq_cast]; exact_mod_cast hN.ne'
  obtain ⟨v, h1, h2⟩ := gauss64_le ht hv hg hn hk hs (gauss_le hN hs hβ hB)
  refine ⟨v, h1, ?_⟩
  have hst := sacf_weights_near (x := fun i => (x i : ℝ)) (w := weight Real.exp "gaussian" (α : ℝ)) (w' := w') (C := (C : ℝ)) (B := ⌊β ^ 2⌋₊) (selects_cast hs)
    (fun i hi hle => by
      have hle : (τ i : ℚ) * pow2 e + k * pow2 e ≤ (τ (M - 1) : ℚ) * pow2 e := by exact_mod_cast hle
      have := hC i hi hle _ rfl
      rw [← hw] at this
      push_cast at this ⊢
      exact this)
    (fun n hn => by
      rw [filter_cast' (fun i => (τ i : ℚ) * pow2 e)]
      exact card_floor hB n hn) hN'
  have hfl : ((⌊β ^ 2⌋₊ : ℕ) : ℝ) ≤ (β : ℝ) ^ 2 := by
    have := Nat.floor_le (sq_nonneg β)
    exact_mod_cast this
  have hC0' : (0 : ℝ) ≤ C := by exact_mod_cast hC0
  have hβ' : (0 : ℝ) ≤ β := by exact_mod_cast hβ
  have hst' := abs_le_of_sq_le_sq (hst.trans ((mul_le_mul_of_nonneg_left hfl (sq_nonneg _)).trans_eq (mul_pow _ _ 2).symm)) (mul_nonneg hC0' hβ')
  rw [sacf_cast (t := fun i => (τ i : ℚ) * pow2 e) hw] at hst'
  have h3 := (abs_sub_le (v : ℝ) _ _).trans (add_le_add h2 hst')
  have h4 : |v - sacf M (fun i => (τ i : ℚ) * pow2 e) x w s (sumSq M x) (k * pow2 e)| ≤ 250 * V * (M * A ^ 2 / sumSq M x) * (1 + β) + C * β := by
    exact_mod_cast h3
  linarith

/-- **C77 in binary64, large `alpha`, Gaussian weight**. -/
theorem C77_binary64_large_gaussian (ht : Times64 d M τ e) (hv : Values64 d M j x A V) (hg : GaussRun64 d ga r α e)
    (n : ℕ) (k : ℤ) (hn : r.lags[n]? = some (.fin (k * pow2 e))) (hk : |k| + (τ (M - 1) - τ 0) ≤ 2 ^ 53)
    (s : ℕ → ℕ) (hs : Selects M (fun i => (τ i : ℚ) * pow2 e) (k * pow2 e) s) (D : ℚ)
    (hDs : ∀ i < M, (τ i : ℚ) * pow2 e + k * pow2 e ≤ (τ (M - 1) : ℚ) * pow2 e →
      |(τ (s i) : ℚ) * pow2 e - ((τ i : ℚ) * pow2 e + k * pow2 e)| ≤ D) (β : ℚ) (hβ : 0 ≤ β)
    (hB : ∀ i' < M, (((range M).filter fun i => (τ i : ℚ) * pow2 e + k * pow2 e ≤ (τ (M - 1) : ℚ) * pow2 e ∧ s i = i').card : ℚ) ≤ β ^ 2) :
    ∃ v : ℚ, r.At j n (.fin (k * pow2 e)) (.fin v) ∧
      |v - sacf M (fun i => (τ i : ℚ) * pow2 e) x (fun _ => 1) s (sumSq M x) (k * pow2 e)|
        ≤ D ^ 2 / (2 * α ^ 2) * β + 250 * V * (M * A ^ 2 / sumSq M x) * (1 + β) := by
  refine gauss64_weights ht hv hg hn hk hs hβ (by positivity) hB (w' := fun _ => 1) (fun _ => by norm_num) ?_
  rintro i hi hle δ rfl
  have hα : 0 < α := lt_of_lt_of_le (pow2_pos _) hg.lower
  have h1 := hDs i hi hle
  have h0 := abs_nonneg ((τ (s i) : ℚ) * pow2 e - ((τ i : ℚ) * pow2 e + k * pow2 e))
  generalize |(τ (s i) : ℚ) * pow2 e - ((τ i : ℚ) * pow2 e + k * pow2 e)| = δ at *
  have h3 : δ ^ 2 / (2 * α ^ 2) ≤ D ^ 2 / (2 * α ^ 2) := (div_le_div_iff_of_pos_right (by positivity)).2 (pow_le_pow_left₀ h0 h1 2)
  have h3' : (δ : ℝ) ^ 2 / (2 * (α : ℝ) ^ 2) ≤ (D ^ 2 / (2 * α ^ 2) : ℚ) := by exact_mod_cast h3
  have a1 := Real.add_one_le_exp (-((δ : ℝ) ^ 2 / (2 * (α : ℝ) ^ 2)))
  have a2 := (gauss_bounds (α : ℝ) (δ : ℝ)).2
  have a3 : (0 : ℝ) ≤ (D ^ 2 / (2 * α ^ 2) : ℚ) := by exact_mod_cast (by positivity)
  unfold weight at a2 ⊢
  rw [if_pos rfl] at a2 ⊢
  rw [Rat.cast_one, abs_le]
  constructor <;> linarith

/-- **C77 in binary64, small `alpha`, Gaussian weight**. -/
theorem C77_binary64_small_gaussian (ht : Times64 d M τ e) (hv : Values64 d M j x A V) (hg : GaussRun64 d ga r α e)
    (n : ℕ) (k : ℤ) (hn : r.lags[n]? = some (.fin (k * pow2 e))) (hk : |k| + (τ (M - 1) - τ 0) ≤ 2 ^ 53)
    (s : ℕ → ℕ) (hs : Selects M (fun i => (τ i : ℚ) * pow2 e) (k * pow2 e) s) (β : ℚ) (hβ : 0 ≤ β)
    (hB : ∀ i' < M, (((range M).filter fun i => (τ i : ℚ) * pow2 e + k * pow2 e ≤ (τ (M - 1) : ℚ) * pow2 e ∧ s i = i').card : ℚ) ≤ β ^ 2) :
    ∃ v : ℚ, r.At j n (.fin (k * pow2 e)) (.fin v) ∧
      |v - sacf M (fun i => (τ i : ℚ) * pow2 e) x (fun δ => if δ = 0 then 1 else 0) s (sumSq M x) (k * pow2 e)|
        ≤ 2 * (α / pow2 e) ^ 2 * β + 250 * V * (M * A ^ 2 / sumSq M x) * (1 + β) := by
  have hpe := pow2_pos e
  have hα : 0 < α := lt_of_lt_of_le (pow2_pos _) hg.lower
  refine gauss64_weights ht hv hg hn hk hs hβ (by positivity) hB (w' := fun δ => if δ = 0 then 1 else 0)
    (fun δ => by by_cases h : δ = 0 <;> simp [h]) ?_
  rintro i hi hle δ hδ
  by_cases h0 : δ = 0
  · rw [h0, if_pos rfl, Rat.cast_zero, gauss_zero, Rat.cast_one, sub_self, abs_zero]
    exact_mod_cast (by positivity : 0 ≤ 2 * (α / pow2 e) ^ 2)
  · rw [if_neg h0, Rat.cast_zero, sub_zero, abs_of_nonneg (gauss_bounds _ _).1]
    have hz : (τ (s i) : ℚ) * pow2 e - ((τ i : ℚ) * pow2 e + k * pow2 e) = ((τ (s i) - (τ i + k) : ℤ) : ℚ) * pow2 e := by push_cast; ring
    have h1 : pow2 e ≤ δ := by
      rw [hδ, hz, abs_mul, abs_of_pos hpe]
      have hz0 : τ (s i) - (τ i + k) ≠ 0 := by
        intro h1
        rw [h1, Int.cast_zero, zero_mul] at hz
        exact h0 (by rw [hδ, hz, abs_zero])
      have h1z : (1 : ℚ) ≤ |((τ (s i) - (τ i + k) : ℤ) : ℚ)| := by exact_mod_cast Int.one_le_abs hz0
      nlinarith
    -- `exp (-z) ≤ 1 / z`
    have hz' : 0 < δ ^ 2 / (2 * α ^ 2) := by have := hpe.trans_le h1; positivity
    have h2 : 1 / (δ ^ 2 / (2 * α ^ 2)) ≤ 2 * (α / pow2 e) ^ 2 := by
      rw [one_div_div, div_pow, ← mul_div_assoc]
      exact div_le_div_of_nonneg_left (by positivity) (by positivity) (pow_le_pow_left₀ hpe.le h1 2)
    refine le_trans ?_ (show ((1 / (δ ^ 2 / (2 * α ^ 2)) : ℚ) : ℝ) ≤ _ by exact_mod_cast h2)
    have hzr : (0 : ℝ) < (δ ^ 2 / (2 * α ^ 2) : ℚ) := by exact_mod_cast hz'
    have e1 : weight Real.exp "gaussian" (α : ℝ) (δ : ℝ) = Real.exp (-((δ ^ 2 / (2 * α ^ 2) : ℚ) : ℝ)) := by
      unfold weight
      rw [if_pos rfl]
      push_cast
      rfl
    rw [e1, Rat.cast_div 1, Rat.cast_one, Real.exp_neg, ← one_div]
    exact one_div_le_one_div_of_le hzr (by have := Real.add_one_le_exp ((δ ^ 2 / (2 * α ^ 2) : ℚ) : ℝ); linarith)

/-- `selects_jitter` with the times and lags counted in units -/
theorem selects_jitter64 {k k' η : ℤ} (hη : ∀ i < M, |τ i - τ' i| ≤ η) {s : ℕ → ℕ} (hs : Selects M (fun i => (τ i : ℚ) * pow2 e) (k * pow2 e) s)
    (hsep : ∀ i < M, τ i + k ≤ τ (M - 1) → ∀ i' < M, i' ≠ s i → |τ (s i) - (τ i + k)| + (4 * η + 2 * |k - k'|) < |τ i' - (τ i + k)|)
    (hend : ∀ i, i + 1 < M → 2 * η + |k - k'| < |τ (M - 1) - (τ i + k)|) (hsign : k ≤ 0 ↔ k' ≤ 0) :
    (∀ i < M, |(τ i : ℚ) * pow2 e - (τ' i : ℚ) * pow2 e| ≤ η * pow2 e) ∧ |(k : ℚ) * pow2 e - k' * pow2 e| = (|k - k'| : ℤ) * pow2 e ∧
    (∀ i < M, (τ i : ℚ) * pow2 e + k * pow2 e ≤ (τ (M - 1) : ℚ) * pow2 e ↔ (τ' i : ℚ) * pow2 e + k' * pow2 e ≤ (τ' (M - 1) : ℚ) * pow2 e) ∧
    Selects M (fun i => (τ' i : ℚ) * pow2 e) (k' * pow2 e) s := by
  have hpe := pow2_pos e
  have hηq : ∀ i < M, |(τ i : ℚ) * pow2 e - (τ' i : ℚ) * pow2 e| ≤ η * pow2 e := by
    intro i hi
    rw [← sub_mul, abs_mul, abs_of_pos hpe]
    exact mul_le_mul_of_nonneg_right (by exact_mod_cast hη i hi) hpe.le
  have hd : |(k : ℚ) * pow2 e - k' * pow2 e| = (|k - k'| : ℤ) * pow2 e := by
    rw [← sub_mul, abs_mul, abs_of_pos hpe]
    push_cast
    rfl
  have habs : ∀ (a i : ℕ), |(τ a : ℚ) * pow2 e - ((τ i : ℚ) * pow2 e + k * pow2 e)| = (|τ a - (τ i + k)| : ℤ) * pow2 e := by
    intro a i
    have e1 : (τ a : ℚ) * pow2 e - ((τ i : ℚ) * pow2 e + k * pow2 e) = ((τ a - (τ i + k) : ℤ) : ℚ) * pow2 e := by push_cast; ring
    rw [e1, abs_mul, abs_of_pos hpe]
    push_cast
    rfl
  have hiff : ∀ i, ((τ i : ℚ) * pow2 e + k * pow2 e ≤ (τ (M - 1) : ℚ) * pow2 e) ↔ τ i + k ≤ τ (M - 1) := by
    intro i
    rw [← add_mul, mul_le_mul_iff_left₀ hpe]
    exact_mod_cast Iff.rfl
  have hsg : ∀ k : ℤ, (k : ℚ) * pow2 e ≤ 0 ↔ k ≤ 0 := by
    intro k
    have : (k : ℚ) * pow2 e ≤ 0 ↔ (k : ℚ) * pow2 e ≤ 0 * pow2 e := by rw [zero_mul]
    rw [this, mul_le_mul_iff_left₀ hpe]
    exact_mod_cast Iff.rfl
  refine ⟨hηq, hd, selects_jitter (t := fun i => (τ i : ℚ) * pow2 e) (t' := fun i => (τ' i : ℚ) * pow2 e) (k := k * pow2 e) (k' := k' * pow2 e) hηq hs ?_ ?_
    (by rw [hsg, hsg]; exact hsign)⟩
  · intro i hi hle i' hi' hne
    have := hsep i hi ((hiff i).1 hle) i' hi' hne
    rw [habs, habs, hd]
    have h1 : ((|τ (s i) - (τ i + k)| + (4 * η + 2 * |k - k'|) : ℤ) : ℚ) < (|τ i' - (τ i + k)| : ℤ) := by exact_mod_cast this
    refine lt_of_eq_of_lt ?_ (mul_lt_mul_of_pos_right h1 hpe)
    push_cast
    ring
  · intro i hi
    have := hend i hi
    rw [habs, hd]
    have h1 : ((2 * η + |k - k'| : ℤ) : ℚ) < (|τ (M - 1) - (τ i + k)| : ℤ) := by exact_mod_cast this
    refine lt_of_eq_of_lt ?_ (mul_lt_mul_of_pos_right h1 hpe)
    push_cast
    ring

/-- two Gaussian weights at distances at most `D` -/
theorem gauss_lipschitz {α D δ δ' c : ℝ} (hα : 0 < α) (h0 : 0 ≤ δ) (h0' : 0 ≤ δ') (hD : δ ≤ D) (hD' : δ' ≤ D) (hc : |δ - δ'| ≤ c) :
    |weight Real.exp "gaussian" α δ - weight Real.exp "gaussian" α δ'| ≤ D * c / α ^ 2 := by
  unfold weight
  rw [if_pos rfl, if_pos rfl]
  have h2α : 0 < 2 * α ^ 2 := by positivity
  refine ((expLike_exp.lip _ (neg_nonpos.2 (by positivity)) _ (neg_nonpos.2 (by positivity))).trans_eq (add_zero _)).trans ?_
  have e : -(δ ^ 2 / (2 * α ^ 2)) - -(δ' ^ 2 / (2 * α ^ 2)) = -((δ - δ') * (δ + δ') / (2 * α ^ 2)) := by ring
  rw [e, abs_neg, abs_div, abs_mul, abs_of_pos h2α, abs_of_nonneg (by linarith : 0 ≤ δ + δ')]
  have e2 : D * c / α ^ 2 = c * (2 * D) / (2 * α ^ 2) := by field_simp
  rw [e2, div_le_div_iff_of_pos_right h2α]
  exact mul_le_mul hc (by linarith) (by linarith) ((abs_nonneg _).trans hc)

/-- **C78 in binary64, Gaussian weight**: times moved by at most `η` units, partners at distances at most `D` units. -/
theorem C78_binary64_gaussian_partial (ht : Times64 d M τ e) (ht' : Times64 d' M τ' e) (hv : Values64 d M j x A V) (hrow : d'.HasRow j' (samples M x))
    (hg : GaussRun64 d ga r α e) (hg' : GaussRun64 d' ga' r' α e)
    (n n' : ℕ) (k k' : ℤ) (hn : r.lags[n]? = some (.fin (k * pow2 e))) (hn' : r'.lags[n']? = some (.fin (k' * pow2 e)))
    (hk : |k| + (τ (M - 1) - τ 0) ≤ 2 ^ 53) (hk' : |k'| + (τ' (M - 1) - τ' 0) ≤ 2 ^ 53)
    (η : ℤ) (hη : ∀ i < M, |τ i - τ' i| ≤ η) (s : ℕ → ℕ) (hs : Selects M (fun i => (τ i : ℚ) * pow2 e) (k * pow2 e) s)
    (hsep : ∀ i < M, τ i + k ≤ τ (M - 1) → ∀ i' < M, i' ≠ s i → |τ (s i) - (τ i + k)| + (4 * η + 2 * |k - k'|) < |τ i' - (τ i + k)|)
    (hend : ∀ i, i + 1 < M → 2 * η + |k - k'| < |τ (M - 1) - (τ i + k)|) (hsign : k ≤ 0 ↔ k' ≤ 0)
    (D : ℤ) (hD : ∀ i < M, τ i + k ≤ τ (M - 1) → |τ (s i) - (τ i + k)| ≤ D ∧ |τ' (s i) - (τ' i + k')| ≤ D) (β : ℚ) (hβ : 0 ≤ β)
    (hB : ∀ i' < M, (((range M).filter fun i => (τ i : ℚ) * pow2 e + k * pow2 e ≤ (τ (M - 1) : ℚ) * pow2 e ∧ s i = i').card : ℚ) ≤ β ^ 2) :
    ∃ v v' : ℚ, r.At j n (.fin (k * pow2 e)) (.fin v) ∧ r'.At j' n' (.fin (k' * pow2 e)) (.fin v') ∧
      |v - v'| ≤ |D| * (2 * η + |k - k'| : ℤ) * (pow2 e / α) ^ 2 * β + 500 * V * (M * A ^ 2 / sumSq M x) * (1 + β) := by
  have hpe := pow2_pos e
  obtain ⟨hN, hV0⟩ := hv.pos ht
  have hN' : sumSq M (fun i => (x i : ℝ)) ≠ 0 := by rw [sumSq_cast]; exact_mod_cast hN.ne'
  have hα : 0 < α := lt_of_lt_of_le (pow2_pos _) hg.lower
  have hv' : Values64 d' M j' x A V := ⟨hrow, hv.bound, hv.amin, hv.amax, hv.unit, hv.small, hv.float, hv.spread⟩
  obtain ⟨hηq, hd, hcount, hs'⟩ := selects_jitter64 (e := e) hη hs hsep hend hsign
  have hB' : ∀ i' < M, (((range M).filter fun i => (τ' i : ℚ) * pow2 e + k' * pow2 e ≤ (τ' (M - 1) : ℚ) * pow2 e ∧ s i = i').card : ℚ) ≤ β ^ 2 := by
    intro i' hi'
    have e1 : ((range M).filter fun i => (τ' i : ℚ) * pow2 e + k' * pow2 e ≤ (τ' (M - 1) : ℚ) * pow2 e ∧ s i = i')
        = (range M).filter fun i => (τ i : ℚ) * pow2 e + k * pow2 e ≤ (τ (M - 1) : ℚ) * pow2 e ∧ s i = i' :=
      Finset.filter_congr fun i hi => by rw [hcount i (Finset.mem_range.1 hi)]
    rw [e1]
    exact hB i' hi'
  obtain ⟨v, h1, h2⟩ := gauss64_le ht hv hg hn hk hs (gauss_le hN hs hβ hB)
  obtain ⟨v', h1', h2'⟩ := gauss64_le ht' hv' hg' hn' hk' hs' (gauss_le hN hs' hβ hB')
  refine ⟨v, v', h1, h1', ?_⟩
  have hiff : ∀ i, ((τ i : ℚ) * pow2 e + k * pow2 e ≤ (τ (M - 1) : ℚ) * pow2 e) ↔ τ i + k ≤ τ (M - 1) := by
    intro i
    rw [← add_mul, mul_le_mul_iff_left₀ hpe]
    exact_mod_cast Iff.rfl
  have hη0 : 0 ≤ η := (abs_nonneg _).trans (hη 0 (by have := ht.one_le; omega))
  have hc0 : (0 : ℚ) ≤ (2 * η + |k - k'| : ℤ) := by exact_mod_cast (by positivity)
  have hC0 : (0 : ℚ) ≤ |(D : ℚ)| * (2 * η + |k - k'| : ℤ) * (pow2 e / α) ^ 2 := by positivity
  have hst := sacf_times (t := fun i => ((τ i * pow2 e : ℚ) : ℝ)) (t' := fun i => ((τ' i * pow2 e : ℚ) : ℝ)) (k := ((k * pow2 e : ℚ) : ℝ))
    (k' := ((k' * pow2 e : ℚ) : ℝ)) (x := fun i => (x i : ℝ)) (w := weight Real.exp "gaussian" (α : ℝ)) (w' := weight Real.exp "gaussian" (α : ℝ))
    (C := ((|(D : ℚ)| * (2 * η + |k - k'| : ℤ) * (pow2 e / α) ^ 2 : ℚ) : ℝ)) (B := ⌊β ^ 2⌋₊) (fun i hi hk => (selects_cast hs i hi hk).1)
    (fun i hi => by
      have := hcount i hi
      exact_mod_cast this)
    (by
      intro i hi hle
      have hle : (τ i : ℚ) * pow2 e + k * pow2 e ≤ (τ (M - 1) : ℚ) * pow2 e := by exact_mod_cast hle
      have hj := dist_jitter (t := fun i => (τ i : ℚ) * pow2 e) (t' := fun i => (τ' i : ℚ) * pow2 e) (k := k * pow2 e) (k' := k' * pow2 e) hηq hi (hs i hi hle).1
      obtain ⟨hD1, hD2⟩ := hD i hi ((hiff i).1 hle)
      have e1 : ∀ a b c : ℤ, |(a : ℚ) * pow2 e - (b * pow2 e + c * pow2 e)| = (|a - (b + c)| : ℤ) * pow2 e := by
        intro a b c
        rw [← add_mul, ← sub_mul, abs_mul, abs_of_pos hpe]
        push_cast
        rfl
      have hb : ∀ z : ℤ, z ≤ D → (z : ℚ) * pow2 e ≤ |(D : ℚ)| * pow2 e := fun z hz =>
        mul_le_mul_of_nonneg_right ((by exact_mod_cast hz : (z : ℚ) ≤ D).trans (le_abs_self _)) hpe.le
      have hx1 := hb _ hD1
      have hx2 := hb _ hD2
      rw [← e1] at hx1 hx2
      have y1 := abs_nonneg ((τ (s i) : ℚ) * pow2 e - ((τ i : ℚ) * pow2 e + k * pow2 e))
      have y2 := abs_nonneg ((τ' (s i) : ℚ) * pow2 e - ((τ' i : ℚ) * pow2 e + k' * pow2 e))
      rw [hd] at hj
      have key := gauss_lipschitz (α := (α : ℝ)) (D := ((|(D : ℚ)| * pow2 e : ℚ) : ℝ)) (c := ((2 * (η * pow2 e) + (|k - k'| : ℤ) * pow2 e : ℚ) : ℝ))
        (by exact_mod_cast hα) (Rat.cast_nonneg.2 y1) (Rat.cast_nonneg.2 y2) (Rat.cast_le.2 hx1) (Rat.cast_le.2 hx2) (by
          rw [← Rat.cast_sub]
          exact abs_le_cast.2 hj)
      refine le_trans (le_of_eq ?_) (key.trans_eq ?_)
      · push_cast
        rfl
      · push_cast
        ring)
    (fun n hn => by
      rw [filter_cast' (fun i => (τ i : ℚ) * pow2 e)]
      exact card_floor hB n hn) hN'
  have hfl : ((⌊β ^ 2⌋₊ : ℕ) : ℝ) ≤ (β : ℝ) ^ 2 := by
    have := Nat.floor_le (sq_nonneg β)
    exact_mod_cast this
  have hst' := abs_le_of_sq_le_sq (hst.trans ((mul_le_mul_of_nonneg_left hfl (sq_nonneg _)).trans_eq (mul_pow _ _ 2).symm))
    (mul_nonneg (Rat.cast_nonneg.2 hC0) (by exact_mod_cast hβ))
  have t1 := abs_sub_le (v : ℝ) (gaussAcf M τ e x α s k) v'
  have t2 := abs_sub_le (gaussAcf M τ e x α s k) (gaussAcf M τ' e x α s k') v'
  rw [abs_sub_comm (gaussAcf M τ' e x α s k') (v' : ℝ)] at t2
  unfold gaussAcf at *
  have h5 := t1.trans (add_le_add h2 (t2.trans (add_le_add hst' h2')))
  have h6 : |v - v'| ≤ 250 * V * (M * A ^ 2 / sumSq M x) * (1 + β) + (|(D : ℚ)| * (2 * η + |k - k'| : ℤ) * (pow2 e / α) ^ 2 * β
      + 250 * V * (M * A ^ 2 / sumSq M x) * (1 + β)) := by exact_mod_cast h5
  push_cast at h6 ⊢
  linarith

/-- **C31 in binary64, Gaussian weight**: on a regular grid the value at `-m` steps differs from the value at `m` steps by the terms in which a sample before the
first one is replaced by the first. -/
theorem C31_binary64_gaussian_partial (a p : ℤ) (hp : 0 < p) (ht : Times64 d M (fun i => a + i * p) e) (hv : Values64 d M j x A V) (hg : GaussRun64 d ga r α e)
    (n n' m : ℕ) (hm : m < M) (hspan : 2 * M * p ≤ 2 ^ 53) (hn : r.lags[n]? = some (.fin ((-(m * p) : ℤ) * pow2 e)))
    (hn' : r.lags[n']? = some (.fin ((m * p : ℤ) * pow2 e))) (S : ℝ)
    (hS : S = (∑ i ∈ range m, Real.exp (-(((m - i : ℕ) * (p * pow2 e) : ℚ) ^ 2 / (2 * α ^ 2) : ℚ)) * (dev M x i * dev M x 0 : ℚ)) / (sumSq M x : ℚ)) :
    ∃ v v' : ℚ, r.At j n (.fin ((-(m * p) : ℤ) * pow2 e)) (.fin v) ∧ r.At j n' (.fin ((m * p : ℤ) * pow2 e)) (.fin v') ∧
      |(v : ℝ) - v' - S| ≤ (250 * V * (M * A ^ 2 / sumSq M x) : ℚ) * (4 + |S|) := by
  obtain ⟨hN, hV0⟩ := hv.pos ht
  have hpe := pow2_pos e
  have hlag' : ((-(m * p) : ℤ) : ℚ) * pow2 e = -(m * ((p : ℚ) * pow2 e)) := by push_cast; ring
  have htimes : (fun i : ℕ => ((a + i * p : ℤ) : ℚ) * pow2 e) = fun i : ℕ => ((a : ℚ) * pow2 e) + i * ((p : ℚ) * pow2 e) := by
    funext i; push_cast; ring
  obtain ⟨hsel, _⟩ := sacf_regular_neg (t0 := (a : ℚ) * pow2 e) (δ := (p : ℚ) * pow2 e) (mul_pos (by exact_mod_cast hp) hpe)
    (w := fun _ => 1) rfl M m hm x (sumSq M x)
  obtain ⟨_, heq⟩ := sacf_regular_neg (t0 := (((a : ℚ) * pow2 e : ℚ) : ℝ)) (δ := (((p : ℚ) * pow2 e : ℚ) : ℝ))
    (by exact_mod_cast mul_pos (by exact_mod_cast hp) hpe) (gauss_zero (α : ℝ)) M m hm (fun i => (x i : ℝ)) (sumSq M fun i => (x i : ℝ))
  rw [← htimes, ← hlag'] at hsel
  have hMpz : ((M - 1 : ℕ) : ℤ) * p ≤ M * p := mul_le_mul_of_nonneg_right (by omega) hp.le
  have hmpz : (m : ℤ) * p ≤ M * p := mul_le_mul_of_nonneg_right (by omega) hp.le
  have hmp0 : 0 ≤ (m : ℤ) * p := mul_nonneg (by omega) hp.le
  obtain ⟨v', h1', h2'⟩ := C30_binary64_gaussian a p hp ht hv hg n' m hm hspan hn'
  obtain ⟨v, h1, h2⟩ := gauss64 ht hv hg hn (by rw [abs_neg, abs_of_nonneg hmp0]; push_cast; linarith) hsel
  have hρ : gaussAcf M (fun i => a + i * p) e x α (fun i => i - m) (-(m * p)) = (autoCov M x m / sumSq M x : ℚ) + S := by
    have e1 : (fun i : ℕ => ((((a + i * p : ℤ) : ℚ) * pow2 e : ℚ) : ℝ)) = fun i : ℕ => (((a : ℚ) * pow2 e : ℚ) : ℝ) + i * (((p : ℚ) * pow2 e : ℚ) : ℝ) := by
      funext i; push_cast; ring
    have e2 : ((((-(m * p) : ℤ) : ℚ) * pow2 e : ℚ) : ℝ) = -(m * (((p : ℚ) * pow2 e : ℚ) : ℝ)) := by push_cast; ring
    unfold gaussAcf
    rw [e1, e2, heq, add_div, sumSq_cast, Rat.cast_div, hS]
    congr 2
    · unfold autoCov
      push_cast
      exact sum_congr rfl fun i _ => by rw [dev_cast, dev_cast]
    · refine sum_congr rfl fun i _ => ?_
      rw [dev_cast, dev_cast, mul_assoc]
      unfold weight
      rw [if_pos rfl]
      push_cast
      rfl
  rw [hρ] at h2
  refine ⟨v, v', h1, h1', ?_⟩
  have hρ1 := autoCov_le (x := x) hm hN.ne'
  have hρ2 : |((autoCov M x m / sumSq M x : ℚ) : ℝ)| ≤ 1 := by exact_mod_cast abs_le_cast.2 hρ1
  have hc : (0 : ℝ) ≤ (250 * V * (M * A ^ 2 / sumSq M x) : ℚ) := Rat.cast_nonneg.2 (by positivity)
  have h2'' : |(v' : ℝ) - (autoCov M x m / sumSq M x : ℚ)| ≤ (250 * V * (M * A ^ 2 / sumSq M x) : ℚ) * 2 := by
    have : |v' - autoCov M x m / sumSq M x| ≤ 250 * V * (M * A ^ 2 / sumSq M x) * 2 := h2'.trans (by linarith)
    exact_mod_cast this
  generalize ((autoCov M x m / sumSq M x : ℚ) : ℝ) = ρ at *
  generalize ((250 * V * (M * A ^ 2 / sumSq M x) : ℚ) : ℝ) = c at *
  have e1 : (v : ℝ) - v' - S = (v - (ρ + S)) - (v' - ρ) := by ring
  have e2 := abs_add_le ρ S
  rw [e1]
  refine (abs_sub _ _).trans ?_
  nlinarith

/-- **C79 in binary64, Gaussian weight**. -/
theorem C79_binary64_gaussian (ht : Times64 d M τ e) (ht' : Times64 d' M τ e) (hv : Values64 d M j x A V) (hv' : Values64 d' M j' y A' V')
    (hg : GaussRun64 d ga r α e) (hg' : GaussRun64 d' ga' r' α e)
    (n n' : ℕ) (k : ℤ) (hn : r.lags[n]? = some (.fin (k * pow2 e))) (hn' : r'.lags[n']? = some (.fin (k * pow2 e)))
    (hk : |k| + (τ (M - 1) - τ 0) ≤ 2 ^ 53) (s : ℕ → ℕ) (hs : Selects M (fun i => (τ i : ℚ) * pow2 e) (k * pow2 e) s) (β : ℚ) (hβ : 0 ≤ β)
    (hB : ∀ i' < M, (((range M).filter fun i => (τ i : ℚ) * pow2 e + k * pow2 e ≤ (τ (M - 1) : ℚ) * pow2 e ∧ s i = i').card : ℚ) ≤ β ^ 2)
    (q : ℚ) (hq : 0 ≤ q) (hq1 : q < 1) (hxy : ∑ i ∈ range M, (y i - x i) ^ 2 ≤ q ^ 2 * sumSq M x) :
    ∃ v v' : ℚ, r.At j n (.fin (k * pow2 e)) (.fin v) ∧ r'.At j' n' (.fin (k * pow2 e)) (.fin v') ∧
      |v' - v| ≤ β * (4 * q + 2 * q ^ 2) / (1 - q) ^ 2
        + 250 * (V * (M * A ^ 2 / sumSq M x) + V' * (M * A' ^ 2 / sumSq M y)) * (1 + β) := by
  obtain ⟨hN, _⟩ := hv.pos ht
  obtain ⟨hN', _⟩ := hv'.pos ht'
  obtain ⟨v, h1, h2⟩ := gauss64_le ht hv hg hn hk hs (gauss_le hN hs hβ hB)
  obtain ⟨v', h1', h2'⟩ := gauss64_le ht' hv' hg' hn' hk hs (gauss_le hN' hs hβ hB)
  have h3 : |gaussAcf M τ e y α s k - gaussAcf M τ e x α s k| ≤ (β * (4 * q + 2 * q ^ 2) / (1 - q) ^ 2 : ℚ) := by
    have := sacf_noise (w := weight Real.exp "gaussian" (α : ℝ)) (x := fun i => (x i : ℝ)) (y := fun i => (y i : ℝ)) (q := (q : ℝ)) (β := (β : ℝ))
      (fun y _ => gauss_bounds _ y) (fun i hi hk => (selects_cast hs i hi hk).1) (by exact_mod_cast hβ) (fun n hn => by
        rw [filter_cast' (fun i => (τ i : ℚ) * pow2 e)]
        exact_mod_cast hB n hn) (by rw [sumSq_cast]; exact_mod_cast hN.ne') (by exact_mod_cast hq) (by exact_mod_cast hq1)
      (by rw [sumSq_cast]; exact_mod_cast hxy)
    unfold gaussAcf
    push_cast at this ⊢
    exact this
  refine ⟨v, v', h1, h1', ?_⟩
  have t1 := abs_sub_le (v' : ℝ) (gaussAcf M τ e y α s k) v
  have t2 := abs_sub_le (gaussAcf M τ e y α s k) (gaussAcf M τ e x α s k) v
  rw [abs_sub_comm (gaussAcf M τ e x α s k) (v : ℝ)] at t2
  have h5 : |(v' : ℝ) - v| ≤ (250 * V' * (M * A' ^ 2 / sumSq M y) * (1 + β) : ℚ) + ((β * (4 * q + 2 * q ^ 2) / (1 - q) ^ 2 : ℚ)
      + (250 * V * (M * A ^ 2 / sumSq M x) * (1 + β) : ℚ)) := by linarith
  have h6 : |v' - v| ≤ 250 * V' * (M * A' ^ 2 / sumSq M y) * (1 + β) + (β * (4 * q + 2 * q ^ 2) / (1 - q) ^ 2
      + 250 * V * (M * A ^ 2 / sumSq M x) * (1 + β)) := by exact_mod_cast h5
  linarith

end binary64

/-! ### cases -/

/-- an exponential function accurate to `2^-53`, which the cases below use -/
theorem lib_exists : ∃ ex : ℚ → ℚ, ∀ x : ℚ, x ≤ 0 → |(ex x : ℝ) - Real.exp x| ≤ (pow2 (-53) : ℚ) := by
  obtain ⟨ex, _, hex⟩ := exists_expLike (show 0 < pow2 (-53) from pow2_pos _)
  refine ⟨ex, fun x hx => (hex x hx).trans ?_⟩
  have : pow2 (-53) / 2 ≤ pow2 (-53) := by have := pow2_pos (-53); linarith
  exact_mod_cast this

/-- times 0, 1, 3 with any values -/
theorem gauss_case {ex : ℚ → ℚ} (hex : ∀ x : ℚ, x ≤ 0 → |(ex x : ℝ) - Real.exp x| ≤ (pow2 (-53) : ℚ)) (y : ℕ → ℚ) (α : ℚ)
    (h1 : pow2 (0 - 400) ≤ α) (h2 : pow2 (-500) ≤ α) (h3 : α ≤ pow2 500) : ∃ (d : DS (D64 ex true)) (r : AcResult (D64 ex true)),
    Times64 d 3 eT 0 ∧ d.HasRow 0 (samples 3 y) ∧ GaussRun64 d { alpha := some (.fin α) } r α 0 ∧
    ∀ k : ℤ, -3 ≤ k → k ≤ 3 → ∃ n : ℕ, r.lags[n]? = some (.fin (k * pow2 0)) := by
  obtain ⟨d, r, _, hc, ht, hrow, hr, hα, hlags⟩ := irregular_case (ex := ex) (fu := true) y (wt := "gaussian") (by unfold KnownWeight; simp) α
  exact ⟨d, r, case_times hc ht, hrow, ⟨hr, hα, h1, h2, h3, by norm_num, hex⟩, hlags⟩

/-- C25_binary64_gaussian, C27_binary64_gaussian and C33_binary64_gaussian_partial: values 1, 2, 4 and -2, 0, 4, lags 0 and 2 -/
example : ∃ (ex : ℚ → ℚ) (r r' : AcResult (D64 ex true)), (∃ (n : ℕ) (v : ℚ), r.At 0 n (.fin 0) (.fin v) ∧ |v - 1| ≤ 1 / 2000) ∧
    (∃ (n n' : ℕ) (v v' : ℚ), r.At 0 n (.fin 2) (.fin v) ∧ r'.At 0 n' (.fin 2) (.fin v') ∧ |v - v'| ≤ 1 / 1000) ∧
    ∃ (n : ℕ) (v : ℚ), r.At 0 n (.fin 2) (.fin v) ∧ |v| ≤ 3/2 + 1 / 1000 := by
  obtain ⟨ex, hex⟩ := lib_exists
  obtain ⟨d, r, ht, hrow, hg, hlags⟩ := gauss_case hex eY 1 (by decide +kernel) (by decide +kernel) (by decide +kernel)
  obtain ⟨d', r', ht', hrow', hg', hlags'⟩ := gauss_case hex eZ 1 (by decide +kernel) (by decide +kernel) (by decide +kernel)
  obtain ⟨n0, hn0⟩ := hlags 0 (by norm_num) (by norm_num)
  obtain ⟨n, hn⟩ := hlags 2 (by norm_num) (by norm_num)
  obtain ⟨n', hn'⟩ := hlags' 2 (by norm_num) (by norm_num)
  obtain ⟨v, h1, h2⟩ := C25_binary64_gaussian ht (case_values hrow) (by decide) hg n0 (by simpa using hn0)
  obtain ⟨u, u', h3, h4, h5⟩ := C27_binary64_gaussian ht ht' (case_values hrow) (case_values' hrow') 2 (-4) (by norm_num) (by decide +kernel) hg hg' n n' 2 hn hn'
    (by decide) _ irregular_selects (3/2) (by norm_num) (by decide +kernel)
  obtain ⟨w, h6, h7⟩ := C33_binary64_gaussian_partial ht (case_values hrow) hg n 2 hn (by decide) (3/2) (by norm_num) _ irregular_selects (by decide +kernel)
  exact ⟨ex, r, r', ⟨n0, v, h1, h2.trans (by decide +kernel)⟩,
    ⟨n, n', u, u', by simpa [pow2_zero] using h3, by simpa [pow2_zero] using h4, h5.trans (by decide +kernel)⟩,
    n, w, by simpa [pow2_zero] using h6, h7.trans (by decide +kernel)⟩

/-- C75_binary64_gaussian: values 4, 1, 4, lag 3 -/
example : ∃ (ex : ℚ → ℚ) (r : AcResult (D64 ex true)) (n : ℕ) (v : ℚ), r.At 0 n (.fin 3) (.fin v) ∧ |v - 1/6| ≤ pow2 (-35) := by
  obtain ⟨ex, hex⟩ := lib_exists
  obtain ⟨d, r, ht, hrow, hg, hlags⟩ := gauss_case hex eR 1 (by decide +kernel) (by decide +kernel) (by decide +kernel)
  obtain ⟨n, hn⟩ := hlags 3 (by norm_num) (by norm_num)
  have hv : Values64 d 3 0 eR 4 (pow2 (-51)) := ⟨hrow, by decide +kernel, by decide +kernel,
    by decide +kernel, by decide +kernel, by decide +kernel, .inr (by decide +kernel), by decide +kernel⟩
  obtain ⟨v, h1, h2⟩ := C75_binary64_gaussian ht hv hg n 3 hn (by decide) (by decide +kernel)
  have e1 : (∑ i ∈ range 3 with eT i + 3 ≤ eT (3 - 1), dev 3 eR i ^ 2) / sumSq 3 eR = 1/6 := by decide +kernel
  rw [e1] at h2
  exact ⟨ex, r, n, v, by simpa [pow2_zero] using h1, h2.trans (by decide +kernel)⟩

/-- C77_binary64_large_gaussian and C77_binary64_small_gaussian: values 1, 2, 4, lag 2, `alpha` 64 and 1/64 -/
example : ∃ (ex : ℚ → ℚ) (r r' : AcResult (D64 ex true)) (n n' : ℕ) (v v' : ℚ), r.At 0 n (.fin 2) (.fin v) ∧ |v - (-25/42)| ≤ 1 / 500 ∧
    r'.At 0 n' (.fin 2) (.fin v') ∧ |v' - (-5/42)| ≤ 1 / 500 := by
  obtain ⟨ex, hex⟩ := lib_exists
  obtain ⟨d, r, ht, hrow, hg, hlags⟩ := gauss_case hex eY 64 (by decide +kernel) (by decide +kernel) (by decide +kernel)
  obtain ⟨d', r', ht', hrow', hg', hlags'⟩ := gauss_case hex eY (1/64) (by decide +kernel) (by decide +kernel) (by decide +kernel)
  obtain ⟨n, hn⟩ := hlags 2 (by norm_num) (by norm_num)
  obtain ⟨n', hn'⟩ := hlags' 2 (by norm_num) (by norm_num)
  obtain ⟨v, h1, h2⟩ := C77_binary64_large_gaussian ht (case_values hrow) hg n 2 hn (by decide) _ irregular_selects 1 (by decide +kernel) (3/2) (by norm_num)
    (by decide +kernel)
  obtain ⟨v', h3, h4⟩ := C77_binary64_small_gaussian ht' (case_values hrow') hg' n' 2 hn' (by decide) _ irregular_selects (3/2) (by norm_num) (by decide +kernel)
  have e1 : sacf 3 (fun i => (eT i : ℚ) * pow2 0) eY (fun _ => 1) (fun _ => 2) (sumSq 3 eY) ((2 : ℤ) * pow2 0) = -25/42 := by decide +kernel
  have e2 : sacf 3 (fun i => (eT i : ℚ) * pow2 0) eY (fun δ => if δ = 0 then 1 else 0) (fun _ => 2) (sumSq 3 eY) ((2 : ℤ) * pow2 0) = -5/42 := by
    decide +kernel
  rw [e1] at h2
  rw [e2] at h4
  exact ⟨ex, r, r', n, n', v, v', by simpa [pow2_zero] using h1, h2.trans (by decide +kernel), by simpa [pow2_zero] using h3, h4.trans (by decide +kernel)⟩

/-- values 1, 2, 33/8 -/
def eW (i : ℕ) : ℚ := [1, 2, 33/8].getD i 0

/-- C79_binary64_gaussian: values 1, 2, 4 and 1, 2, 4.125, lag 2 -/
example : ∃ (ex : ℚ → ℚ) (r r' : AcResult (D64 ex true)) (n n' : ℕ) (v v' : ℚ), r.At 0 n (.fin 2) (.fin v) ∧ r'.At 0 n' (.fin 2) (.fin v') ∧
    |v' - v| ≤ 1/2 := by
  obtain ⟨ex, hex⟩ := lib_exists
  obtain ⟨d, r, ht, hrow, hg, hlags⟩ := gauss_case hex eY 1 (by decide +kernel) (by decide +kernel) (by decide +kernel)
  obtain ⟨d', r', ht', hrow', hg', hlags'⟩ := gauss_case hex eW 1 (by decide +kernel) (by decide +kernel) (by decide +kernel)
  obtain ⟨n, hn⟩ := hlags 2 (by norm_num) (by norm_num)
  obtain ⟨n', hn'⟩ := hlags' 2 (by norm_num) (by norm_num)
  have hv' : Values64 d' 3 0 eW 8 (pow2 (-51)) := ⟨hrow', by decide +kernel, by decide +kernel,
    by decide +kernel, by decide +kernel, by decide +kernel, .inr (by decide +kernel), by decide +kernel⟩
  obtain ⟨v, v', h1, h2, h3⟩ := C79_binary64_gaussian ht ht' (case_values hrow) hv' hg hg' n n' 2 hn hn' (by decide) _ irregular_selects (3/2) (by norm_num)
    (by decide +kernel) (3/50) (by norm_num) (by norm_num) (by decide +kernel)
  exact ⟨ex, r, r', n, n', v, v', by simpa [pow2_zero] using h1, by simpa [pow2_zero] using h2, h3.trans (by decide +kernel)⟩

/-- times 0, 1000, 3400 -/
def fT (i : ℕ) : ℤ := [0, 1000, 3400].getD i 0
/-- times 0, 1000, 3401 -/
def fT' (i : ℕ) : ℤ := [0, 1000, 3401].getD i 0

/-- increasing times whose smallest gap is `δ`, values 1, 2, 4, `alpha = 1024` -/
theorem gauss_default {ex : ℚ → ℚ} (hex : ∀ x : ℚ, x ≤ 0 → |(ex x : ℝ) - Real.exp x| ≤ (pow2 (-53) : ℚ)) (τ : ℕ → ℤ) (hinc : IncreasingZ 3 τ)
    (δ : ℤ) (hδ : IsMinGapZ 3 τ δ) (hs : 2 * (τ 2 - τ 0) ≤ 10000) (hC : 2 * (τ 2 - τ 0) ≤ 100 * δ) : ∃ (d : DS (D64 ex true)) (r : AcResult (D64 ex true)),
    Times64 d 3 τ 0 ∧ d.HasRow 0 (samples 3 eY) ∧ GaussRun64 d { alpha := some (.fin 1024) } r 1024 0 ∧
    ∀ n : ℕ, -(τ 2 - τ 0) + n * δ ≤ τ 2 - τ 0 → ∃ m : ℕ, r.lags[m]? = some (.fin ((-(τ 2 - τ 0) + n * δ : ℤ) * pow2 0)) := by
  obtain ⟨d, hd, ht, hrow, _⟩ := C03_round_trip (F := D64 ex true) (samples 3 fun i => (τ i : ℚ) * pow2 0) [samples 3 eY]
    (by simp [samples]) (by simp) (by simp [Rect, samples])
  have hc : Constructed d := .table hd
  obtain ⟨r, hr, ks, hl, _, hmem⟩ := C60_default_lags (exactUnit64 (ex := ex) (fu := true) 0 (by norm_num) (by norm_num)) d hc 3 τ ht
    (by norm_num) hinc δ hδ (hs.trans (by norm_num)) 100 hC (by norm_num) (fun n hn => round_int64 n (by norm_num at hn ⊢; omega)) (some (.fin 1024)) "gaussian"
    (by unfold KnownWeight; simp)
  refine ⟨d, r, ⟨hc, ht, hinc, by norm_num, by norm_num, by norm_num, by norm_num⟩, ⟨_, hrow, rfl⟩,
    ⟨hr, (result_params hc.wf hr).2.2.2, by decide +kernel, by decide +kernel, by decide +kernel, by norm_num, hex⟩, fun n hn => ?_⟩
  refine List.mem_iff_getElem?.1 ?_
  rw [hl]
  exact List.mem_map_of_mem ((hmem _).2 (.inl ⟨n, hn, rfl⟩))

/-- C78_binary64_gaussian_partial: the last time moved from 3400 to 3401; the lags -3400 + 4 · 1000 = 600 and -3401 + 4 · 1000 = 599 -/
example : ∃ (ex : ℚ → ℚ) (r r' : AcResult (D64 ex true)) (n n' : ℕ) (v v' : ℚ), r.At 0 n (.fin 600) (.fin v) ∧ r'.At 0 n' (.fin 599) (.fin v') ∧
    |v - v'| ≤ 1/200 := by
  obtain ⟨ex, hex⟩ := lib_exists
  obtain ⟨d, r, ht, hrow, hg, hlags⟩ := gauss_default hex fT (by intro i j hij hj; interval_cases j <;> interval_cases i <;> decide) 1000
    ⟨⟨0, 1, by decide⟩, fun i j hij hj => by interval_cases j <;> interval_cases i <;> decide⟩ (by decide) (by decide)
  obtain ⟨d', r', ht', hrow', hg', hlags'⟩ := gauss_default hex fT' (by intro i j hij hj; interval_cases j <;> interval_cases i <;> decide) 1000
    ⟨⟨0, 1, by decide⟩, fun i j hij hj => by interval_cases j <;> interval_cases i <;> decide⟩ (by decide) (by decide)
  obtain ⟨n, hn⟩ := hlags 4 (by decide)
  obtain ⟨n', hn'⟩ := hlags' 4 (by decide)
  obtain ⟨v, v', h1, h2, h3⟩ := C78_binary64_gaussian_partial ht ht' (case_values hrow) hrow' hg hg' n n' 600 599 hn hn' (by decide) (by decide) 1
    (by decide +kernel) (fun _ => 1) (by
      unfold Selects IsNearest
      decide +kernel) (by decide +kernel) (by
      intro i hi
      have : i < 2 := by omega
      interval_cases i <;> decide +kernel) (by decide) 601 (by decide +kernel) (3/2) (by norm_num) (by decide +kernel)
  exact ⟨ex, r, r', n, n', v, v', by simpa [pow2_zero] using h1, by simpa [pow2_zero] using h2, h3.trans (by decide +kernel)⟩

/-- C30_binary64_gaussian and C31_binary64_gaussian_partial: times 5, 8, 11, lags 3 and -3 -/
example : ∃ (ex : ℚ → ℚ) (r : AcResult (D64 ex true)) (n n' : ℕ), (∃ v : ℚ, r.At 0 n' (.fin 3) (.fin v) ∧ |v - -1/42| ≤ 1 / 2000) ∧
    ∃ v v' : ℚ, r.At 0 n (.fin (-3)) (.fin v) ∧ r.At 0 n' (.fin 3) (.fin v') ∧
      |(v : ℝ) - v' - Real.exp (-(9 / 2097152 : ℚ)) * (8 / 21 : ℚ)| ≤ 1 / 500 := by
  obtain ⟨ex, hex⟩ := lib_exists
  obtain ⟨d, r, ht, hrow, hg, hlags⟩ := gauss_default hex (fun i => 5 + i * 3) (fun i j hij _ => by simp only; omega) 3
    ⟨⟨0, 1, by decide⟩, fun i j hij hj => by simp only; omega⟩ (by decide) (by decide)
  obtain ⟨n, hn⟩ := hlags 1 (by decide)
  obtain ⟨n', hn'⟩ := hlags 3 (by decide)
  obtain ⟨v, h1, h2⟩ := C30_binary64_gaussian 5 3 (by norm_num) ht (case_values hrow) hg n' 1 (by norm_num) (by norm_num) hn'
  obtain ⟨u, u', h3, h4, h5⟩ := C31_binary64_gaussian_partial 5 3 (by norm_num) ht (case_values hrow) hg n n' 1 (by norm_num) (by norm_num) hn hn' _ rfl
  have e0 : (((1 : ℕ) * 3 : ℤ) : ℚ) * pow2 0 = 3 := by decide +kernel
  have e0' : ((-((1 : ℕ) * 3) : ℤ) : ℚ) * pow2 0 = -3 := by decide +kernel
  rw [e0] at h1 h4
  rw [e0'] at h3
  have e1 : autoCov 3 eY 1 / sumSq 3 eY = -1/42 := by decide +kernel
  rw [e1] at h2
  refine ⟨ex, r, n, n', ⟨v, h1, h2.trans (by decide +kernel)⟩, u, u', h3, h4, ?_⟩
  have e2 : (∑ i ∈ range 1, Real.exp (-((((1 - i : ℕ) : ℚ) * (((3 : ℤ) : ℚ) * pow2 0)) ^ 2 / (2 * 1024 ^ 2) : ℚ)) * ((dev 3 eY i * dev 3 eY 0 : ℚ) : ℝ)) / ((sumSq 3 eY : ℚ) : ℝ)
      = Real.exp (-(9 / 2097152 : ℚ)) * (8 / 21 : ℚ) := by
    rw [Finset.sum_range_one, show dev 3 eY 0 = -4/3 by decide +kernel, show sumSq 3 eY = 14/3 by decide +kernel,
      show (((1 - 0 : ℕ) : ℚ) * (((3 : ℤ) : ℚ) * pow2 0)) ^ 2 / (2 * 1024 ^ 2) = 9 / 2097152 by decide +kernel]
    push_cast
    ring
  rw [e2] at h5
  refine h5.trans ?_
  have e3 : (250 * pow2 (-24) * ((3 : ℕ) * 4 ^ 2 / sumSq 3 eY) : ℚ) ≤ 1 / 4000 := by decide +kernel
  have e4 : ((250 * pow2 (-24) * ((3 : ℕ) * 4 ^ 2 / sumSq 3 eY) : ℚ) : ℝ) ≤ 1 / 4000 := by
    have := (Rat.cast_le (K := ℝ)).2 e3
    norm_num at this ⊢
    exact this
  have e5 : |Real.exp (-((9 / 2097152 : ℚ) : ℝ)) * ((8 / 21 : ℚ) : ℝ)| ≤ 1 := by
    have h1 := Real.exp_pos (-((9 / 2097152 : ℚ) : ℝ))
    have h2 : Real.exp (-((9 / 2097152 : ℚ) : ℝ)) ≤ 1 := Real.exp_le_one_iff.2 (by norm_num)
    rw [abs_of_nonneg (by positivity)]
    push_cast
    linarith
  have := mul_le_mul e4 (add_le_add (le_refl (4 : ℝ)) e5) (by positivity) (by norm_num)
  linarith

end Sacf
