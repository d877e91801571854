import Verif.Props.Classical
import Verif.Props.Sampling

/-!
# Sums of signals in binary64 at any times and with any weight (C94)
-/

set_option linter.unusedSectionVars false

namespace Sacf

open Finset

variable {ex : ℚ → ℚ} {fu : Bool} {d₁ d₂ d₃ d₄ : DS (D64 ex fu)} {ga₁ ga₂ ga₃ ga₄ : LagArgs (D64 ex fu)} {r₁ r₂ r₃ r₄ : AcResult (D64 ex fu)} {wt : String}
  {M j₁ j₂ j₃ j₄ : ℕ} {τ : ℕ → ℤ} {e : ℤ} {x y z u : ℕ → ℚ} {A₁ A₂ A₃ A₄ V₁ V₂ V₃ V₄ α : ℚ}

/-- the error of a value times its normaliser -/
theorem scaled64 {d : DS (D64 ex fu)} {ga : LagArgs (D64 ex fu)} {r : AcResult (D64 ex fu)} {j : ℕ} {A V : ℚ}
    (ht : Times64 d M τ e) (hv : Values64 d M j x A V) (hr : Run64 d ga wt r α e)
    {n : ℕ} {k : ℤ} (hn : r.lags[n]? = some (.fin (k * pow2 e))) (hk : |k| + (τ (M - 1) - τ 0) ≤ 2 ^ 53)
    {s : ℕ → ℕ} (hs : Selects M (fun i => (τ i : ℚ) * pow2 e) (k * pow2 e) s) {β : ℚ} (hβ : 0 ≤ β)
    (hB : ∀ i' < M, (((range M).filter fun i => (τ i : ℚ) * pow2 e + k * pow2 e ≤ (τ (M - 1) : ℚ) * pow2 e ∧ s i = i').card : ℚ) ≤ β ^ 2) :
    ∃ v : ℚ, r.At j n (.fin (k * pow2 e)) (.fin v) ∧
      |(v : ℝ) * (sumSq M x : ℚ) - sacf M (fun i => ((τ i * pow2 e : ℚ) : ℝ)) (fun i => (x i : ℝ)) (weight Real.exp wt (α : ℝ)) s 1 ((k * pow2 e : ℚ) : ℝ)|
        ≤ (250 * M * (V * A ^ 2) * (1 + β) : ℚ) := by
  obtain ⟨hN, hV0⟩ := hv.pos ht
  obtain ⟨v, h1, h2⟩ := real64_le ht hv hr hn hk hs hβ hB
  refine ⟨v, h1, ?_⟩
  have hN' : (0 : ℝ) < (sumSq M x : ℚ) := by exact_mod_cast hN
  have e1 : sacf M (fun i => ((τ i * pow2 e : ℚ) : ℝ)) (fun i => (x i : ℝ)) (weight Real.exp wt (α : ℝ)) s 1 ((k * pow2 e : ℚ) : ℝ)
      = realAcf M τ e x wt α s k * (sumSq M x : ℚ) := by
    unfold realAcf
    rw [sumSq_cast, sacf_one_mul hN'.ne']
  rw [e1, ← sub_mul, abs_mul, abs_of_pos hN']
  refine (mul_le_mul_of_nonneg_right h2 hN'.le).trans_eq ?_
  rw [← Rat.cast_mul]
  congr 1
  field_simp

/-- **C94 in binary64, any times, lags, weights and `alpha`**: the value of `x + y` times its sum of squares is the sum of those of `x` and `y` plus the cross terms (over the
reals, with the real exponential), up to the rounding errors. -/
theorem C94_binary64_irregular (t₁ : Times64 d₁ M τ e) (t₂ : Times64 d₂ M τ e) (t₃ : Times64 d₃ M τ e) (v₁ : Values64 d₁ M j₁ x A₁ V₁)
    (v₂ : Values64 d₂ M j₂ y A₂ V₂) (v₃ : Values64 d₃ M j₃ z A₃ V₃) (h₁ : Run64 d₁ ga₁ wt r₁ α e) (h₂ : Run64 d₂ ga₂ wt r₂ α e) (h₃ : Run64 d₃ ga₃ wt r₃ α e)
    (hz : ∀ i < M, z i = x i + y i) (k : ℤ) (n₁ n₂ n₃ : ℕ) (l₁ : r₁.lags[n₁]? = some (.fin (k * pow2 e))) (l₂ : r₂.lags[n₂]? = some (.fin (k * pow2 e)))
    (l₃ : r₃.lags[n₃]? = some (.fin (k * pow2 e))) (hk : |k| + (τ (M - 1) - τ 0) ≤ 2 ^ 53)
    (s : ℕ → ℕ) (hs : Selects M (fun i => (τ i : ℚ) * pow2 e) (k * pow2 e) s) (β : ℚ) (hβ : 0 ≤ β)
    (hB : ∀ i' < M, (((range M).filter fun i => (τ i : ℚ) * pow2 e + k * pow2 e ≤ (τ (M - 1) : ℚ) * pow2 e ∧ s i = i').card : ℚ) ≤ β ^ 2) :
    ∃ a b c : ℚ, r₁.At j₁ n₁ (.fin (k * pow2 e)) (.fin a) ∧ r₂.At j₂ n₂ (.fin (k * pow2 e)) (.fin b) ∧ r₃.At j₃ n₃ (.fin (k * pow2 e)) (.fin c) ∧
      |((c * sumSq M z - (a * sumSq M x + b * sumSq M y) : ℚ) : ℝ) - ∑ i ∈ range M with (τ i : ℚ) * pow2 e + k * pow2 e ≤ (τ (M - 1) : ℚ) * pow2 e,
          weight Real.exp wt (α : ℝ) ((|(τ (s i) : ℚ) * pow2 e - (τ i * pow2 e + k * pow2 e)| : ℚ) : ℝ)
            * ((dev M x i * dev M y (s i) + dev M y i * dev M x (s i) : ℚ) : ℝ)|
        ≤ (250 * M * (V₁ * A₁ ^ 2 + V₂ * A₂ ^ 2 + V₃ * A₃ ^ 2) * (1 + β) : ℚ) := by
  obtain ⟨a, a1, a2⟩ := scaled64 t₁ v₁ h₁ l₁ hk hs hβ hB
  obtain ⟨b, b1, b2⟩ := scaled64 t₂ v₂ h₂ l₂ hk hs hβ hB
  obtain ⟨c, c1, c2⟩ := scaled64 t₃ v₃ h₃ l₃ hk hs hβ hB
  refine ⟨a, b, c, a1, b1, c1, ?_⟩
  rw [sacf_add (x := fun i => (x i : ℝ)) (y := fun i => (y i : ℝ)) (selects_cast hs) (fun i hi => by rw [hz i hi]; push_cast; rfl)] at c2
  have e1 : crossSum M (fun i => ((τ i * pow2 e : ℚ) : ℝ)) (fun i => (x i : ℝ)) (fun i => (y i : ℝ)) (weight Real.exp wt (α : ℝ)) s ((k * pow2 e : ℚ) : ℝ)
      = ∑ i ∈ range M with (τ i : ℚ) * pow2 e + k * pow2 e ≤ (τ (M - 1) : ℚ) * pow2 e,
          weight Real.exp wt (α : ℝ) ((|(τ (s i) : ℚ) * pow2 e - (τ i * pow2 e + k * pow2 e)| : ℚ) : ℝ)
            * ((dev M x i * dev M y (s i) + dev M y i * dev M x (s i) : ℚ) : ℝ) := by
    unfold crossSum
    rw [filter_cast (fun i => (τ i : ℚ) * pow2 e)]
    refine sum_congr rfl fun i _ => ?_
    rw [dev_cast, dev_cast, dev_cast, dev_cast]
    push_cast
    ring
  rw [e1] at c2
  rw [abs_le] at a2 b2 c2 ⊢
  push_cast at a2 b2 c2 ⊢
  constructor <;> linarith

/-- **C94 in binary64, sum and difference** at any times, lags, weights and `alpha`. -/
theorem C94_binary64_parallelogram (t₁ : Times64 d₁ M τ e) (t₂ : Times64 d₂ M τ e) (t₃ : Times64 d₃ M τ e) (t₄ : Times64 d₄ M τ e) (v₁ : Values64 d₁ M j₁ x A₁ V₁)
    (v₂ : Values64 d₂ M j₂ y A₂ V₂) (v₃ : Values64 d₃ M j₃ z A₃ V₃) (v₄ : Values64 d₄ M j₄ u A₄ V₄) (h₁ : Run64 d₁ ga₁ wt r₁ α e) (h₂ : Run64 d₂ ga₂ wt r₂ α e)
    (h₃ : Run64 d₃ ga₃ wt r₃ α e) (h₄ : Run64 d₄ ga₄ wt r₄ α e) (hz : ∀ i < M, z i = x i + y i) (hu : ∀ i < M, u i = x i - y i) (k : ℤ) (n₁ n₂ n₃ n₄ : ℕ)
    (l₁ : r₁.lags[n₁]? = some (.fin (k * pow2 e))) (l₂ : r₂.lags[n₂]? = some (.fin (k * pow2 e)))
    (l₃ : r₃.lags[n₃]? = some (.fin (k * pow2 e))) (l₄ : r₄.lags[n₄]? = some (.fin (k * pow2 e))) (hk : |k| + (τ (M - 1) - τ 0) ≤ 2 ^ 53)
    (s : ℕ → ℕ) (hs : Selects M (fun i => (τ i : ℚ) * pow2 e) (k * pow2 e) s) (β : ℚ) (hβ : 0 ≤ β)
    (hB : ∀ i' < M, (((range M).filter fun i => (τ i : ℚ) * pow2 e + k * pow2 e ≤ (τ (M - 1) : ℚ) * pow2 e ∧ s i = i').card : ℚ) ≤ β ^ 2) :
    ∃ a b c f : ℚ, r₁.At j₁ n₁ (.fin (k * pow2 e)) (.fin a) ∧ r₂.At j₂ n₂ (.fin (k * pow2 e)) (.fin b) ∧ r₃.At j₃ n₃ (.fin (k * pow2 e)) (.fin c) ∧
      r₄.At j₄ n₄ (.fin (k * pow2 e)) (.fin f) ∧
      |c * sumSq M z + f * sumSq M u - 2 * (a * sumSq M x + b * sumSq M y)|
        ≤ 250 * M * (2 * (V₁ * A₁ ^ 2) + 2 * (V₂ * A₂ ^ 2) + V₃ * A₃ ^ 2 + V₄ * A₄ ^ 2) * (1 + β) := by
  obtain ⟨a, a1, a2⟩ := scaled64 t₁ v₁ h₁ l₁ hk hs hβ hB
  obtain ⟨b, b1, b2⟩ := scaled64 t₂ v₂ h₂ l₂ hk hs hβ hB
  obtain ⟨c, c1, c2⟩ := scaled64 t₃ v₃ h₃ l₃ hk hs hβ hB
  obtain ⟨f, f1, f2⟩ := scaled64 t₄ v₄ h₄ l₄ hk hs hβ hB
  refine ⟨a, b, c, f, a1, b1, c1, f1, ?_⟩
  rw [sacf_add (x := fun i => (x i : ℝ)) (y := fun i => (y i : ℝ)) (selects_cast hs) (fun i hi => by rw [hz i hi]; push_cast; rfl)] at c2
  rw [sacf_difference (x := fun i => (x i : ℝ)) (y := fun i => (y i : ℝ)) (selects_cast hs) (fun i hi => by rw [hu i hi]; push_cast; rfl)] at f2
  rw [← Rat.cast_le (K := ℝ)]
  rw [abs_le] at a2 b2 c2 f2
  rw [Rat.cast_abs, abs_le]
  push_cast at a2 b2 c2 f2 ⊢
  constructor <;> linarith

end Sacf
