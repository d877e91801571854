import Verif.Lemmas.ErrorObs
import Verif.Props.AnyTimes
import Verif.Props.Error64

/-!
# Missing values in rounded arithmetic and in binary64 (C35)

`Props/Missing.lean` treats exact arithmetic.  Here: a missing (NaN) value that takes part makes the value at that lag NaN whatever the rounding, in
particular at every lag that is not positive; and a lag that uses no missing value has a value within the error bound of C61 and C70 of
the formula with the missing values left out of mean and normaliser.
-/

set_option linter.unusedSectionVars false
set_option linter.unusedVariables false

namespace Sacf

open Finset

/-! ### specification -/

section spec
variable {K : Type} [Field K] [LinearOrder K] [IsStrictOrderedRing K]

/-- the formula over the values that are there: the samples whose shifted time is not beyond the last time, sample `i` matched with `s i` -/
def obsAcf (M : ℕ) (t : ℕ → K) (x : ℕ → Option K) (w : K → K) (s : ℕ → ℕ) (k : K) : K :=
  (∑ i ∈ range M with t i + k ≤ t (M - 1), w |t (s i) - (t i + k)| * obsDev M x i * obsDev M x (s i)) / obsSumSq M x

/-- the same when the first `m` samples are matched -/
def obsMatched (m M : ℕ) (t : ℕ → K) (x : ℕ → Option K) (w : K → K) (s : ℕ → ℕ) (k : K) : K :=
  (∑ i ∈ range m, w |t (s i) - (t i + k)| * obsDev M x i * obsDev M x (s i)) / obsSumSq M x

end spec

/-- row `j` is `x`, some values missing; those that are there are as in `Values64` -/
structure ObsValues64 {ex : ℚ → ℚ} {fu : Bool} (d : DS (XF (Rnd.binary64 ex fu))) (M j : ℕ) (x : ℕ → Option ℚ) (A V : ℚ) : Prop where
  row : d.HasRow j (obs M x)
  bound : ∀ i < M, ∀ v, x i = some v → |v| ≤ A
  amin : pow2 (-126) ≤ A
  amax : A ≤ pow2 127
  unit : M * pow2 (-53) ≤ V
  small : 100 * V ≤ 1
  float : pow2 (-24) ≤ V ∨ ∀ i < M, ∀ v, x i = some v → roundTo 24 (-149) v = v
  spread : 122 * V * (M * A ^ 2) ≤ obsSumSq M x

section rounded
variable {K : Type} [Field K] [LinearOrder K] [IsStrictOrderedRing K] [FloorRing K] {R : Rnd K} {u η big V A : K} {M : ℕ} {t : ℕ → K}

/-! ### any rounding: one missing value makes the lag NaN -/

theorem corrValue_missing {row : List (XF R)} {i₀ : ℕ} (hi₀ : row[i₀]? = some .nan) (μ nrm : XF R) {ps : List (XF R × ℕ)} {i : ℕ} {p : XF R × ℕ}
    (hp : ps[i]? = some p) (h : i = i₀ ∨ p.2 = i₀) : corrValue (row.map fun v => Arith.sub v μ) nrm ps = .nan := by
  have hn : (row.map fun v => Arith.sub v μ)[i₀]? = some .nan := by
    rw [List.getElem?_map, hi₀, Option.map_some, sub_nan_left]
  refine corrValue_nan _ _ _ i p hp ?_
  rcases h with rfl | rfl
  · exact Or.inl hn
  · exact Or.inr hn

/-- the computed distance of sample `n` from sample `i` shifted by `k` -/
def computedDist (R : Rnd K) (t : ℕ → K) (k : K) (i n : ℕ) : XF R :=
  Arith.fabs (Arith.sub (Arith.add (Arith.sub (.fin (t i)) (.fin (t 0))) (.fin k)) (Arith.sub (.fin (t n)) (.fin (t 0))))

/-- the normalised times of a dataset with times in order and a span that does not overflow -/
theorem normT_fin {d : DS (XF R)} (hd : Constructed d) (ht : d.timeseries = samples M t) (hinc : InOrder M t) {T : K}
    (hT : (XF.round (t (M - 1) - t 0) : XF R) = .fin T) :
    0 < M ∧ ∃ y : ℕ → K, (∀ i < M, (XF.round (t i - t 0) : XF R) = .fin (y i)) ∧ d.normT = samples M y ∧ InOrder M y := by
  obtain ⟨hM0, hnt⟩ := normT_rounded hd ht
  have hfin : ∀ i, ∃ y, i < M → (XF.round (t i - t 0) : XF R) = .fin y := by
    intro i
    by_cases hi : i < M
    · have a1 := round_mono (R := R) (show 0 ≤ t i - t 0 by have := hinc 0 i (Nat.zero_le _) hi; linarith)
      have a2 := round_mono (R := R) (show t i - t 0 ≤ t (M - 1) - t 0 by have := hinc i (M - 1) (by omega) (by omega); linarith)
      rw [round_zero] at a1
      rw [hT] at a2
      cases hr : (XF.round (t i - t 0) : XF R) with
      | nan => exact absurd hr (round_ne_nan _)
      | ninf => rw [hr] at a1; simp [XF.le] at a1
      | pinf => rw [hr] at a2; simp [XF.le] at a2
      | fin y => exact ⟨y, fun _ => rfl⟩
    · exact ⟨0, fun h => absurd h hi⟩
  choose y hy using hfin
  refine ⟨hM0, y, hy, ?_, inOrder_round hinc hy⟩
  rw [hnt]
  unfold samples
  apply List.map_congr_left
  intro i hi
  exact hy i (List.mem_range.1 hi)

theorem hasRow_length {d : DS (XF R)} (hd : Constructed d) (ht : d.timeseries = samples M t) {j : ℕ} {row : List (XF R)}
    (hrow : d.HasRow j row) : row.length = M := by
  obtain ⟨t', data, err, N, _, hb⟩ := hd.built
  obtain ⟨hj, he⟩ := hb.row hrow
  have := congrArg List.length he
  rw [rowOf_length hb.hsize hj] at this
  have e : t' = samples M t := by rw [← hb.ht]; exact ht
  rw [← this, e, samples_length]

theorem not_lt_of_le {x y : XF R} (h : Arith.le x y = true) : Arith.lt y x = false := by
  cases x <;> cases y <;> first | rfl | simp_all [Arith.le, Arith.lt, XF.le, XF.lt]

/-- **C35 is false of the code, whatever the rounding**: at every lag where the sample `i₀` with value NaN takes part – its computed shifted time is
not beyond the last time, or it is nearer than any other sample to one that is not – the value is NaN. -/
theorem C35_rounded_poisoned (d : DS (XF R)) (hd : Constructed d) (g : LagArgs (XF R)) (wt : String)
    (r : AcResult (XF R)) (hr : autocorrelation .fabs d g "natural" wt = .ok r)
    (hw : KnownWeight wt) (M : ℕ) (t : ℕ → K) (ht : d.timeseries = samples M t) (hinc : InOrder M t) (T : K)
    (hT : (XF.round (t (M - 1) - t 0) : XF R) = .fin T)
    (j : ℕ) (row : List (XF R)) (hrow : d.HasRow j row) (i₀ : ℕ) (hi₀ : row[i₀]? = some .nan)
    (n : ℕ) (k : K) (hn : r.lags[n]? = some (.fin k)) (i : ℕ) (hi : i < M)
    (hin : Arith.lt (Arith.sub (.fin (t (M - 1))) (.fin (t 0)) : XF R) (Arith.add (Arith.sub (.fin (t i)) (.fin (t 0))) (.fin k)) = false)
    (huse : i = i₀ ∨ ∀ l < M, l ≠ i₀ → Arith.lt (computedDist R t k i i₀) (computedDist R t k i l) = true) :
    r.At j n (.fin k) .nan := by
  obtain ⟨hM0, y, hy, hnt, hyo⟩ := normT_fin hd ht hinc hT
  obtain ⟨ps, hps, hat⟩ := result_at hd hr hrow hn
  obtain ⟨m, s, p1, p2, p3, p4⟩ := lagPlan_rounded (R := R) hM0 hyo k (planWt_fweight hw) r.corr.alpha
  rw [hnt, p4] at hps
  simp only [Res.ok.injEq] at hps
  subst hps
  have hsub : ∀ l < M, (Arith.sub (.fin (t l)) (.fin (t 0)) : XF R) = .fin (y l) := fun l hl => by
    rw [← hy l hl, sub_eq_add_neg]; rfl
  rw [hsub i hi, hsub (M - 1) (by omega)] at hin
  have him : i < m := (p2 i hi).2 hin
  rw [corrValue_missing hi₀ (i := i) _ _ (by rw [List.getElem?_map, List.getElem?_range him]; rfl) (by
    rcases huse with h | h
    · exact Or.inl h
    · right
      show s i = i₀
      by_contra hne
      have h1 := h (s i) (p3 i him).1 hne
      unfold computedDist at h1
      have hi₀M : i₀ < M ∨ M ≤ i₀ := lt_or_ge _ _
      rcases hi₀M with hi₀M | hi₀M
      · have h2 := (p3 i him).2 i₀ hi₀M
        rw [hsub i hi, hsub i₀ hi₀M, hsub _ (p3 i him).1] at h1
        exact absurd h1 (by rw [not_lt_of_le h2]; simp)
      · have hlen := hasRow_length hd ht hrow
        rw [List.getElem?_eq_none (by omega)] at hi₀
        simp at hi₀)] at hat
  exact hat

/-- **C35, whatever the rounding**: the value at every lag that is not positive is NaN as soon as the row contains one NaN. -/
theorem C35_rounded_nonpositive (d : DS (XF R)) (hd : Constructed d) (g : LagArgs (XF R)) (wt : String)
    (r : AcResult (XF R)) (hr : autocorrelation .fabs d g "natural" wt = .ok r)
    (hw : KnownWeight wt) (M : ℕ) (t : ℕ → K) (ht : d.timeseries = samples M t) (hinc : InOrder M t) (T : K)
    (hT : (XF.round (t (M - 1) - t 0) : XF R) = .fin T)
    (j : ℕ) (row : List (XF R)) (hrow : d.HasRow j row) (hnan : .nan ∈ row)
    (n : ℕ) (k : K) (hk : k ≤ 0) (hn : r.lags[n]? = some (.fin k)) : r.At j n (.fin k) .nan := by
  obtain ⟨i₀, hi₀⟩ := List.mem_iff_getElem?.1 hnan
  have hi : i₀ < M := by
    rw [← hasRow_length hd ht hrow]
    exact (List.getElem?_eq_some_iff.1 hi₀).1
  refine C35_rounded_poisoned d hd g wt r hr hw M t ht hinc T hT j row hrow i₀ hi₀ n k hn i₀ hi ?_ (Or.inl rfl)
  obtain ⟨hM0, y, hy, _, hyo⟩ := normT_fin hd ht hinc hT
  have hsub : ∀ l < M, (Arith.sub (.fin (t l)) (.fin (t 0)) : XF R) = .fin (y l) := fun l hl => by
    rw [← hy l hl, sub_eq_add_neg]; rfl
  rw [hsub _ hi, hsub (M - 1) (by omega)]
  apply not_lt_of_le
  have h1 := round_mono (R := R) (show y i₀ + k ≤ t i₀ - t 0 + (y i₀ - (t i₀ - t 0)) by linarith)
  have h2 : (XF.round (y i₀) : XF R) = .fin (y i₀) := by
    have := round_isDouble (R := R) (t i₀ - t 0)
    rw [hy i₀ hi] at this
    exact this
  rw [show t i₀ - t 0 + (y i₀ - (t i₀ - t 0)) = y i₀ by ring, h2] at h1
  refine xf_le_trans (y := .fin (y i₀)) h1 ?_
  have := hyo i₀ (M - 1) (by omega) (by omega)
  show decide (y i₀ ≤ y (M - 1)) = true
  simpa using this

/-! ### one plan -/

theorem obs_get {x : ℕ → Option K} {i : ℕ} (hi : i < M) (hx : ¬ (x i).isSome) : (obs M x : List (XF R))[i]? = some .nan := by
  have : x i = none := by simpa using hx
  unfold obs
  simp [hi, this]

/-- a plan that uses a missing value gives NaN -/
theorem plan_missing {x : ℕ → Option K} {m : ℕ} (hm : m ≤ M) {s : ℕ → ℕ} (hs : ∀ i < m, s i < M)
    (hun : ¬ ∀ i < m, (x i).isSome ∧ (x (s i)).isSome) (W : ℕ → XF R) (μ nrm : XF R) :
    corrValue ((obs M x : List (XF R)).map fun v => Arith.sub v μ) nrm ((List.range m).map fun i => (W i, s i)) = .nan := by
  push Not at hun
  obtain ⟨i, hi, hx⟩ := hun
  have hp : ((List.range m).map fun i => (W i, s i))[i]? = some (W i, s i) := by
    rw [List.getElem?_map, List.getElem?_range hi]; rfl
  by_cases h0 : (x i).isSome
  · exact corrValue_missing (obs_get (hs i hi) (hx h0)) _ _ hp (Or.inr rfl)
  · exact corrValue_missing (obs_get (show i < M by omega) h0) _ _ hp (Or.inl rfl)

theorem At_unique {r : AcResult (XF R)} {j n : ℕ} {k a b : XF R} (h1 : r.At j n k a) (h2 : r.At j n k b) : a = b := by
  obtain ⟨_, row, h1, h3⟩ := h1
  obtain ⟨_, row', h2, h4⟩ := h2
  rw [h1, Option.some.injEq] at h2
  subst h2
  rw [h3] at h4
  simpa using h4

/-! ### time stamps that are multiples of an exact unit -/

/-- the plan of natural selection at times and lag that are multiples of an exact unit, for any row -/
theorem ticks_plan {g : K} {B : ℤ} (h : ExactUnit R g B) {d : DS (XF R)} (hd : Constructed d) {τ : ℕ → ℤ}
    (ht : d.timeseries = samples M fun i => (τ i : K) * g) (hinc : IncreasingZ M τ)
    {j : ℕ} {row : List (XF R)} (hrow : d.HasRow j row) {ga : LagArgs (XF R)} {wt : String} (hw : KnownWeight wt) {r : AcResult (XF R)}
    (hr : autocorrelation .fabs d ga "natural" wt = .ok r) {n : ℕ} {k : ℤ} (hn : r.lags[n]? = some (.fin (k * g)))
    (hk : |k| + (τ (M - 1) - τ 0) ≤ B) {s : ℕ → ℕ} (hs : Selects M (fun i => (τ i : K) * g) (k * g) s) :
    ∃ m ≤ M, (∀ i < M, (i < m ↔ (τ i : K) * g + k * g ≤ (τ (M - 1) : K) * g)) ∧ (∀ i < m, s i < M) ∧
      (∀ i < m, |(τ (s i) : K) * g - ((τ i : K) * g + k * g)| ≤ B * g) ∧
      r.At j n (.fin (k * g)) (corrValue (row.map fun v => Arith.sub v (meanOf row)) (normOfRow row (meanOf row))
        ((List.range m).map fun i => (fweight wt r.corr.alpha (.fin |(τ (s i) : K) * g - ((τ i : K) * g + k * g)|), s i))) := by
  have hM0 := (normT_rounded hd ht).1
  have hle : ∀ i < M, 0 ≤ τ i - τ 0 ∧ τ i - τ 0 ≤ τ (M - 1) - τ 0 := fun i hi => by
    have a1 := hinc.le (Nat.zero_le i) hi
    have a2 := hinc.le (show i ≤ M - 1 by omega) (by omega)
    omega
  have hk0 := abs_nonneg k
  have hk1 := neg_abs_le k
  have hk2 := le_abs_self k
  obtain ⟨_, hnt⟩ := ticks_normT h hd ht (fun i hi => by
    have := hle i hi
    rw [abs_of_nonneg this.1]; omega)
  obtain ⟨ps, hps, hat⟩ := result_at hd hr hrow hn
  have hu : IncreasingZ M fun i => τ i - τ 0 := fun i j hij hj => by have := hinc i j hij hj; simp only; omega
  obtain ⟨m, s', p1, p2, p3, p4⟩ := lagPlan_ticks h hM0 hu k (fun i hi => by
      have := hle i hi
      rw [abs_le]; constructor <;> omega) (fun i hi i' hi' hle' => by
      have a1 := hle i hi
      have a2 := hle i' hi'
      rw [abs_le]; constructor <;> omega) (planWt_fweight hw) r.corr.alpha
  rw [hnt, p4] at hps
  simp only [Res.ok.injEq] at hps
  have hg := h.pos
  have hcast : ∀ a b : ℤ, (a : K) * g ≤ b * g ↔ a ≤ b := fun a b => by
    rw [mul_le_mul_iff_left₀ hg, Int.cast_le]
  have hcond : ∀ i < M, (i < m ↔ (τ i : K) * g + k * g ≤ (τ (M - 1) : K) * g) := by
    intro i hi
    rw [p2 i hi, ← add_mul, ← Int.cast_add, hcast]
    omega
  have hdist : ∀ i l : ℕ, ((|τ l - τ 0 - (τ i - τ 0 + k)| : ℤ) : K) * g = |(τ l : K) * g - ((τ i : K) * g + k * g)| := fun i l => by
    rw [show τ l - τ 0 - (τ i - τ 0 + k) = τ l - (τ i + k) by ring, Int.cast_abs]
    rw [show (τ l : K) * g - ((τ i : K) * g + k * g) = ((τ l - (τ i + k) : ℤ) : K) * g by push_cast; ring, abs_mul, abs_of_pos hg]
  have hsel : ∀ i < m, s' i = s i := by
    intro i hi
    have a2 := hs i (by omega) ((hcond i (by omega)).1 hi)
    refine IsNearest.unique ?_ a2
    have e1 : (fun i : ℕ => ((τ i - τ 0 : ℤ) : K) * g) = fun i => (τ i : K) * g - (τ 0 : K) * g := by
      funext i; push_cast; ring
    have e2 : ((τ i - τ 0 + k : ℤ) : K) * g = ((τ i : K) * g + k * g) - (τ 0 : K) * g := by push_cast; ring
    have a1 := p3 i hi
    simp only [e1, e2] at a1
    rw [IsNearest.sub_const] at a1
    exact a1
  refine ⟨m, p1, hcond, fun i hi => by rw [← hsel i hi]; exact (p3 i hi).1, ?_, ?_⟩
  · intro i hi
    have l1 := hle i (by omega)
    have l2 := hle (s i) (by rw [← hsel i hi]; exact (p3 i hi).1)
    rw [← hdist, hcast, abs_le]
    constructor <;> omega
  · have e : ((List.range m).map fun i => (fweight wt r.corr.alpha (.fin |(τ (s i) : K) * g - ((τ i : K) * g + k * g)|), s i)) = ps := by
      rw [← hps]
      apply List.map_congr_left
      intro i hi
      have hi := List.mem_range.1 hi
      simp only [← hsel i hi, hdist]
    rw [e]
    exact hat

theorem range_cond {t : ℕ → K} {k : K} {m : ℕ} (hm : m ≤ M) (h : ∀ i < M, (i < m ↔ t i + k ≤ t (M - 1))) :
    (range M).filter (fun i : ℕ => t i + k ≤ t (M - 1)) = range m := by
  ext i
  simp only [Finset.mem_filter, Finset.mem_range]
  constructor
  · rintro ⟨hi, h'⟩; exact (h i hi).2 h'
  · intro hi; exact ⟨by omega, (h i (by omega)).1 hi⟩

theorem obs_ticks {g : K} {B : ℤ} (h : ExactUnit R g B) (hmod : Moderate R u η big V A M) (d : DS (XF R)) (hd : Constructed d)
    (τ : ℕ → ℤ) (ht : d.timeseries = samples M fun i => (τ i : K) * g) (hinc : IncreasingZ M τ)
    (j : ℕ) (x : ℕ → Option K) (hrow : d.HasRow j (obs M x)) (hx : ∀ i < M, ∀ v, x i = some v → |v| ≤ A)
    (hp : 1 ≤ present M x) (hc : (XF.round (present M x : K) : XF R) = .fin (present M x))
    (hf : ∀ i < M, ∀ v, x i = some v → Near (Arith.toFloat (.fin v : XF R)) v (2 * (V * A)))
    (ga : LagArgs (XF R)) (wt : String) (hw : KnownWeight wt) (r : AcResult (XF R))
    (hr : autocorrelation .fabs d ga "natural" wt = .ok r) (α : K) (hα : r.corr.alpha = .fin α)
    (n : ℕ) (k : ℤ) (hn : r.lags[n]? = some (.fin (k * g))) (hk : |k| + (τ (M - 1) - τ 0) ≤ B)
    (hκ : 122 * V * (M * A ^ 2) ≤ obsSumSq M x) (hN : 0 < obsSumSq M x)
    (hb1 : 2 ≤ obsSumSq M x * big) (hb2 : 24 * (M * A ^ 2) ≤ obsSumSq M x * big)
    (w : K → K) (hW : ∀ δ, 0 ≤ δ → δ ≤ B * g → Near (fweight wt (.fin α) (.fin δ) : XF R) (w δ) (10 * u) ∧ |w δ| ≤ 1)
    (s : ℕ → ℕ) (hs : Selects M (fun i => (τ i : K) * g) (k * g) s) :
    (Unaffected M (fun i => (τ i : K) * g) x s (k * g) → ∃ v : K, r.At j n (.fin (k * g)) (.fin v) ∧
      |v - obsAcf M (fun i => (τ i : K) * g) x w s (k * g)|
        ≤ 250 * V * (M * A ^ 2 / obsSumSq M x) * (1 + |obsAcf M (fun i => (τ i : K) * g) x w s (k * g)|)) ∧
    (¬ Unaffected M (fun i => (τ i : K) * g) x s (k * g) → r.At j n (.fin (k * g)) .nan) := by
  obtain ⟨m, p1, p2, p3, p4, hat⟩ := ticks_plan h hd ht hinc hrow hw hr hn hk hs
  have hiff : Unaffected M (fun i => (τ i : K) * g) x s (k * g) ↔ ∀ i < m, (x i).isSome ∧ (x (s i)).isSome := by
    unfold Unaffected
    constructor
    · intro h i hi; exact h i (by omega) ((p2 i (by omega)).1 hi)
    · intro h i hi hle; exact h i ((p2 i hi).2 hle)
  rw [hiff]
  constructor
  · intro hun
    obtain ⟨v, hv, hv'⟩ := plan_value hmod hp hc hx hf hκ hN hb1 hb2 p1 p3 hun
      (W := fun i => fweight wt r.corr.alpha (.fin |(τ (s i) : K) * g - ((τ i : K) * g + k * g)|))
      (w := fun i => w |(τ (s i) : K) * g - ((τ i : K) * g + k * g)|) (fun i hi => by
        rw [hα]; exact hW _ (abs_nonneg _) (p4 i hi))
    refine ⟨v, by rw [← hv]; exact hat, ?_⟩
    unfold obsAcf
    rw [range_cond p1 p2]
    exact hv'
  · intro hun
    rw [plan_missing p1 p3 hun] at hat
    exact hat

/-- **C35 in rounded arithmetic**: times and lag multiples of an exact unit.  A lag that uses no missing value has a value
within the error bound of C61 of the formula with the missing values left out; every other lag is NaN. -/
theorem C35_error_partial {g : K} {B : ℤ} (h : ExactUnit R g B) (hmod : Moderate R u η big V A M) (d : DS (XF R)) (hd : Constructed d)
    (τ : ℕ → ℤ) (ht : d.timeseries = samples M fun i => (τ i : K) * g) (hinc : IncreasingZ M τ)
    (j : ℕ) (x : ℕ → Option K) (hrow : d.HasRow j (obs M x)) (hx : ∀ i < M, ∀ v, x i = some v → |v| ≤ A)
    (hp : 1 ≤ present M x) (hc : (XF.round (present M x : K) : XF R) = .fin (present M x))
    (hf : ∀ i < M, ∀ v, x i = some v → Near (Arith.toFloat (.fin v : XF R)) v (2 * (V * A)))
    (ga : LagArgs (XF R)) (wt : String) (hw : wt = "fractional" ∨ wt = "fractional_squared") (r : AcResult (XF R))
    (hr : autocorrelation .fabs d ga "natural" wt = .ok r) (α : K) (hα : r.corr.alpha = .fin α) (hα0 : 0 < α)
    (n : ℕ) (k : ℤ) (hn : r.lags[n]? = some (.fin (k * g))) (hk : |k| + (τ (M - 1) - τ 0) ≤ B)
    (hκ : 122 * V * (M * A ^ 2) ≤ obsSumSq M x) (hN : 0 < obsSumSq M x)
    (hb1 : 2 ≤ obsSumSq M x * big) (hb2 : 24 * (M * A ^ 2) ≤ obsSumSq M x * big) (hb3 : 4 ≤ big)
    (hb4 : 4 * (B * g / α + (B * g / α) ^ 2) ≤ big)
    (s : ℕ → ℕ) (hs : Selects M (fun i => (τ i : K) * g) (k * g) s) :
    (Unaffected M (fun i => (τ i : K) * g) x s (k * g) → ∃ v : K, r.At j n (.fin (k * g)) (.fin v) ∧
      |v - obsAcf M (fun i => (τ i : K) * g) x (weight R.expK wt α) s (k * g)|
        ≤ 250 * V * (M * A ^ 2 / obsSumSq M x) * (1 + |obsAcf M (fun i => (τ i : K) * g) x (weight R.expK wt α) s (k * g)|)) ∧
    (¬ Unaffected M (fun i => (τ i : K) * g) x s (k * g) → r.At j n (.fin (k * g)) .nan) := by
  have hsmall : 100 * u ≤ 1 := by
    obtain ⟨hu, hη, hM, huV, _⟩ := hmod.facts
    have := hmod.V_le; linarith
  refine obs_ticks h hmod d hd τ ht hinc j x hrow hx hp hc hf ga wt (by unfold KnownWeight; tauto) r hr α hα n k hn hk hκ hN hb1 hb2 _
    (fun δ h0 h1 => near_weight hmod.acc hsmall hmod.under1 hb3 hw hα0 h0 (le_trans ?_ hb4) _) s hs
  have e1 : δ / α ≤ B * g / α := (div_le_div_iff_of_pos_right hα0).2 h1
  have := pow_le_pow_left₀ (div_nonneg h0 hα0.le) e1 2
  linarith

/-! ### arbitrary time stamps in order -/

theorem obs_any (hmod : Moderate R u η big V A M) (d : DS (XF R)) (hd : Constructed d)
    (ht : d.timeseries = samples M t) (hinc : InOrder M t)
    (j : ℕ) (x : ℕ → Option K) (hrow : d.HasRow j (obs M x)) (hx : ∀ i < M, ∀ v, x i = some v → |v| ≤ A)
    (hp : 1 ≤ present M x) (hc : (XF.round (present M x : K) : XF R) = .fin (present M x))
    (hf : ∀ i < M, ∀ v, x i = some v → Near (Arith.toFloat (.fin v : XF R)) v (2 * (V * A)))
    (ga : LagArgs (XF R)) (wt : String) (hw : KnownWeight wt) (r : AcResult (XF R))
    (hr : autocorrelation .fabs d ga "natural" wt = .ok r) (α : K) (hα : r.corr.alpha = .fin α)
    (n : ℕ) (k : K) (hn : r.lags[n]? = some (.fin k)) (hbig : 4 * (t (M - 1) - t 0 + |k| + η) ≤ big)
    (hκ : 122 * V * (M * A ^ 2) ≤ obsSumSq M x) (hN : 0 < obsSumSq M x)
    (hb1 : 2 ≤ obsSumSq M x * big) (hb2 : 24 * (M * A ^ 2) ≤ obsSumSq M x * big)
    (w : K → K) (hW : ∀ δ, 0 ≤ δ → δ ≤ 2 * (t (M - 1) - t 0 + |k| + 3 * η) →
      Near (fweight wt (.fin α) (.fin δ) : XF R) (w δ) (10 * u) ∧ |w δ| ≤ 1)
    (ω : K) (hL : ∀ δ δ', 0 ≤ δ → 0 ≤ δ' → |δ - δ'| ≤ 5 * timeErr u η M t k → |w δ - w δ'| ≤ ω) :
    ∃ (m : ℕ) (s : ℕ → ℕ), NearlySelects M t k (10 * timeErr u η M t k) m s ∧
      ((∀ i < m, (x i).isSome ∧ (x (s i)).isSome) → ∃ v : K, r.At j n (.fin k) (.fin v) ∧
        |v - obsMatched m M t x w s k|
          ≤ 250 * V * (M * A ^ 2 / obsSumSq M x) * (1 + |obsMatched m M t x w s k|) + 13 * (M * A ^ 2 / obsSumSq M x) * ω) ∧
      ((¬ ∀ i < m, (x i).isSome ∧ (x (s i)).isSome) → r.At j n (.fin k) .nan) := by
  obtain ⟨hM0, hnt⟩ := normT_rounded hd ht
  obtain ⟨hu, hη, hM, huV, hV0, h1, h2, huA, h3, h4, h5, h6, h7, h8, h9⟩ := hmod.facts
  have hsmall : 100 * u ≤ 1 := by have := hmod.V_le; linarith
  obtain ⟨m, s, δ, q1, q2, q3⟩ := lagPlan_near hmod.acc hsmall hM0 hinc k hbig (planWt_fweight hw) r.corr.alpha
  obtain ⟨ps, hps, hat⟩ := result_at hd hr hrow hn
  rw [hnt, q3] at hps
  simp only [Res.ok.injEq] at hps
  subst hps
  have hk0 := abs_nonneg k
  have hT : 0 ≤ t (M - 1) - t 0 := by have := hinc 0 (M - 1) (Nat.zero_le _) (by omega); linarith
  have hδle : ∀ i < m, δ i ≤ 2 * (t (M - 1) - t 0 + |k| + 3 * η) := by
    intro i hi
    have hle := q1.le
    have hd1 : |t (s i) - (t i + k)| ≤ t (M - 1) - t 0 + |k| := by
      have a1 := hinc 0 i (Nat.zero_le _) (by omega)
      have a2 := hinc i (M - 1) (by omega) (by omega)
      have a3 := hinc 0 (s i) (Nat.zero_le _) (q1.index i hi)
      have a4 := hinc (s i) (M - 1) (by have := q1.index i hi; omega) (by omega)
      have k1 := neg_abs_le k
      have k2 := le_abs_self k
      rw [abs_le]; constructor <;> linarith
    have hd2 := (abs_le.1 (q2 i hi).2).2
    have : 100 * (u * (t (M - 1) - t 0 + |k|)) ≤ t (M - 1) - t 0 + |k| := by
      have := mul_le_mul_of_nonneg_right hsmall (show 0 ≤ t (M - 1) - t 0 + |k| by linarith)
      linarith
    unfold timeErr at hd2
    linarith
  refine ⟨m, s, q1, fun hun => ?_, fun hun => ?_⟩
  swap
  · rw [plan_missing q1.le q1.index hun] at hat
    exact hat
  obtain ⟨v, hv, hv'⟩ := plan_value hmod hp hc hx hf hκ hN hb1 hb2 q1.le q1.index hun
    (W := fun i => fweight wt r.corr.alpha (.fin (δ i))) (w := fun i => w (δ i)) (fun i hi => by
      rw [hα]; exact hW _ (q2 i hi).1 (hδle i hi))
  refine ⟨v, by rw [← hv]; exact hat, ?_⟩
  have hω : 0 ≤ ω := by
    have := hL 0 0 le_rfl le_rfl (by
      rw [sub_self, abs_zero]
      unfold timeErr
      have := mul_nonneg hu (show 0 ≤ t (M - 1) - t 0 + |k| by linarith)
      linarith)
    simpa using this
  have hmM : (m : K) ≤ M := by exact_mod_cast q1.le
  have hdev := (near_obs hmod hp hc hx hf).1
  have hdiff : |∑ i ∈ range m, w (δ i) * obsDev M x i * obsDev M x (s i)
      - ∑ i ∈ range m, w |t (s i) - (t i + k)| * obsDev M x i * obsDev M x (s i)| ≤ 4 * (M * A ^ 2) * ω := by
    rw [← sum_sub_distrib]
    refine (abs_sum_le_sum_abs _ _).trans ?_
    refine (sum_le_card_nsmul (range m) _ (4 * A ^ 2 * ω) fun i hi => ?_).trans ?_
    · have hi : i < m := by simpa using hi
      have e : w (δ i) * obsDev M x i * obsDev M x (s i) - w |t (s i) - (t i + k)| * obsDev M x i * obsDev M x (s i)
          = (obsDev M x i * obsDev M x (s i)) * (w (δ i) - w |t (s i) - (t i + k)|) := by ring
      rw [e, abs_mul, abs_mul]
      have d1 := (hdev i (by have := q1.le; omega) (hun i hi).1).1
      have d2 := (hdev (s i) (q1.index i hi) (hun i hi).2).1
      have d3 := hL _ _ (q2 i hi).1 (abs_nonneg (t (s i) - (t i + k))) (q2 i hi).2
      have hA := hmod.pos
      have e2 : 4 * A ^ 2 * ω = (2 * A) * (2 * A) * ω := by ring
      rw [e2]
      exact mul_le_mul (mul_le_mul d1 d2 (abs_nonneg _) (by linarith)) d3 (abs_nonneg _) (by positivity)
    · rw [card_range, nsmul_eq_mul]
      have := mul_le_mul_of_nonneg_right hmM (mul_nonneg h9.le hω)
      linarith
  set P := ∑ i ∈ range m, w (δ i) * obsDev M x i * obsDev M x (s i) with hPd
  have hρ : obsMatched m M t x w s k = (∑ i ∈ range m, w |t (s i) - (t i + k)| * obsDev M x i * obsDev M x (s i)) / obsSumSq M x := rfl
  set S := obsSumSq M x with hS
  set κ := M * A ^ 2 / S with hκd
  set ρ := obsMatched m M t x w s k with hρd
  have hκ0 : 0 ≤ κ := div_nonneg (by linarith) hN.le
  have hPρ : |P / S - ρ| ≤ 4 * κ * ω := by
    rw [hρ, ← sub_div, abs_div, abs_of_pos hN, div_le_iff₀ hN]
    refine hdiff.trans (le_of_eq ?_)
    rw [hκd]; field_simp
  have hVκ : 122 * (V * κ) ≤ 1 := by
    have e : 122 * (V * κ) = 122 * V * (M * A ^ 2) / S := by rw [hκd]; ring
    rw [e, div_le_one hN]; exact hκ
  have hPabs : |P / S| ≤ |ρ| + 4 * κ * ω := near_abs hPρ le_rfl
  have e1 : v - ρ = (v - P / S) + (P / S - ρ) := by ring
  rw [e1]
  refine (abs_add_le _ _).trans ?_
  have hVκ0 : 0 ≤ V * κ := mul_nonneg hV0 hκ0
  have a1 : 250 * V * κ * (1 + |P / S|) ≤ 250 * V * κ * (1 + (|ρ| + 4 * κ * ω)) := by
    have := mul_le_mul_of_nonneg_left hPabs hVκ0
    linarith
  have a2 : 122 * (V * κ) * (κ * ω) ≤ 1 * (κ * ω) := mul_le_mul_of_nonneg_right hVκ (mul_nonneg hκ0 hω)
  have a3 := mul_nonneg hκ0 hω
  linarith

/-- **C35 in rounded arithmetic, arbitrary time stamps in order**: the samples are matched correctly up to `10 (u (span + |k|) + η)`; if none of the matched samples
is missing, the value is within the bound of C70 of the formula over the values that are there, otherwise it is NaN. -/
theorem C35_any_partial (hmod : Moderate R u η big V A M) (d : DS (XF R)) (hd : Constructed d)
    (ht : d.timeseries = samples M t) (hinc : InOrder M t)
    (j : ℕ) (x : ℕ → Option K) (hrow : d.HasRow j (obs M x)) (hx : ∀ i < M, ∀ v, x i = some v → |v| ≤ A)
    (hp : 1 ≤ present M x) (hc : (XF.round (present M x : K) : XF R) = .fin (present M x))
    (hf : ∀ i < M, ∀ v, x i = some v → Near (Arith.toFloat (.fin v : XF R)) v (2 * (V * A)))
    (ga : LagArgs (XF R)) (wt : String) (hw : wt = "fractional" ∨ wt = "fractional_squared") (r : AcResult (XF R))
    (hr : autocorrelation .fabs d ga "natural" wt = .ok r) (α : K) (hα : r.corr.alpha = .fin α) (hα0 : 0 < α)
    (n : ℕ) (k : K) (hn : r.lags[n]? = some (.fin k)) (hbig : 4 * (t (M - 1) - t 0 + |k| + η) ≤ big)
    (hκ : 122 * V * (M * A ^ 2) ≤ obsSumSq M x) (hN : 0 < obsSumSq M x)
    (hb1 : 2 ≤ obsSumSq M x * big) (hb2 : 24 * (M * A ^ 2) ≤ obsSumSq M x * big) (hb3 : 4 ≤ big)
    (hb4 : 4 * (2 * (t (M - 1) - t 0 + |k| + 3 * η) / α + (2 * (t (M - 1) - t 0 + |k| + 3 * η) / α) ^ 2) ≤ big) :
    ∃ (m : ℕ) (s : ℕ → ℕ), NearlySelects M t k (10 * (u * (t (M - 1) - t 0 + |k|) + η)) m s ∧
      ((∀ i < m, (x i).isSome ∧ (x (s i)).isSome) → ∃ v : K, r.At j n (.fin k) (.fin v) ∧
        |v - obsMatched m M t x (weight R.expK wt α) s k|
          ≤ 250 * V * (M * A ^ 2 / obsSumSq M x) * (1 + |obsMatched m M t x (weight R.expK wt α) s k|) +
            65 * (M * A ^ 2 / obsSumSq M x) * ((u * (t (M - 1) - t 0 + |k|) + η) / α)) ∧
      ((¬ ∀ i < m, (x i).isSome ∧ (x (s i)).isSome) → r.At j n (.fin k) .nan) := by
  have hsmall : 100 * u ≤ 1 := by
    obtain ⟨hu, hη, hM, huV, _⟩ := hmod.facts
    have := hmod.V_le; linarith
  obtain ⟨m, s, h1, h2, h3⟩ := obs_any hmod d hd ht hinc j x hrow hx hp hc hf ga wt (by unfold KnownWeight; tauto) r hr α hα n k hn hbig hκ hN hb1 hb2 _
    (fun δ h0 h1 => near_weight hmod.acc hsmall hmod.under1 hb3 hw hα0 h0 (le_trans (by
      have e1 : δ / α ≤ 2 * (t (M - 1) - t 0 + |k| + 3 * η) / α := (div_le_div_iff_of_pos_right hα0).2 h1
      have := pow_le_pow_left₀ (div_nonneg h0 hα0.le) e1 2
      linarith) hb4) R.expK)
    (5 * timeErr u η M t k / α) (fun δ δ' h0 h0' hle => (weight_lip hw hα0 h0 h0' _).trans ((div_le_div_iff_of_pos_right hα0).2 hle))
  refine ⟨m, s, h1, fun hun => ?_, h3⟩
  obtain ⟨v, hv1, hv2⟩ := h2 hun
  refine ⟨v, hv1, hv2.trans (le_of_eq ?_)⟩
  unfold timeErr
  ring

end rounded

section binary64
variable {ex : ℚ → ℚ} {fu : Bool} {M : ℕ} {A V : ℚ} {j : ℕ} {x : ℕ → Option ℚ}

/-- what the error bound asks of the values that are there, in binary64 -/
theorem obs_facts64 {d : DS (D64 ex fu)} (hM : 1 ≤ M) (hM29 : M ≤ 2 ^ 29) (hv : ObsValues64 d M j x A V) :
    Moderate (Rnd.binary64 ex fu) (pow2 (-53)) (pow2 (-1075)) Sacf.big V A M ∧
    1 ≤ present M x ∧ (XF.round (present M x : ℚ) : D64 ex fu) = .fin (present M x) ∧
    (∀ i < M, ∀ v, x i = some v → Near (Arith.toFloat (.fin v : D64 ex fu)) v (2 * (V * A))) ∧
    0 < obsSumSq M x ∧ 2 ≤ obsSumSq M x * Sacf.big ∧ 24 * (M * A ^ 2) ≤ obsSumSq M x * Sacf.big ∧ 4 ≤ Sacf.big := by
  have hmod := moderate64 (ex := ex) (fu := fu) hM hM29 hv.unit hv.small hv.amin hv.amax
  obtain ⟨hu0, hη, hM1, huV, hV0, h1, h2, huA, h3, h4, h5, h6, h7, h8, h9⟩ := hmod.facts
  have hMA : 0 < M * A ^ 2 := by linarith
  have hVpos : 0 < V := lt_of_lt_of_le (pow2_pos (-53)) huV
  have hN : 0 < obsSumSq M x := lt_of_lt_of_le (mul_pos (mul_pos (by norm_num) hVpos) hMA) hv.spread
  have hple : present M x ≤ M := by
    unfold present
    exact (Finset.card_filter_le _ _).trans (by simp)
  have hp : 1 ≤ present M x := by
    by_contra h0
    have h0 : present M x = 0 := by omega
    unfold present at h0
    rw [Finset.card_eq_zero] at h0
    unfold obsSumSq at hN
    rw [h0, Finset.sum_empty] at hN
    exact lt_irrefl _ hN
  have hb4 : (4 : ℚ) ≤ Sacf.big := by
    have e1 : (4 : ℚ) = pow2 2 := by rw [show (2 : ℤ) = ((2 : ℕ) : ℤ) from rfl, pow2_nat]; norm_num
    rw [e1]; exact (pow2_mono (by norm_num)).trans pow2_le_big
  have hA2' : pow2 (-252) ≤ A ^ 2 := by
    have : pow2 (-252) = pow2 (-126) * pow2 (-126) := by rw [← pow2_add]; rfl
    rw [this, sq]; exact mul_le_mul hv.amin hv.amin (pow2_pos _).le hmod.pos.le
  have hbig := pow2_le_big
  have hVbig : pow2 970 ≤ V * Sacf.big := by
    have : pow2 970 = pow2 (-53) * pow2 1023 := by rw [← pow2_add]; rfl
    rw [this]; exact mul_le_mul huV hbig (pow2_pos _).le hV0
  have hNbig : 122 * (pow2 970 * (M * A ^ 2)) ≤ obsSumSq M x * Sacf.big := by
    have hb0 : 0 < Sacf.big := lt_of_lt_of_le (pow2_pos _) hbig
    have e1 := mul_le_mul_of_nonneg_right hv.spread hb0.le
    have e2 := mul_le_mul_of_nonneg_right hVbig hMA.le
    linarith
  have hone : (1 : ℚ) ≤ pow2 970 := by rw [← pow2_zero]; exact pow2_mono (by norm_num)
  refine ⟨hmod, hp, ?_, ?_, hN, ?_, ?_, hb4⟩
  · have := round_int64 (ex := ex) (fu := fu) (present M x : ℤ) (by
      rw [Nat.abs_cast]
      have : present M x ≤ 2 ^ 29 := hple.trans hM29
      norm_num at this ⊢
      omega)
    simpa using this
  · intro i hi v hxv
    have hle := hv.bound i hi v hxv
    have hxF : |v| ≤ bigF := by
      refine hle.trans (hv.amax.trans ?_)
      have e1 : pow2 127 = 2 ^ 23 * pow2 104 := by
        rw [show (127 : ℤ) = ((23 : ℕ) : ℤ) + 104 by norm_num, pow2_add, pow2_nat]; norm_num
      unfold bigF
      rw [e1]
      have := pow2_pos 104
      nlinarith
    rw [toFloat64 hxF]
    refine ⟨_, rfl, ?_⟩
    rcases hv.float with hV24 | hfl
    · refine (roundTo_accurate v).trans ?_
      have e1 : pow2 (-(24 : ℕ)) * |v| ≤ V * A := mul_le_mul hV24 hle (abs_nonneg _) hV0
      have e2 : pow2 (-149 - 1) ≤ V * A := by
        have : pow2 (-149 - 1) = pow2 (-24) * pow2 (-126) := by rw [← pow2_add]; rfl
        rw [this]; exact mul_le_mul hV24 hv.amin (pow2_pos _).le hV0
      linarith
    · rw [hfl i hi v hxv, sub_self, abs_zero]
      have := mul_nonneg hV0 hmod.pos.le
      linarith
  · have e1 : pow2 718 = pow2 970 * pow2 (-252) := by rw [← pow2_add]; rfl
    have e2 : (1 : ℚ) ≤ pow2 718 := by rw [← pow2_zero]; exact pow2_mono (by norm_num)
    have e3 := mul_le_mul_of_nonneg_left (hA2'.trans h8) (pow2_pos 970).le
    linarith
  · have := mul_le_mul_of_nonneg_right hone hMA.le
    linarith

/-- **C35 in binary64**: increasing time stamps `τ i 2^e`, values of which some are missing, either fractional weight function.  A lag is NaN exactly if it
uses a missing value; at every other lag the value is within `250 V κ (1 + |ρ|)` of the formula `ρ` over the values that are there. -/
theorem C35_binary64_partial {d : DS (D64 ex fu)} {τ : ℕ → ℤ} {e : ℤ} (ht : Times64 d M τ e) (hv : ObsValues64 d M j x A V)
    (ga : LagArgs (D64 ex fu)) (wt : String) (hw : wt = "fractional" ∨ wt = "fractional_squared") (r : AcResult (D64 ex fu))
    (hr : autocorrelation .fabs d ga "natural" wt = .ok r) (α : ℚ) (hα : r.corr.alpha = .fin α) (hα0 : pow2 (e - 400) ≤ α)
    (n : ℕ) (k : ℤ) (hn : r.lags[n]? = some (.fin (k * pow2 e))) (hk : |k| + (τ (M - 1) - τ 0) ≤ 2 ^ 53)
    (s : ℕ → ℕ) (hs : Selects M (fun i => (τ i : ℚ) * pow2 e) (k * pow2 e) s) :
    (r.At j n (.fin (k * pow2 e)) .nan ↔ ¬ Unaffected M (fun i => (τ i : ℚ) * pow2 e) x s (k * pow2 e)) ∧
    (Unaffected M (fun i => (τ i : ℚ) * pow2 e) x s (k * pow2 e) → ∃ v : ℚ, r.At j n (.fin (k * pow2 e)) (.fin v) ∧
      |v - obsAcf M (fun i => (τ i : ℚ) * pow2 e) x (weight ex wt α) s (k * pow2 e)|
        ≤ 250 * V * (M * A ^ 2 / obsSumSq M x) * (1 + |obsAcf M (fun i => (τ i : ℚ) * pow2 e) x (weight ex wt α) s (k * pow2 e)|)) := by
  obtain ⟨hmod, hp, hc, hf, hN, hb1, hb2, hb3⟩ := obs_facts64 (ex := ex) (fu := fu) ht.one_le ht.le hv
  have hαp : 0 < α := lt_of_lt_of_le (pow2_pos _) hα0
  have key := C35_error_partial (exactUnit64 (ex := ex) (fu := fu) e ht.emin ht.emax) hmod d ht.built τ ht.times ht.inc j x hv.row hv.bound
    hp hc hf ga wt hw r hr α hα hαp n k hn hk hv.spread hN hb1 hb2 hb3 (by
      have e1 := ratio64 hα0
      have e0 : 0 ≤ ((2 ^ 53 : ℤ) : ℚ) * pow2 e / α := div_nonneg (mul_nonneg (by norm_num) (pow2_pos _).le) hαp.le
      have e2 := pow_le_pow_left₀ e0 e1 2
      have e3 : pow2 453 ≤ pow2 453 ^ 2 := by
        have : (1 : ℚ) ≤ pow2 453 := by rw [← pow2_zero]; exact pow2_mono (by norm_num)
        nlinarith
      have e4 : 8 * pow2 453 ^ 2 = pow2 909 := by
        rw [show (909 : ℤ) = ((3 : ℕ) : ℤ) + (453 + 453) by norm_num, pow2_add, pow2_nat, pow2_add]; ring
      have := pow2_mono (show (909 : ℤ) ≤ 1023 by norm_num)
      have := pow2_le_big
      linarith) s hs
  refine ⟨⟨fun h hun => ?_, key.2⟩, key.1⟩
  obtain ⟨v, h1, _⟩ := key.1 hun
  have := At_unique h h1
  simp at this

/-- **C35 in binary64, arbitrary doubles in order as time stamps**. -/
theorem C35_any_binary64_partial {d : DS (D64 ex fu)} {t : ℕ → ℚ} (ht : AnyTimes64 d M t) (hv : ObsValues64 d M j x A V)
    (ga : LagArgs (D64 ex fu)) (wt : String)
    (hw : wt = "fractional" ∨ wt = "fractional_squared") (r : AcResult (D64 ex fu))
    (hr : autocorrelation .fabs d ga "natural" wt = .ok r) (α : ℚ) (hα : r.corr.alpha = .fin α) (hα0 : pow2 (-600) ≤ α)
    (n : ℕ) (k : ℚ) (hn : r.lags[n]? = some (.fin k)) (hD : t (M - 1) - t 0 + |k| ≤ pow2 1000)
    (hDα : t (M - 1) - t 0 + |k| ≤ pow2 400 * α) :
    ∃ (m : ℕ) (s : ℕ → ℕ), NearlySelects M t k (10 * (pow2 (-53) * (t (M - 1) - t 0 + |k|) + pow2 (-1075))) m s ∧
      (r.At j n (.fin k) .nan ↔ ∃ i < m, x i = none ∨ x (s i) = none) ∧
      ((∀ i < m, x i ≠ none ∧ x (s i) ≠ none) → ∃ v : ℚ, r.At j n (.fin k) (.fin v) ∧
        |v - obsMatched m M t x (weight ex wt α) s k|
          ≤ 250 * V * (M * A ^ 2 / obsSumSq M x) * (1 + |obsMatched m M t x (weight ex wt α) s k|) +
            65 * (M * A ^ 2 / obsSumSq M x) * ((pow2 (-53) * (t (M - 1) - t 0 + |k|) + pow2 (-1075)) / α)) := by
  obtain ⟨hmod, hp, hc, hf, hN, hb1, hb2, hb3⟩ := obs_facts64 (ex := ex) (fu := fu) ht.one_le ht.le hv
  have hαp : 0 < α := lt_of_lt_of_le (pow2_pos _) hα0
  have hbig := pow2_le_big
  have hone : pow2 (-1075) ≤ 1 := by rw [← pow2_zero]; exact pow2_mono (by norm_num)
  have h1000 : (1 : ℚ) ≤ pow2 1000 := by rw [← pow2_zero]; exact pow2_mono (by norm_num)
  have hT : 0 ≤ t (M - 1) - t 0 := by
    have := ht.order 0 (M - 1) (Nat.zero_le _) (by have := ht.one_le; omega); linarith
  have hk := abs_nonneg k
  obtain ⟨m, s, h1, h2, h3⟩ := C35_any_partial hmod d ht.built ht.times ht.order j x hv.row hv.bound hp hc hf ga wt hw r hr α hα hαp n k hn
    (by
      have e1 : 8 * pow2 1000 = pow2 1003 := by
        rw [show (1003 : ℤ) = ((3 : ℕ) : ℤ) + 1000 by norm_num, pow2_add, pow2_nat]; norm_num
      have := pow2_mono (show (1003 : ℤ) ≤ 1023 by norm_num)
      linarith) hv.spread hN hb1 hb2 hb3
    (by
      have h0 := pow2_pos (-1075)
      have e0 : 0 ≤ 2 * (t (M - 1) - t 0 + |k| + 3 * pow2 (-1075)) / α := div_nonneg (by linarith) hαp.le
      have e1 : 2 * (t (M - 1) - t 0 + |k| + 3 * pow2 (-1075)) / α ≤ pow2 403 := by
        rw [div_le_iff₀ hαp]
        have a1 : pow2 403 = 8 * pow2 400 := by
          rw [show (403 : ℤ) = ((3 : ℕ) : ℤ) + 400 by norm_num, pow2_add, pow2_nat]; norm_num
        have a2 : pow2 (-1075) ≤ pow2 400 * α := by
          refine (show pow2 (-1075) ≤ pow2 400 * pow2 (-600) by rw [← pow2_add]; exact pow2_mono (by norm_num)).trans ?_
          exact mul_le_mul_of_nonneg_left hα0 (pow2_pos _).le
        rw [a1]
        linarith
      have e2 := pow_le_pow_left₀ e0 e1 2
      have e3 : pow2 403 ≤ pow2 403 ^ 2 := by
        have : (1 : ℚ) ≤ pow2 403 := by rw [← pow2_zero]; exact pow2_mono (by norm_num)
        nlinarith
      have e4 : 8 * pow2 403 ^ 2 = pow2 809 := by
        rw [show (809 : ℤ) = ((3 : ℕ) : ℤ) + (403 + 403) by norm_num, pow2_add, pow2_nat, pow2_add]; ring
      have := pow2_mono (show (809 : ℤ) ≤ 1023 by norm_num)
      linarith)
  have hiff : (∀ i < m, (x i).isSome ∧ (x (s i)).isSome) ↔ ∀ i < m, x i ≠ none ∧ x (s i) ≠ none := by
    simp only [Option.isSome_iff_ne_none]
  have hneg : (¬ ∀ i < m, (x i).isSome ∧ (x (s i)).isSome) ↔ ∃ i < m, x i = none ∨ x (s i) = none := by
    rw [hiff, not_forall]
    refine exists_congr fun i => ?_
    rw [Classical.not_imp, not_and_or, not_not, not_not]
  refine ⟨m, s, h1, ⟨fun h => hneg.1 fun hun => ?_, fun h => h3 (hneg.2 h)⟩, fun h => h2 (hiff.2 h)⟩
  obtain ⟨v, h4, _⟩ := h2 hun
  have := At_unique h h4
  simp at this

/-! ### a concrete case: the row 1, 0, NaN, 0, 2 at the times 0, …, 4 (see `Props/Missing.lean`), in binary64 -/

/-- the dataset of the example -/
def missDS : Res (DS B) := mkFlat (b [0, 1, 2, 3, 4]) (obs 5 missX)

example : (missDS.bind fun d => (autocorrelation .fabs d).bind fun r => .ok (r.lags[7]?, r.corrs.rows.map (·[7]?), r.corrs.rows.map (·[4]?)))
    = .ok (some (.fin 3), [some (.fin (-7369526662969903 / 18014398509481984))], [some .nan]) := by decide +kernel

theorem miss_case {β : Type} (f : AcResult Sacf.B → β) (z : β)
    (h : ((mkFlat (samples 5 fun i => ((i : ℤ) : ℚ) * pow2 0 : List Sacf.B) (obs 5 missX)).bind fun d =>
      (autocorrelation .fabs d).bind fun r => .ok (f r)) = .ok z) : ∃ (d : DS Sacf.B) (r : AcResult Sacf.B),
    Times64 d 5 (fun i => i) 0 ∧ ObsValues64 d 5 0 missX 2 (5 * pow2 (-53)) ∧ autocorrelation .fabs d = .ok r ∧ f r = z := by
  obtain ⟨d, hd, ht, hrow, _⟩ := C03_round_trip (F := Sacf.B) (samples 5 fun i => ((i : ℤ) : ℚ) * pow2 0) [obs 5 missX]
    (by simp [samples]) (by simp) (by simp [Rect, samples, obs])
  rw [← (C03_flat_is_one_row _ _ []).1] at hd
  have hc : Constructed d := .flat hd
  rw [hd, Res.ok_bind, Res.bind_eq_ok] at h
  obtain ⟨r, hr, h⟩ := h
  simp only [Res.ok.injEq] at h
  have hb : ∀ i < 5, ∀ v, missX i = some v → v = 0 ∨ v = 1 ∨ v = 2 := by
    intro i hi v hv
    interval_cases i <;> simp [missX] at hv <;> simp [← hv]
  refine ⟨d, r, ⟨hc, ht, fun i j hij _ => by simpa using hij, by norm_num, by norm_num, by norm_num, by norm_num⟩,
    ⟨⟨_, hrow, rfl⟩, fun i hi v hv => ?_, by decide +kernel, by decide +kernel, by decide +kernel, by decide +kernel, .inr fun i hi v hv => ?_,
      by decide +kernel⟩, hr, h⟩
  · rcases hb i hi v hv with rfl | rfl | rfl <;> norm_num
  · rcases hb i hi v hv with rfl | rfl | rfl <;> decide +kernel

/-- C35_binary64_partial applied: the value at lag 3, which does not use the missing sample 2, is -9/22 up to 2^-39, and the value at lag 0 is NaN -/
example : ∃ (d : DS Sacf.B) (r : AcResult Sacf.B) (v : ℚ), autocorrelation .fabs d = .ok r ∧
    r.At 0 7 (.fin 3) (.fin v) ∧ |v - (-9/22)| ≤ pow2 (-39) ∧ r.At 0 4 (.fin 0) .nan := by
  obtain ⟨d, r, ht, hv, hr, hf⟩ := miss_case (fun r => (r.lags[7]?, r.lags[4]?, r.corr.alpha)) (some (.fin 3), some (.fin 0), .fin 2)
    (by decide +kernel)
  have h7 := congrArg Prod.fst hf
  have h4 := congrArg (·.2.1) hf
  have hα := congrArg (·.2.2) hf
  simp only at h7 h4 hα
  obtain ⟨_, h1⟩ := C35_binary64_partial ht hv _ "fractional" (.inl rfl) r hr 2 hα (by decide +kernel) 7 3
    (by rw [h7, pow2_zero]; norm_num) (by norm_num) (fun i => i + 3) (by unfold Selects IsNearest; decide +kernel)
  obtain ⟨v, h2, h3⟩ := h1 (by unfold Unaffected; decide +kernel)
  obtain ⟨h5, _⟩ := C35_binary64_partial ht hv _ "fractional" (.inl rfl) r hr 2 hα (by decide +kernel) 4 0
    (by rw [h4, pow2_zero]; norm_num) (by norm_num) (fun i => i) (by unfold Selects IsNearest; decide +kernel)
  refine ⟨d, r, v, hr, by simpa [pow2_zero] using h2, ?_, ?_⟩
  · have e1 : obsAcf 5 (fun i => ((i : ℤ) : ℚ) * pow2 0) missX (weight (fun x => 1 / (1 - x)) "fractional" 2) (fun i => i + 3) ((3 : ℤ) * pow2 0)
      = -9/22 := by decide +kernel
    rw [e1] at h3
    exact h3.trans (by decide +kernel)
  · have := h5.2 (by unfold Unaffected; decide +kernel)
    simpa using this

end binary64
end Sacf
