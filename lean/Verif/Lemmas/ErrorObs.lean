import Verif.Props.Error
import Verif.Props.Missing

/-!
# The error bound for rows with missing values

Mean and normaliser are those of the shorter row without the missing values, so the bounds of `Lemmas/Error.lean` apply to them.
-/

set_option linter.unusedSectionVars false
set_option linter.unusedVariables false

namespace Sacf

open Arith Finset

variable {K : Type} [Field K] [LinearOrder K] [IsStrictOrderedRing K] [FloorRing K] {R : Rnd K} {u η big V A : K} {M : ℕ}

/-- the values that are there, in order -/
def vals (M : ℕ) (x : ℕ → Option K) : List K := (List.range M).filterMap x

theorem vals_succ (M : ℕ) (x : ℕ → Option K) : vals (M + 1) x = vals M x ++ (x M).toList := by
  unfold vals
  rw [List.range_succ, List.filterMap_append]
  cases h : x M <;> simp [h]

theorem vals_length (M : ℕ) (x : ℕ → Option K) : (vals M x).length = present M x := by
  induction M with
  | zero => rfl
  | succ M ih =>
    rw [vals_succ, List.length_append, ih]
    unfold present
    rw [Finset.range_add_one, Finset.filter_insert]
    cases h : x M <;> simp

theorem vals_mem {x : ℕ → Option K} {v : K} (h : v ∈ vals M x) : ∃ i < M, x i = some v := by
  unfold vals at h
  obtain ⟨i, hi, h⟩ := List.mem_filterMap.1 h
  exact ⟨i, List.mem_range.1 hi, h⟩

theorem sum_getD (l : List K) (φ : K → K) : ∑ i ∈ range l.length, φ (l.getD i 0) = (l.map φ).sum := by
  induction l using List.reverseRecOn with
  | nil => simp
  | append_singleton l a ih =>
    rw [List.length_append, List.length_singleton, Finset.sum_range_succ, List.map_append, List.sum_append, ← ih]
    congr 1
    · apply Finset.sum_congr rfl
      intro i hi
      have hi := Finset.mem_range.1 hi
      simp [List.getD, List.getElem?_append_left hi]
    · simp [List.getD]

theorem sum_vals (M : ℕ) (x : ℕ → Option K) (φ : K → K) :
    ((vals M x).map φ).sum = ∑ i ∈ range M with (x i).isSome, φ ((x i).getD 0) := by
  induction M with
  | zero => simp [vals]
  | succ M ih =>
    rw [vals_succ, List.map_append, List.sum_append, ih, Finset.range_add_one, Finset.filter_insert]
    cases h : x M with
    | none => simp
    | some v =>
      rw [if_pos (by simp), Finset.sum_insert (by simp)]
      simp [h, add_comm]

theorem mean_vals (M : ℕ) (x : ℕ → Option K) : mean (vals M x).length (fun i => (vals M x).getD i 0) = obsMean M x := by
  unfold mean obsMean
  have h := sum_getD (vals M x) id
  simp only [id] at h
  rw [h, sum_vals M x id, vals_length]
  unfold present
  congr 1
  rw [Finset.sum_filter]
  apply Finset.sum_congr rfl
  intro i _
  cases h : x i <;> simp

theorem sumSq_vals (M : ℕ) (x : ℕ → Option K) : sumSq (vals M x).length (fun i => (vals M x).getD i 0) = obsSumSq M x := by
  unfold sumSq dev
  rw [mean_vals, sum_getD (vals M x) (fun v => (v - obsMean M x) ^ 2), sum_vals]
  rfl

theorem map_fin_vals (M : ℕ) (x : ℕ → Option K) :
    (vals M x).map (XF.fin (R := R)) = (List.range (vals M x).length).map fun i => (.fin ((vals M x).getD i 0) : XF R) := by
  apply List.ext_getElem
  · simp
  · intro i h1 h2
    have hi : i < (vals M x).length := by simpa using h1
    simp [List.getD, hi]

theorem filter_obs (M : ℕ) (x : ℕ → Option K) :
    (obs M x : List (XF R)).filter (fun d => !isNaN d) = (vals M x).map XF.fin := by
  induction M with
  | zero => rfl
  | succ M ih =>
    have e : (obs (M + 1) x : List (XF R)) = obs M x ++ [match x M with | some v => .fin v | none => .nan] := by
      unfold obs
      rw [List.range_succ, List.map_append]
      rfl
    rw [e, List.filter_append, ih, vals_succ, List.map_append]
    congr 1
    cases h : x M <;> rfl

theorem meanOf_vals (M : ℕ) (x : ℕ → Option K) :
    meanOf (obs M x : List (XF R)) = seqMean (vals M x).length fun i => (.fin ((vals M x).getD i 0) : XF R) := by
  rw [← meanOf_seqMean (x := fun i => (.fin ((vals M x).getD i 0) : XF R)) (fun i _ => by simp), ← map_fin_vals]
  unfold meanOf
  have e : ((vals M x).map (XF.fin (R := R))).filter (fun d => !isNaN d) = (vals M x).map XF.fin := by
    rw [List.filter_eq_self]
    intro y hy
    obtain ⟨v, _, rfl⟩ := List.mem_map.1 hy
    rfl
  simp only [filter_obs, e]

theorem normOfRow_vals (M : ℕ) (x : ℕ → Option K) (μ : XF R) :
    normOfRow (obs M x) μ = normOfRow ((vals M x).map XF.fin) μ := by
  unfold normOfRow
  induction M with
  | zero => rfl
  | succ M ih =>
    have e : (obs (M + 1) x : List (XF R)) = obs M x ++ [match x M with | some v => .fin v | none => .nan] := by
      unfold obs
      rw [List.range_succ, List.map_append]
      rfl
    rw [e, List.foldl_append, ih, vals_succ, List.map_append, List.foldl_append]
    cases h : x M with
    | none => rfl
    | some v => rfl

/-- a row with fewer values is moderate, too -/
theorem Moderate.fewer (h : Moderate R u η big V A M) {M' : ℕ} (h1 : 1 ≤ M') (hle : M' ≤ M) (hc : (XF.round (M' : K) : XF R) = .fin M') :
    Moderate R u η big V A M' := by
  have hM : (M' : K) ≤ M := by exact_mod_cast hle
  have hu := h.acc.u_nonneg
  have hη := h.acc.η_nonneg
  have hA := h.pos
  have hA2 : 0 ≤ A ^ 2 := sq_nonneg A
  have e1 := mul_le_mul_of_nonneg_left hM hu
  have e2 := mul_le_mul_of_nonneg_right hM hA.le
  have e3 := mul_le_mul_of_nonneg_right hM hA2
  have e4 := mul_le_mul_of_nonneg_left e3 hη
  exact ⟨h.acc, h1, hc, hA, e1.trans h.uM, h.V_le, h.under1, h.underA, h.underAA, e4.trans h.underM,
    by have := h.overA; linarith, by have := h.overAA; linarith⟩

/-- the values that are there are as small as the others -/
theorem vals_bound {x : ℕ → Option K} (hx : ∀ i < M, ∀ v, x i = some v → |v| ≤ A) : ∀ i < (vals M x).length, |(vals M x).getD i 0| ≤ A := by
  intro i hi
  obtain ⟨l, hl, e⟩ := vals_mem (M := M) (x := x) (v := (vals M x).getD i 0) (by
    rw [show (vals M x).getD i 0 = (vals M x)[i] by simp [List.getD, hi]]
    exact List.getElem_mem hi)
  exact hx l hl _ e

/-- what mean and deviations of a row with missing values are computed as -/
theorem near_obs_dev (h : Moderate R u η big V A M) {x : ℕ → Option K} (hp : 1 ≤ present M x)
    (hc : (XF.round (present M x : K) : XF R) = .fin (present M x)) (hx : ∀ i < M, ∀ v, x i = some v → |v| ≤ A) :
    Near (meanOf (obs M x) : XF R) (obsMean M x) (5 * (V * A)) ∧ ∀ i < M, (x i).isSome → |obsDev M x i| ≤ 2 * A ∧
      Near (Arith.sub (.fin ((x i).getD 0)) (meanOf (obs M x)) : XF R) (obsDev M x i) (9 * (V * A)) := by
  have hple : present M x ≤ M := by
    unfold present
    exact (Finset.card_filter_le _ _).trans (by simp)
  have hmod := h.fewer hp hple hc
  rw [← vals_length] at hmod
  have hzA := vals_bound hx
  refine ⟨?_, fun i hi hs => ?_⟩
  · rw [meanOf_vals, ← mean_vals]
    exact near_mean hmod hzA
  · obtain ⟨v, hv⟩ := Option.isSome_iff_exists.1 hs
    have hmem : v ∈ vals M x := List.mem_filterMap.2 ⟨i, List.mem_range.2 hi, hv⟩
    obtain ⟨l, hl, e⟩ := List.mem_iff_getElem.1 hmem
    have e1 : (vals M x).getD l 0 = v := by rw [← e]; simp [List.getD, hl]
    have e2 : obsDev M x i = dev (vals M x).length (fun i => (vals M x).getD i 0) l := by
      unfold obsDev dev
      simp only [mean_vals, hv, e1]
      rfl
    have e3 : (Arith.sub (.fin ((x i).getD 0)) (meanOf (obs M x)) : XF R)
        = seqDev (vals M x).length (fun i => (.fin ((vals M x).getD i 0) : XF R)) l := by
      unfold seqDev
      simp only [meanOf_vals, hv, e1]
      rfl
    rw [e2, e3]
    exact ⟨abs_dev_le hmod.one_le hzA hl, near_dev hmod hzA hl⟩

/-- what mean, deviations and normaliser of a row with missing values are computed as -/
theorem near_obs (h : Moderate R u η big V A M) {x : ℕ → Option K} (hp : 1 ≤ present M x)
    (hc : (XF.round (present M x : K) : XF R) = .fin (present M x)) (hx : ∀ i < M, ∀ v, x i = some v → |v| ≤ A)
    (hf : ∀ i < M, ∀ v, x i = some v → Near (Arith.toFloat (.fin v : XF R)) v (2 * (V * A))) :
    (∀ i < M, (x i).isSome → |obsDev M x i| ≤ 2 * A ∧
      Near (Arith.sub (.fin ((x i).getD 0)) (meanOf (obs M x)) : XF R) (obsDev M x i) (9 * (V * A))) ∧
    Near (normOfRow (obs M x) (meanOf (obs M x)) : XF R) (obsSumSq M x) (61 * V * (M * A ^ 2)) ∧
    obsSumSq M x ≤ M * A ^ 2 := by
  have hple : present M x ≤ M := by
    unfold present
    exact (Finset.card_filter_le _ _).trans (by simp)
  have hmod := h.fewer hp hple hc
  rw [← vals_length] at hmod hple
  have hz : ∀ i < (vals M x).length, ∃ l < M, x l = some ((vals M x).getD i 0) := by
    intro i hi
    refine vals_mem ?_
    rw [show (vals M x).getD i 0 = (vals M x)[i] by simp [List.getD, hi]]
    exact List.getElem_mem hi
  have hzA := vals_bound hx
  have hzf : ∀ i < (vals M x).length, Near (Arith.toFloat (.fin ((vals M x).getD i 0) : XF R)) ((vals M x).getD i 0) (2 * (V * A)) := by
    intro i hi
    obtain ⟨l, hl, e⟩ := hz i hi
    exact hf l hl _ e
  have hV0 : 0 ≤ V := h.facts.2.2.2.2.1
  have hpK : ((vals M x).length : K) ≤ M := by exact_mod_cast hple
  have hM2 := mul_le_mul_of_nonneg_right hpK (sq_nonneg A)
  refine ⟨(near_obs_dev h hp hc hx).2, ?_, ?_⟩
  · have hn := near_norm hmod hzA hzf
    rw [sumSq_vals] at hn
    have e : normOfRow (obs M x) (meanOf (obs M x)) = seqNorm (vals M x).length fun i => (.fin ((vals M x).getD i 0) : XF R) := by
      rw [normOfRow_vals, meanOf_vals, map_fin_vals,
        normOfRow_seqNorm (x := fun i => (.fin ((vals M x).getD i 0) : XF R)) fun i _ => by simp]
    rw [e]
    refine hn.mono ?_
    have := mul_le_mul_of_nonneg_left hM2 hV0
    linarith
  · have := sumSq_le hmod.one_le hzA
    rw [sumSq_vals] at this
    linarith

/-- the value computed from one plan that uses no missing value -/
theorem plan_value (h : Moderate R u η big V A M) {x : ℕ → Option K} (hp : 1 ≤ present M x)
    (hc : (XF.round (present M x : K) : XF R) = .fin (present M x)) (hx : ∀ i < M, ∀ v, x i = some v → |v| ≤ A)
    (hf : ∀ i < M, ∀ v, x i = some v → Near (Arith.toFloat (.fin v : XF R)) v (2 * (V * A)))
    (hκ : 122 * V * (M * A ^ 2) ≤ obsSumSq M x) (hN : 0 < obsSumSq M x)
    (hb1 : 2 ≤ obsSumSq M x * big) (hb2 : 24 * (M * A ^ 2) ≤ obsSumSq M x * big)
    {m : ℕ} (hm : m ≤ M) {s : ℕ → ℕ} (hs : ∀ i < m, s i < M) (hun : ∀ i < m, (x i).isSome ∧ (x (s i)).isSome)
    {W : ℕ → XF R} {w : ℕ → K} (hW : ∀ i < m, Near (W i) (w i) (10 * u) ∧ |w i| ≤ 1) :
    ∃ v : K, corrValue ((obs M x : List (XF R)).map fun v => Arith.sub v (meanOf (obs M x))) (normOfRow (obs M x) (meanOf (obs M x)))
        ((List.range m).map fun i => (W i, s i)) = .fin v ∧
      |v - (∑ i ∈ range m, w i * obsDev M x i * obsDev M x (s i)) / obsSumSq M x|
        ≤ 250 * V * (M * A ^ 2 / obsSumSq M x) * (1 + |(∑ i ∈ range m, w i * obsDev M x i * obsDev M x (s i)) / obsSumSq M x|) := by
  obtain ⟨o1, o2, o3⟩ := near_obs h hp hc hx hf
  have e : (obs M x : List (XF R)).map (fun v => Arith.sub v (meanOf (obs M x)))
      = (List.range M).map fun i => Arith.sub (match x i with | some v => .fin v | none => .nan : XF R) (meanOf (obs M x)) := by
    unfold obs
    rw [List.map_map]
    rfl
  have hval := corrValue_seqDot hm (fun i => Arith.sub (match x i with | some v => .fin v | none => .nan : XF R) (meanOf (obs M x))) W s hs
    (normOfRow (obs M x) (meanOf (obs M x)))
  rw [e, hval]
  have hD : ∀ i < M, (x i).isSome → Near (Arith.sub (match x i with | some v => .fin v | none => .nan : XF R) (meanOf (obs M x)))
      (obsDev M x i) (9 * (V * A)) := by
    intro i hi hsome
    have := (o1 i hi hsome).2
    obtain ⟨v, hv⟩ := Option.isSome_iff_exists.1 hsome
    rw [hv] at this ⊢
    exact this
  have hnum := near_numerator_of h hm (fun i hi => hD i (by omega) (hun i hi).1) (fun i hi => hD (s i) (hs i hi) (hun i hi).2)
    (fun i hi => (o1 i (by omega) (hun i hi).1).1) (fun i hi => (o1 (s i) (hs i hi) (hun i hi).2).1)
    (fun i hi => (hW i hi).1) (fun i hi => (hW i hi).2)
  obtain ⟨hu, hη, hM, huV, hV0, h1, h2, huA, h3, h4, h5, h6, h7, h8, h9⟩ := h.facts
  have hP : |∑ i ∈ range m, w i * obsDev M x i * obsDev M x (s i)| ≤ 4 * (M * A ^ 2) := by
    refine (abs_sum_le_sum_abs _ _).trans ?_
    refine (sum_le_card_nsmul (range m) _ (4 * A ^ 2) fun i hi => ?_).trans ?_
    · have hi : i < m := by simpa using hi
      have d1 := (o1 i (by omega) (hun i hi).1).1
      have d2 := (o1 (s i) (hs i hi) (hun i hi).2).1
      have d3 := (hW i hi).2
      rw [abs_mul, abs_mul]
      have hA := h.pos
      have e2 : 4 * A ^ 2 = 1 * (2 * A) * (2 * A) := by ring
      rw [e2]
      exact mul_le_mul (mul_le_mul d3 d1 (abs_nonneg _) (by linarith)) d2 (abs_nonneg _) (by linarith)
    · rw [card_range, nsmul_eq_mul]
      have : (m : K) ≤ M := by exact_mod_cast hm
      have := mul_le_mul_of_nonneg_right this h9.le
      linarith
  exact near_quotient h hN hP o3 hnum o2 hκ hb1 hb2

end Sacf
