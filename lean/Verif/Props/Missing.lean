import Verif.Props.Acf
import Verif.Props.Stats

/-!
# Missing values: the lags that survive (C35)

`Props/Acf.lean` shows that a lag that uses a missing (NaN) value is NaN.  Here: at every other lag the value is the
published formula with the missing values left out of the mean and of the normaliser.
-/

set_option linter.unusedSectionVars false

namespace Sacf

open Finset

variable {K : Type} [Field K] [LinearOrder K] [IsStrictOrderedRing K] [FloorRing K]
variable {dm : K} {f32 ex : K → K}

/-- mean of the values that are there -/
def obsMean (M : ℕ) (x : ℕ → Option K) : K :=
  (∑ i ∈ range M, (x i).getD 0) / (((range M).filter fun i => (x i).isSome).card : K)

/-- deviation of a value that is there from that mean -/
def obsDev (M : ℕ) (x : ℕ → Option K) (i : ℕ) : K := (x i).getD 0 - obsMean M x

/-- sum of squared deviations of the values that are there -/
def obsSumSq (M : ℕ) (x : ℕ → Option K) : K := ∑ i ∈ range M with (x i).isSome, obsDev M x i ^ 2

/-- lag `k` uses no missing value: neither a sample that counts nor the one matched with it is missing -/
def Unaffected (M : ℕ) (t : ℕ → K) (x : ℕ → Option K) (s : ℕ → ℕ) (k : K) : Prop :=
  ∀ i < M, t i + k ≤ t (M - 1) → (x i).isSome ∧ (x (s i)).isSome

theorem normOfRow_obs (M : ℕ) (x : ℕ → Option K) (m : K) :
    normOfRow (obs M x : List (Exact dm f32 ex)) (.fin m)
      = .fin (∑ i ∈ range M with (x i).isSome, (f32 ((x i).getD 0) - m) ^ 2) := by
  unfold normOfRow
  induction M with
  | zero => simp [obs]
  | succ M ih =>
    unfold obs at *
    rw [List.range_succ, List.map_append, List.foldl_append, ih, Finset.range_add_one, Finset.filter_insert]
    cases hx : x M with
    | none =>
      rw [if_neg (by simp)]
      simp only [List.map_cons, List.map_nil, hx, List.foldl_cons, List.foldl_nil]
      rfl
    | some v =>
      rw [if_pos (by simp), Finset.sum_insert (by simp)]
      simp [hx, pow_two, add_comm]

/-- only the entries a plan uses matter -/
theorem corrValue_congr {F : Type} [Arith F] {ys zs : List F} (nrm : F) (ps : List (F × ℕ))
    (h : ∀ (i : ℕ) (p : F × ℕ), ps[i]? = some p → ys[i]? = zs[i]? ∧ ys[p.2]? = zs[p.2]?) :
    corrValue ys nrm ps = corrValue zs nrm ps := by
  have key : ∀ (l : List ((F × ℕ) × ℕ)) (acc : F), (∀ q ∈ l, ys[q.2]? = zs[q.2]? ∧ ys[q.1.2]? = zs[q.1.2]?) →
      l.foldl (fun acc p => Arith.addMul acc (Arith.mul p.1.1 (ys.getD p.2 Arith.zero))
        (ys.getD p.1.2 Arith.zero)) acc
      = l.foldl (fun acc p => Arith.addMul acc (Arith.mul p.1.1 (zs.getD p.2 Arith.zero))
        (zs.getD p.1.2 Arith.zero)) acc := by
    intro l
    induction l with
    | nil => intro acc _; rfl
    | cons q l ih =>
      intro acc hq
      obtain ⟨h1, h2⟩ := hq q (by simp)
      simp only [List.foldl_cons, List.getD_eq_getElem?_getD, h1, h2]
      simp only [List.getD_eq_getElem?_getD] at ih
      exact ih _ fun q' hq' => hq q' (by simp [hq'])
  unfold corrValue
  rw [key ps.zipIdx _ fun q hq => by
    obtain ⟨i, hi⟩ := List.mem_iff_getElem?.1 hq
    rw [List.getElem?_zipIdx] at hi
    cases hp : ps[i]? with
    | none => simp [hp] at hi
    | some p =>
      simp only [hp, Option.map_some, Option.some.injEq, Nat.zero_add] at hi
      subst hi
      exact h i p hp]

/-- **C35**, what holds: at a lag that uses no missing value the correlation is the published formula, the missing
values being left out of the mean and of the normaliser. -/
theorem C35_formula_partial (d : DS (Exact dm f32 ex)) (hd : Constructed d) (g : LagArgs (Exact dm f32 ex)) (wt : String)
    (r : AcResult (Exact dm f32 ex)) (hr : autocorrelation .fabs d g "natural" wt = .ok r)
    (hw : KnownWeight wt) (M : ℕ) (t : ℕ → K) (ht : d.timeseries = samples M t) (hinc : Increasing M t)
    (α : K) (hα : 0 < α) (ha : r.corr.alpha = .fin α)
    (j : ℕ) (x : ℕ → Option K) (hrow : d.HasRow j (obs M x)) (hf : ∀ i < M, ∀ v, x i = some v → f32 v = v)
    (hv : obsSumSq M x ≠ 0) (n : ℕ) (k : K) (hn : r.lags[n]? = some (.fin k)) (s : ℕ → ℕ) (hs : Selects M t k s)
    (hun : Unaffected M t x s k) :
    r.At j n (.fin k) (.fin ((∑ i ∈ range M with t i + k ≤ t (M - 1),
      weight ex wt α |t (s i) - (t i + k)| * obsDev M x i * obsDev M x (s i)) / obsSumSq M x)) := by
  obtain ⟨hM, hnt, _⟩ := built_times hd ht
  obtain ⟨ps, h1, h2⟩ := result_at hd hr hrow hn
  rw [ha, hnt] at h1
  obtain ⟨m, s', h3, h4, h5, h6⟩ := lagPlan_exact (dm := dm) (f32 := f32) (ex := ex) hM (hinc.sub_const (t 0)) hw hα k
  rw [h6] at h1
  simp only [Res.ok.injEq] at h1
  subst h1
  have hp : present M x ≠ 0 := by
    intro h0
    apply hv
    unfold present at h0
    rw [Finset.card_eq_zero] at h0
    unfold obsSumSq
    rw [h0, Finset.sum_empty]
  have hmean : meanOf (obs M x : List (Exact dm f32 ex)) = .fin (obsMean M x) := meanOf_obs M x hp
  have hnorm : normOfRow (obs M x : List (Exact dm f32 ex)) (.fin (obsMean M x)) = .fin (obsSumSq M x) := by
    rw [normOfRow_obs]
    congr 1
    unfold obsSumSq obsDev
    apply Finset.sum_congr rfl
    intro i hi
    rw [Finset.mem_filter, Finset.mem_range] at hi
    cases hx : x i with
    | none => simp [hx] at hi
    | some v => simp [hf i hi.1 v hx]
  have hmem : ∀ i < M, (i < m ↔ t i + k ≤ t (M - 1)) := by
    intro i hi
    rw [h4 i hi]
    constructor <;> intro h <;> linarith
  have hsel : ∀ i < m, s' i = s i := by
    intro i hi
    have a1 := h5 i hi
    have a2 := hs i (by omega) ((hmem i (by omega)).1 hi)
    have e2 : t i - t 0 + k = (t i + k) - t 0 := by ring
    rw [e2, IsNearest.sub_const] at a1
    exact a1.unique a2
  have hget : ∀ i < M, (x i).isSome → ((obs M x : List (Exact dm f32 ex)).map fun v => Arith.sub v (.fin (obsMean M x)))[i]?
      = (samples M (obsDev M x) : List (Exact dm f32 ex))[i]? := by
    intro i hi hx
    obtain ⟨v, hv⟩ := Option.isSome_iff_exists.1 hx
    unfold obs samples
    rw [List.map_map]
    simp only [List.getElem?_map, List.getElem?_range hi, Option.map_some, Function.comp, hv, ex_sub]
    unfold obsDev
    simp [hv]
  rw [hmean, hnorm, corrValue_congr (zs := samples M (obsDev M x)) _ _ (by
      intro i p hp
      rw [List.getElem?_map] at hp
      by_cases hi : i < m
      · rw [List.getElem?_range hi] at hp
        simp only [Option.map_some, Option.some.injEq] at hp
        obtain ⟨u1, u2⟩ := hun i (by omega) ((hmem i (by omega)).1 hi)
        subst hp
        refine ⟨hget i (by omega) u1, hget _ (h5 i hi).1 ?_⟩
        show (x (s' i)).isSome
        rw [hsel i hi]; exact u2
      · rw [List.getElem?_eq_none (by simpa using hi)] at hp
        simp at hp), corrValue_samples h3 _ _ _ (fun i hi => (h5 i hi).1) hv] at h2
  have hset : (range M).filter (fun i => t i + k ≤ t (M - 1)) = range m := by
    ext i
    simp only [Finset.mem_filter, Finset.mem_range]
    constructor
    · rintro ⟨hi, h⟩; exact (hmem i hi).2 h
    · intro hi; exact ⟨by omega, (hmem i (by omega)).1 hi⟩
  rw [hset]
  have hsum : ∑ i ∈ range m, weight ex wt α |t (s i) - (t i + k)| * obsDev M x i * obsDev M x (s i)
      = ∑ i ∈ range m, weight ex wt α |t (s' i) - t 0 - (t i - t 0 + k)| * obsDev M x i * obsDev M x (s' i) := by
    apply Finset.sum_congr rfl
    intro i hi
    rw [Finset.mem_range] at hi
    have e3 : t (s i) - t 0 - (t i - t 0 + k) = t (s i) - (t i + k) := by ring
    rw [hsel i hi, e3]
  rw [hsum]
  exact h2

/-- **C35, exactly**: the value at a lag is NaN if and only if the lag uses a missing value (the values that are there
are not all equal). -/
theorem C35_nan_iff_partial (d : DS (Exact dm f32 ex)) (hd : Constructed d) (g : LagArgs (Exact dm f32 ex)) (wt : String)
    (r : AcResult (Exact dm f32 ex)) (hr : autocorrelation .fabs d g "natural" wt = .ok r)
    (hw : KnownWeight wt) (M : ℕ) (t : ℕ → K) (ht : d.timeseries = samples M t) (hinc : Increasing M t)
    (α : K) (hα : 0 < α) (ha : r.corr.alpha = .fin α)
    (j : ℕ) (x : ℕ → Option K) (hrow : d.HasRow j (obs M x)) (hf : ∀ i < M, ∀ v, x i = some v → f32 v = v)
    (hv : obsSumSq M x ≠ 0) (n : ℕ) (k : K) (hn : r.lags[n]? = some (.fin k)) (s : ℕ → ℕ) (hs : Selects M t k s) :
    r.At j n (.fin k) .nan ↔ ¬ Unaffected M t x s k := by
  constructor
  · intro h hun
    obtain ⟨_, row, h1, h2⟩ := h
    obtain ⟨_, row', h3, h4⟩ := C35_formula_partial d hd g wt r hr hw M t ht hinc α hα ha j x hrow hf hv n k hn s hs hun
    rw [h1, Option.some.injEq] at h3
    subst h3
    rw [h2] at h4
    simp at h4
  · intro h
    unfold Unaffected at h
    push Not at h
    obtain ⟨i, hi, hle, hx⟩ := h
    have hnan : ∀ i < M, ¬ (x i).isSome → (obs M x : List (Exact dm f32 ex))[i]? = some .nan := by
      intro i hi hx
      unfold obs
      have : x i = none := by simpa using hx
      simp [hi, this]
    by_cases h0 : (x i).isSome
    · refine C35_poisoned d hd g wt r hr hw M t ht hinc α hα ha j _ hrow (s i) (hnan _ (hs i hi hle).1 (hx h0)) n k hn
        ⟨i, hi, hle, Or.inr (hs i hi hle)⟩
    · exact C35_poisoned d hd g wt r hr hw M t ht hinc α hα ha j _ hrow i (hnan _ hi h0) n k hn ⟨i, hi, hle, Or.inl rfl⟩

/-- the third of five values is missing: lag 3 uses the samples 0, 1, 3, 4 only -/
def missX (i : ℕ) : Option ℚ := [some 1, some 0, none, some 0, some 2].getD i none

/-- the hypotheses of C35_formula_partial hold for it, and this is what the formula gives -/
example : Unaffected 5 (fun i : ℕ => (i : ℚ)) missX (fun i => i + 3) 3 ∧ obsSumSq 5 missX = 11 / 4 ∧
    (∑ i ∈ range 5 with ((i : ℕ) : ℚ) + 3 ≤ ((5 - 1 : ℕ) : ℚ), obsDev 5 missX i * obsDev 5 missX (i + 3)) / obsSumSq 5 missX = -9 / 22 := by
  refine ⟨?_, by decide +kernel, by decide +kernel⟩
  intro i hi h
  have : i + 3 ≤ 4 := by
    simp only at h
    exact_mod_cast h
  have : i = 0 ∨ i = 1 := by omega
  rcases this with rfl | rfl <;> decide

example : ((mkFlat (q [0, 1, 2, 3, 4]) (obs 5 missX)).bind fun d => (autocorrelation .fabs d).bind fun r =>
    .ok (r.lags[7]?, r.corrs.rows.map (·[7]?))) = .ok (some (.fin 3), [some (.fin (-9 / 22))]) := by decide +kernel

end Sacf
