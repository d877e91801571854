import Verif.Props.AnyTimes
import Verif.Props.Error64

/-!
# How far the reported lags are from the nominal ones (C71), C70 in binary64
-/

set_option linter.unusedSectionVars false
set_option linter.unusedVariables false

namespace Sacf

open Arith Finset

section rounded
variable {K : Type} [Field K] [LinearOrder K] [IsStrictOrderedRing K] [FloorRing K] {R : Rnd K} {u η big : K} {M : ℕ} {t : ℕ → K}

/-- repeated addition drifts by at most one rounding per step -/
theorem gridPt_near (h : Accurate R u η big) {lo hi res : K} (hlo : (XF.round lo : XF R) = .fin lo) (hres : 0 < res)
    (hbig : |lo| + |hi| + res ≤ big) {m : ℕ} (hm : ∀ i < m, Arith.le (gridPt (.fin lo) (.fin res : XF R) i) (.fin hi) = true) :
    ∀ n ≤ m, Near (gridPt (.fin lo) (.fin res : XF R) n) (lo + n * res) (n * (u * (|lo| + |hi| + res) + η)) := by
  intro n
  induction n with
  | zero => intro _; exact ⟨lo, rfl, by simp⟩
  | succ n ih =>
    intro hn
    obtain ⟨y, hy, hy'⟩ := ih (by omega)
    rw [gridPt_succ', hy]
    have hle := hm n (by omega)
    rw [hy, xf_le, decide_eq_true_eq] at hle
    have hge : lo ≤ y := by
      have := gridPt_mono (lo := (.fin lo : XF R)) (res := .fin res) ⟨hlo, rfl⟩ (by simpa using hres) (Nat.zero_le n)
      rw [hy] at this
      have e : gridPt (.fin lo) (.fin res : XF R) 0 = .fin lo := rfl
      rwa [e, xf_le, decide_eq_true_eq] at this
    have habs : |y + res| ≤ |lo| + |hi| + res := by
      have a1 := neg_abs_le lo
      have a2 := le_abs_self hi
      have a3 := abs_nonneg lo
      have a4 := abs_nonneg hi
      rw [abs_le]; constructor <;> linarith
    obtain ⟨z, hz, hz'⟩ := h.round (y + res) (habs.trans hbig)
    refine ⟨z, hz, ?_⟩
    have e1 : z - (lo + ((n + 1 : ℕ) : K) * res) = (z - (y + res)) + (y - (lo + n * res)) := by push_cast; ring
    rw [e1]
    refine (abs_add_le _ _).trans ?_
    have := mul_le_mul_of_nonneg_left habs h.u_nonneg
    push_cast
    linarith

/-- **C71**: the lags of a result are the nominal lags `min_lag + n lag_resolution`, each up to `n q`, where `q = u (|min_lag| + |max_lag| + lag_resolution) + η`
bounds the rounding of one addition; zero may be added.  No lag is more than `n q` beyond `max_lag`, and the first nominal lag that is missing is more
than `max_lag - m q`. -/
theorem C71_drift (h : Accurate R u η big) (a : AbsFn) (d : DS (XF R)) (hd : Constructed d) (g : LagArgs (XF R)) (sel wt : String)
    (r : AcResult (XF R)) (hr : autocorrelation a d g sel wt = .ok r) (lo hi res : K)
    (hlo : r.corr.minLag = .fin lo) (hlo' : (XF.round lo : XF R) = .fin lo) (hhi : r.corr.maxLag = .fin hi)
    (hres : r.corr.lagRes = .fin res) (hpos : 0 < res) (hbig : |lo| + |hi| + res ≤ big) :
    ∃ (m : ℕ) (y : ℕ → K), (r.lags.length = m ∨ r.lags.length = m + 1) ∧
      (∀ n < m, .fin (y n) ∈ r.lags ∧ y n ≤ hi ∧ |y n - (lo + n * res)| ≤ n * (u * (|lo| + |hi| + res) + η)) ∧
      (∀ n n', n < n' → n' < m → y n < y n') ∧
      (∀ k ∈ r.lags, k = .fin 0 ∨ ∃ n < m, k = .fin (y n)) ∧
      hi < lo + m * res + m * (u * (|lo| + |hi| + res) + η) := by
  obtain ⟨m, hg, hl⟩ := result_lags hd.wf hr
  rw [hlo, hhi, hres] at hg
  rw [hlo, hres] at hl
  have hnear := gridPt_near h hlo' hpos hbig hg.1
  have hex : ∀ n, ∃ y, n ≤ m → gridPt (.fin lo) (.fin res : XF R) n = .fin y ∧
      |y - (lo + n * res)| ≤ n * (u * (|lo| + |hi| + res) + η) := by
    intro n
    by_cases hn : n ≤ m
    · obtain ⟨y, hy⟩ := hnear n hn
      exact ⟨y, fun _ => hy⟩
    · exact ⟨0, fun h => absurd h hn⟩
  choose y hy using hex
  refine ⟨m, y, ?_, fun n hn => ⟨?_, ?_, (hy n hn.le).2⟩, ?_, ?_, ?_⟩
  · rcases hl with ⟨_, h2⟩ | ⟨i, him, _, _, _, h2⟩
    · left; rw [h2]; simp
    · right; rw [h2]; simp; omega
  · rw [← (hy n hn.le).1]
    rcases hl with ⟨_, h2⟩ | ⟨i, him, _, _, _, h2⟩
    · rw [h2]; exact List.mem_map.2 ⟨n, by simpa using hn, rfl⟩
    · rw [h2, List.mem_append, List.mem_cons]
      by_cases hc : n < i
      · left; exact List.mem_map.2 ⟨n, by simpa using hc, rfl⟩
      · right; right; exact List.mem_map.2 ⟨n - i, by simp; omega, by congr 1; omega⟩
  · have := hg.1 n hn
    rwa [(hy n hn.le).1, xf_le, decide_eq_true_eq] at this
  · intro n n' hnn' hn'
    have := gridPt_strict (lo := (.fin lo : XF R)) (hi := .fin hi) (res := .fin res) ⟨hlo', rfl⟩ (by simpa using hpos) hg hnn' (by omega)
    rwa [(hy n (by omega)).1, (hy n' (by omega)).1, xf_lt, decide_eq_true_eq] at this
  · intro k hk
    rcases hl with ⟨_, h2⟩ | ⟨i, him, _, _, _, h2⟩
    · right
      rw [h2, List.mem_map] at hk
      obtain ⟨n, hn, rfl⟩ := hk
      have hn : n < m := by simpa using hn
      exact ⟨n, hn, (hy n hn.le).1⟩
    · rw [h2, List.mem_append, List.mem_cons] at hk
      rcases hk with hk | rfl | hk
      · right
        obtain ⟨n, hn, rfl⟩ := List.mem_map.1 hk
        have hn : n < i := by simpa using hn
        exact ⟨n, by omega, (hy n (by omega)).1⟩
      · left; rfl
      · right
        obtain ⟨n, hn, rfl⟩ := List.mem_map.1 hk
        have hn : n < m - i := by simpa using hn
        exact ⟨i + n, by omega, (hy (i + n) (by omega)).1⟩
  · have := hg.2
    rw [(hy m le_rfl).1, xf_le, decide_eq_false_iff_not, not_le] at this
    have := (abs_le.1 (hy m le_rfl).2).2
    linarith

/-! ### default calls -/

theorem findMinDiff_go_fin (l : List (XF R)) (g : ℕ → K) (a : K)
    (hg : ∀ i (hi : i + 1 < l.length), Arith.sub l[i + 1] l[i] = .fin (g i)) :
    ∃ b, findMinDiff.go (.fin a : XF R) l = .fin b ∧ b ≤ a ∧ (∀ i, i + 1 < l.length → b ≤ g i) ∧
      (b = a ∨ ∃ i, i + 1 < l.length ∧ b = g i) := by
  induction l generalizing a g with
  | nil => exact ⟨a, rfl, le_rfl, by simp, Or.inl rfl⟩
  | cons x l ih =>
    cases l with
    | nil => exact ⟨a, rfl, le_rfl, by simp, Or.inl rfl⟩
    | cons y rest =>
      have hd : Arith.sub y x = .fin (g 0) := hg 0 (by simp)
      obtain ⟨b, h1, h2, h3, h4⟩ := ih (fun i => g (i + 1)) (if g 0 < a then g 0 else a) (fun i hi => by
        have := hg (i + 1) (by simp at hi ⊢; omega)
        simpa using this)
      refine ⟨b, ?_, ?_, ?_, ?_⟩
      · rw [← h1, findMinDiff.go]
        simp only [hd, xf_lt, decide_eq_true_eq]
        split <;> rfl
      · refine h2.trans ?_
        split <;> linarith
      · intro i hi
        cases i with
        | zero =>
          refine h2.trans ?_
          split <;> linarith
        | succ i => exact h3 i (by simp at hi ⊢; omega)
      · rcases h4 with h4 | ⟨i, hi, h4⟩
        · split at h4
          · exact Or.inr ⟨0, by simp, h4⟩
          · exact Or.inl h4
        · exact Or.inr ⟨i + 1, by simp at hi ⊢; omega, h4⟩

/-- the default lag parameters of arbitrary time stamps -/
theorem default_near (h : Accurate R u η big) (hu : 100 * u ≤ 1) {d : DS (XF R)} (hd : Constructed d)
    (ht : d.timeseries = samples M t) (hinc : Increasing M t) {δ : K} (hδ : IsMinGap M t δ)
    (hbig : 4 * (t (M - 1) - t 0 + η) ≤ big) (hmax : t (M - 1) - t 0 ≤ R.dblMax) :
    ∃ T res, lastD d.normT = .fin T ∧ (XF.round T : XF R) = .fin T ∧ 0 ≤ T ∧ |T - (t (M - 1) - t 0)| ≤ u * (t (M - 1) - t 0) + η ∧
      findMinDiff d.normT = .fin res ∧ |res - δ| ≤ 4 * (u * (t (M - 1) - t 0) + η) := by
  obtain ⟨hM0, hnt⟩ := normT_rounded hd ht
  have hord : InOrder M t := fun i j hij hj => hinc.le hij hj
  obtain ⟨⟨i0, j0, hij0, hj0, he0⟩, hmin⟩ := hδ
  have hη := h.η_nonneg
  have hu0 := h.u_nonneg
  have hfin : ∀ i, ∃ y, i < M → (XF.round (t i - t 0) : XF R) = .fin y := by
    intro i
    by_cases hi : i < M
    · have a1 := hord 0 i (Nat.zero_le _) hi
      have a2 := hord i (M - 1) (by omega) (by omega)
      obtain ⟨y, hy, _⟩ := h.round (t i - t 0) (by rw [abs_of_nonneg (by linarith)]; linarith)
      exact ⟨y, fun _ => hy⟩
    · exact ⟨0, fun h => absurd h hi⟩
  choose y hy using hfin
  have hT0 : 0 ≤ t (M - 1) - t 0 := by have := hord 0 (M - 1) (Nat.zero_le _) (by omega); linarith
  obtain ⟨hq0, n1, _, _⟩ := near_times h hu hord 0 (by rw [abs_zero, add_zero]; exact hbig) hy
  have hq : timeErr u η M t 0 = u * (t (M - 1) - t 0) + η := by unfold timeErr; rw [abs_zero, add_zero]
  rw [hq] at hq0 n1
  set q := u * (t (M - 1) - t 0) + η with hqd
  have hnt' : d.normT = samples M y := by
    rw [hnt]
    unfold samples
    apply List.map_congr_left
    intro i hi
    exact hy i (List.mem_range.1 hi)
  have hr : ∀ i, i + 1 < M → 0 ≤ t (i + 1) - t i ∧ t (i + 1) - t i ≤ t (M - 1) - t 0 := fun i hi => by
    have a1 := hord 0 i (Nat.zero_le _) (by omega)
    have a2 := hord i (i + 1) (by omega) hi
    have a3 := hord (i + 1) (M - 1) (by omega) (by omega)
    constructor <;> linarith
  have hgap : ∀ i, ∃ g, i + 1 < M → Arith.sub (.fin (y (i + 1))) (.fin (y i)) = (.fin g : XF R) ∧ |g - (t (i + 1) - t i)| ≤ 4 * q := by
    intro i
    by_cases hi : i + 1 < M
    · have a1 := hr i hi
      have e : t (i + 1) - t i = (t (i + 1) - t 0) - (t i - t 0) := by ring
      obtain ⟨g, hg, hg'⟩ := near_sub h (⟨_, rfl, n1 (i + 1) hi⟩ : Near (.fin (y (i + 1)) : XF R) _ _)
        (⟨_, rfl, n1 i (by omega)⟩ : Near (.fin (y i) : XF R) _ _) (Z := t (M - 1) - t 0 + 2 * q) (by
          rw [← e, abs_of_nonneg a1.1]; linarith) (by
          have := mul_le_mul_of_nonneg_right hu hT0
          linarith)
      refine ⟨g, fun _ => ⟨hg, ?_⟩⟩
      rw [e]
      refine hg'.trans ?_
      have e2 : u * (t (M - 1) - t 0 + 2 * q) = u * (t (M - 1) - t 0) + 2 * (u * q) := by ring
      have := mul_le_mul_of_nonneg_right hu hq0
      rw [e2]
      linarith
    · exact ⟨0, fun h => absurd h hi⟩
  choose g hg using hgap
  obtain ⟨b, h1, h2, h3, h4⟩ := findMinDiff_go_fin (samples M y : List (XF R)) g R.dblMax (by
    intro i hi
    rw [samples_length] at hi
    have e : ∀ n (hn : n < (samples M y : List (XF R)).length), (samples M y : List (XF R))[n] = .fin (y n) := by
      intro n hn; simp [samples]
    rw [e, e]
    exact (hg i hi).1)
  rw [samples_length] at h3 h4
  refine ⟨y (M - 1), b, ?_, ?_, ?_, n1 (M - 1) (by omega), ?_, ?_⟩
  · rw [hnt']; exact samples_last hM0
  · have := round_isDouble (R := R) (t (M - 1) - t 0)
    rw [hy (M - 1) (by omega)] at this
    exact this
  · have := round_nonneg (R := R) hT0
    rw [hy (M - 1) (by omega)] at this
    simpa using this
  · rw [hnt']; exact h1
  · have hnb : t (i0 + 1) - t i0 = δ := by
      have a1 := hmin i0 (i0 + 1) (by omega) (by omega)
      have a2 := hord (i0 + 1) j0 (by omega) hj0
      apply le_antisymm _ a1
      linarith
    have b1 := (abs_le.1 (hg i0 (by omega)).2).2
    have b2 := h3 i0 (by omega)
    rw [hnb] at b1
    rw [abs_le]
    refine ⟨?_, by linarith⟩
    rcases h4 with h4 | ⟨i, hi, h4⟩
    · have := (hr i0 (by omega)).2
      rw [hnb] at this
      linarith
    · have c1 := (abs_le.1 (hg i hi).2).1
      have c2 := hmin i (i + 1) (by omega) hi
      linarith

/-- **C71** for default calls: with `T` the time span and `δ` the smallest distance of two time stamps, `q = u T + η` and `δ > 4 q`, the lags are
`-T + n δ` up to `(8 n + 1) q` each, zero may be added, and the grid does not stop early or late by more than that. -/
theorem C71_default (h : Accurate R u η big) (hu : 100 * u ≤ 1) (a : AbsFn) (d : DS (XF R)) (hd : Constructed d) (M : ℕ) (t : ℕ → K)
    (ht : d.timeseries = samples M t) (hinc : Increasing M t) (δ : K) (hδ : IsMinGap M t δ)
    (hbig : 6 * (t (M - 1) - t 0 + η) ≤ big) (hmax : t (M - 1) - t 0 ≤ R.dblMax)
    (hδq : 4 * (u * (t (M - 1) - t 0) + η) < δ) (α : Option (XF R)) (sel wt : String) (r : AcResult (XF R))
    (hr : autocorrelation a d { alpha := α } sel wt = .ok r) :
    ∃ (m : ℕ) (y : ℕ → K), (r.lags.length = m ∨ r.lags.length = m + 1) ∧
      (∀ n < m, .fin (y n) ∈ r.lags ∧ y n ≤ t (M - 1) - t 0 + (u * (t (M - 1) - t 0) + η) ∧
        |y n - (-(t (M - 1) - t 0) + n * δ)| ≤ (8 * n + 1) * (u * (t (M - 1) - t 0) + η)) ∧
      (∀ n n', n < n' → n' < m → y n < y n') ∧
      (∀ k ∈ r.lags, k = .fin 0 ∨ ∃ n < m, k = .fin (y n)) ∧
      t (M - 1) - t 0 < -(t (M - 1) - t 0) + m * δ + (8 * m + 2) * (u * (t (M - 1) - t 0) + η) := by
  have hη := h.η_nonneg
  have hu0 := h.u_nonneg
  obtain ⟨hM0, _⟩ := normT_rounded hd ht
  have hT0 : 0 ≤ t (M - 1) - t 0 := by have := hinc.le (Nat.zero_le (M - 1)) (by omega); linarith
  have hδT : δ ≤ t (M - 1) - t 0 := by
    obtain ⟨⟨i0, j0, hij0, hj0, he0⟩, hmin⟩ := hδ
    exact hmin 0 (M - 1) (by omega) (by omega)
  obtain ⟨T, res, p1, p2, p3, p4, p5, p6⟩ := default_near h hu hd ht hinc hδ (by linarith) hmax
  set S := t (M - 1) - t 0 with hS
  set q := u * S + η with hq
  have huS : 0 ≤ u * S := mul_nonneg hu0 hT0
  have hq0 : 0 ≤ q := by linarith
  have hqS : 100 * q ≤ S + 100 * η := by
    have := mul_le_mul_of_nonneg_right hu hT0
    linarith
  obtain ⟨a1, a2, a3, _⟩ := result_params hd.wf hr
  simp only [Option.getD_none] at a1 a2 a3
  rw [p1] at a1 a2
  rw [p5] at a3
  have b4 := abs_le.1 p4
  have b6 := abs_le.1 p6
  have hTn : (XF.round (-T) : XF R) = .fin (-T) := by rw [round_neg, p2]; rfl
  have habs : |-T| + |T| + res = 2 * T + res := by rw [abs_neg, abs_of_nonneg p3]; ring
  obtain ⟨m, y, c1, c2, c3, c4, c5⟩ := C71_drift h a d hd _ sel wt r hr (-T) T res a1 hTn a2 a3 (by linarith [b6.1]) (by
    rw [habs]; linarith [b4.2, b6.2])
  rw [habs] at c2 c5
  have hstep : u * (2 * T + res) + η ≤ 4 * q := by
    have e1 : 2 * T + res ≤ 3 * S + 6 * q := by linarith [b4.2, b6.2]
    have e2 := mul_le_mul_of_nonneg_left e1 hu0
    have e3 : u * (3 * S + 6 * q) = 3 * (u * S) + 6 * (u * q) := by ring
    have e4 := mul_le_mul_of_nonneg_right hu hq0
    linarith
  have hdist : ∀ (n : ℕ) (z : K), |z - (-T + n * res)| ≤ n * (u * (2 * T + res) + η) → |z - (-S + n * δ)| ≤ (8 * n + 1) * q := by
    intro n z hz
    have e1 : z - (-S + n * δ) = (z - (-T + n * res)) + (n * (res - δ) - (T - S)) := by ring
    have hn0 : (0 : K) ≤ n := Nat.cast_nonneg n
    have e2 : |n * (res - δ) - (T - S)| ≤ n * (4 * q) + q := by
      refine (abs_sub _ _).trans (add_le_add ?_ p4)
      rw [abs_mul, abs_of_nonneg hn0]
      exact mul_le_mul_of_nonneg_left p6 hn0
    have e3 := mul_le_mul_of_nonneg_left hstep hn0
    rw [e1]
    refine (abs_add_le _ _).trans ?_
    linarith
  refine ⟨m, y, c1, fun n hn => ⟨(c2 n hn).1, ?_, hdist n _ (c2 n hn).2.2⟩, c3, c4, ?_⟩
  · linarith [(c2 n hn).2.1, b4.2]
  · have hm0 : (0 : K) ≤ m := Nat.cast_nonneg m
    have e2 := mul_le_mul_of_nonneg_left (show res ≤ δ + 4 * q by linarith [b6.2]) hm0
    have e3 := mul_le_mul_of_nonneg_left hstep hm0
    linarith [b4.1, b4.2]

end rounded

section binary64
variable {ex : ℚ → ℚ} {fu : Bool} {M : ℕ} {t x : ℕ → ℚ} {A V : ℚ} {j : ℕ}

/-- **C70 in binary64**: up to `2^29` arbitrary doubles in order as time stamps, default or given lags, either fractional weight function.  The samples are matched
correctly up to `10 q`, `q = 2^-53 (span + |k|) + 2^-1075`, and the value is within `250 V κ (1 + |ρ|) + 65 κ q / α` of the defining
formula for that matching. -/
theorem C70_binary64 {d : DS (D64 ex fu)} (ht : AnyTimes64 d M t) (hv : Values64 d M j x A V) (ga : LagArgs (D64 ex fu)) (wt : String)
    (hw : wt = "fractional" ∨ wt = "fractional_squared") (r : AcResult (D64 ex fu))
    (hr : autocorrelation .fabs d ga "natural" wt = .ok r) (α : ℚ) (hα : r.corr.alpha = .fin α) (hα0 : pow2 (-600) ≤ α)
    (n : ℕ) (k : ℚ) (hn : r.lags[n]? = some (.fin k)) (hD : t (M - 1) - t 0 + |k| ≤ pow2 1000)
    (hDα : t (M - 1) - t 0 + |k| ≤ pow2 400 * α) :
    ∃ (m : ℕ) (s : ℕ → ℕ) (v : ℚ), NearlySelects M t k (10 * (pow2 (-53) * (t (M - 1) - t 0 + |k|) + pow2 (-1075))) m s ∧
      r.At j n (.fin k) (.fin v) ∧
      |v - matchedAcf m M t x (weight ex wt α) s (sumSq M x) k|
        ≤ 250 * V * (M * A ^ 2 / sumSq M x) * (1 + |matchedAcf m M t x (weight ex wt α) s (sumSq M x) k|) +
          65 * (M * A ^ 2 / sumSq M x) * ((pow2 (-53) * (t (M - 1) - t 0 + |k|) + pow2 (-1075)) / α) := by
  obtain ⟨hmod, hf, hN, hb1, hb2, hb3⟩ := facts64 (ex := ex) (fu := fu) ht.one_le ht.le hv.amin hv.amax hv.unit hv.small hv.bound hv.float
    hv.spread
  have hαp : 0 < α := lt_of_lt_of_le (pow2_pos _) hα0
  have hbig := pow2_le_big
  have hone : pow2 (-1075) ≤ 1 := by rw [← pow2_zero]; exact pow2_mono (by norm_num)
  have h1000 : (1 : ℚ) ≤ pow2 1000 := by rw [← pow2_zero]; exact pow2_mono (by norm_num)
  have hT : 0 ≤ t (M - 1) - t 0 := by
    have := ht.order 0 (M - 1) (Nat.zero_le _) (by have := ht.one_le; omega); linarith
  have hk := abs_nonneg k
  refine C70_error hmod d ht.built ht.times ht.order j hv.row hv.bound hf ga wt hw r hr α hα hαp n k hn ?_ hv.spread hN hb1 hb2 hb3 ?_
  · have e1 : 8 * pow2 1000 = pow2 1003 := by
      rw [show (1003 : ℤ) = ((3 : ℕ) : ℤ) + 1000 by norm_num, pow2_add, pow2_nat]; norm_num
    have := pow2_mono (show (1003 : ℤ) ≤ 1023 by norm_num)
    linarith
  · have h0 := pow2_pos (-1075)
    have e0 : 0 ≤ 2 * (t (M - 1) - t 0 + |k| + 3 * pow2 (-1075)) / α := div_nonneg (by linarith) hαp.le
    have e1 : 2 * (t (M - 1) - t 0 + |k| + 3 * pow2 (-1075)) / α ≤ pow2 403 := by
      rw [div_le_iff₀ hαp]
      have a1 : pow2 403 = 8 * pow2 400 := by
        rw [show (403 : ℤ) = ((3 : ℕ) : ℤ) + 400 by norm_num, pow2_add, pow2_nat]; norm_num
      have a2 : pow2 (-1075) ≤ pow2 400 * α := by
        refine (show pow2 (-1075) ≤ pow2 400 * pow2 (-600) by rw [← pow2_add]; exact pow2_mono (by norm_num)).trans ?_
        exact mul_le_mul_of_nonneg_left hα0 (pow2_pos _).le
      rw [a1]
      linarith
    have e2 := pow_le_pow_left₀ e0 e1 2
    have e3 : pow2 403 ≤ pow2 403 ^ 2 := by
      have : (1 : ℚ) ≤ pow2 403 := by rw [← pow2_zero]; exact pow2_mono (by norm_num)
      nlinarith
    have e4 : 8 * pow2 403 ^ 2 = pow2 809 := by
      rw [show (809 : ℤ) = ((3 : ℕ) : ℤ) + (403 + 403) by norm_num, pow2_add, pow2_nat, pow2_add]; ring
    have := pow2_mono (show (809 : ℤ) ≤ 1023 by norm_num)
    linarith

/-- **C70 in binary64**, no close decisions: the value is close to the defining formula with the nearest sample for every shifted time. -/
theorem C70_binary64_clear {d : DS (D64 ex fu)} (ht : AnyTimes64 d M t) (hv : Values64 d M j x A V) (ga : LagArgs (D64 ex fu)) (wt : String)
    (hw : wt = "fractional" ∨ wt = "fractional_squared") (r : AcResult (D64 ex fu))
    (hr : autocorrelation .fabs d ga "natural" wt = .ok r) (α : ℚ) (hα : r.corr.alpha = .fin α) (hα0 : pow2 (-600) ≤ α)
    (n : ℕ) (k : ℚ) (hn : r.lags[n]? = some (.fin k)) (hD : t (M - 1) - t 0 + |k| ≤ pow2 1000)
    (hDα : t (M - 1) - t 0 + |k| ≤ pow2 400 * α) (s : ℕ → ℕ)
    (hc : ClearCut M t k (10 * (pow2 (-53) * (t (M - 1) - t 0 + |k|) + pow2 (-1075))) s) :
    Selects M t k s ∧ ∃ v : ℚ, r.At j n (.fin k) (.fin v) ∧
      |v - sacf M t x (weight ex wt α) s (sumSq M x) k|
        ≤ 250 * V * (M * A ^ 2 / sumSq M x) * (1 + |sacf M t x (weight ex wt α) s (sumSq M x) k|) +
          65 * (M * A ^ 2 / sumSq M x) * ((pow2 (-53) * (t (M - 1) - t 0 + |k|) + pow2 (-1075)) / α) := by
  obtain ⟨m, s', v, h1, h2, h3⟩ := C70_binary64 ht hv ga wt hw r hr α hα hα0 n k hn hD hDα
  obtain ⟨e1, e2⟩ := C70_clear_cut (x := x) (nrm := sumSq M x) h1 hc (weight ex wt α)
  rw [e2] at h3
  exact ⟨e1, v, h2, h3⟩

/-- **C71 in binary64**: a default call on arbitrary increasing doubles with span `T` and smallest gap `δ > 2^-51 T + 2^-1073`: lag `n` is `-T + n δ` up to
`(8 n + 1) (2^-53 T + 2^-1075)`. -/
theorem C71_binary64 (a : AbsFn) (d : DS (D64 ex fu)) (hd : Constructed d) (M : ℕ) (t : ℕ → ℚ)
    (ht : d.timeseries = samples M t) (hinc : Increasing M t) (δ : ℚ) (hδ : IsMinGap M t δ) (hT : t (M - 1) - t 0 ≤ pow2 1000)
    (hδq : 4 * (pow2 (-53) * (t (M - 1) - t 0) + pow2 (-1075)) < δ) (α : Option (D64 ex fu)) (sel wt : String) (r : AcResult (D64 ex fu))
    (hr : autocorrelation a d { alpha := α } sel wt = .ok r) :
    ∃ (m : ℕ) (y : ℕ → ℚ), (r.lags.length = m ∨ r.lags.length = m + 1) ∧
      (∀ n < m, .fin (y n) ∈ r.lags ∧ y n ≤ t (M - 1) - t 0 + (pow2 (-53) * (t (M - 1) - t 0) + pow2 (-1075)) ∧
        |y n - (-(t (M - 1) - t 0) + n * δ)| ≤ (8 * n + 1) * (pow2 (-53) * (t (M - 1) - t 0) + pow2 (-1075))) ∧
      (∀ n n', n < n' → n' < m → y n < y n') ∧
      (∀ k ∈ r.lags, k = .fin 0 ∨ ∃ n < m, k = .fin (y n)) ∧
      t (M - 1) - t 0 < -(t (M - 1) - t 0) + m * δ + (8 * m + 2) * (pow2 (-53) * (t (M - 1) - t 0) + pow2 (-1075)) := by
  have hbig := pow2_le_big
  have hone : pow2 (-1075) ≤ 1 := by rw [← pow2_zero]; exact pow2_mono (by norm_num)
  have h1000 : (1 : ℚ) ≤ pow2 1000 := by rw [← pow2_zero]; exact pow2_mono (by norm_num)
  have e1 : 16 * pow2 1000 = pow2 1004 := by
    rw [show (1004 : ℤ) = ((4 : ℕ) : ℤ) + 1000 by norm_num, pow2_add, pow2_nat]; norm_num
  have := pow2_mono (show (1004 : ℤ) ≤ 1023 by norm_num)
  refine C71_default accurate64 ?_ a d hd M t ht hinc δ hδ (by linarith) ?_ hδq α sel wt r hr
  · decide +kernel
  · show _ ≤ Sacf.big
    linarith

/-! ### a concrete case: the time stamps 0.1, 0.4, 1.1, 2.0 as doubles -/

/-- the doubles nearest to 0.1, 0.4, 1.1, 2.0 -/
def decTimes (i : ℕ) : ℚ := roundTo 53 (-1074) (([1/10, 4/10, 11/10, 2] : List ℚ).getD i 0)

/-- values -/
def decValues (i : ℕ) : ℚ := ([1, 2, 4, 3] : List ℚ).getD i 0

/-- nearest samples at lag 1/4 -/
def decSel (i : ℕ) : ℕ := ([1, 1, 2] : List ℕ).getD i 0

/-- the normalised time of the third sample is not exact -/
example : (Arith.sub (.fin (decTimes 2)) (.fin (decTimes 0)) : Sacf.B) ≠ .fin (decTimes 2 - decTimes 0) := by decide +kernel

theorem decTimes_inc : Increasing 4 decTimes := by
  have h : ∀ j < 4, ∀ i < 4, i < j → decTimes i < decTimes j := by decide +kernel
  exact fun i j hij hj => h j hj i (by omega) hij

theorem dec_case {β : Type} (g : LagArgs Sacf.B) (f : AcResult Sacf.B → β) (z : β) (h : ((mkTable (samples 4 decTimes : List Sacf.B) [samples 4 decValues]).bind fun d =>
      (autocorrelation .fabs d g).bind fun r => .ok (f r)) = .ok z) : ∃ (d : DS Sacf.B) (r : AcResult Sacf.B),
    AnyTimes64 d 4 decTimes ∧ Values64 d 4 0 decValues 4 (4 * pow2 (-53)) ∧ autocorrelation .fabs d g = .ok r ∧ f r = z := by
  obtain ⟨d, hd, ht, hrow, _⟩ := C03_round_trip (F := Sacf.B) (samples 4 decTimes) [samples 4 decValues]
    (by simp [samples]) (by simp) (by simp [Rect, samples])
  have hc : Constructed d := .table hd
  rw [hd, Res.ok_bind, Res.bind_eq_ok] at h
  obtain ⟨r, hr, h⟩ := h
  simp only [Res.ok.injEq] at h
  refine ⟨d, r, ⟨hc, ht, fun i j hij hj => decTimes_inc.le hij hj, by norm_num, by norm_num⟩,
    ⟨⟨_, hrow, rfl⟩, by decide +kernel, by decide +kernel, by decide +kernel, by decide +kernel, by decide +kernel, .inr (by decide +kernel),
      by decide +kernel⟩, hr, h⟩

theorem dec_clear : ClearCut 4 decTimes (1/4) (10 * (pow2 (-53) * (decTimes (4 - 1) - decTimes 0 + |1/4|) + pow2 (-1075))) decSel :=
  ⟨by decide +kernel, by decide +kernel, by decide +kernel⟩

/-- C70_binary64_clear applied at the lag 1/4 -/
example : ∃ (d : DS Sacf.B) (r : AcResult Sacf.B) (v : ℚ),
    autocorrelation .fabs d { minLag := some (.fin (1/4)), maxLag := some (.fin (1/4)), alpha := some (.fin 1) } = .ok r ∧
    r.At 0 1 (.fin (1/4)) (.fin v) ∧ |v - 19/35| ≤ pow2 (-37) := by
  obtain ⟨d, r, ht, hv, hr, hf⟩ := dec_case { minLag := some (.fin (1/4)), maxLag := some (.fin (1/4)), alpha := some (.fin 1) }
    (fun r => (r.lags, r.corr.alpha)) ([.fin 0, .fin (1/4)], .fin 1) (by decide +kernel)
  have hl := congrArg Prod.fst hf
  have hα := congrArg Prod.snd hf
  obtain ⟨_, v, h1, h2⟩ := C70_binary64_clear ht hv _ "fractional" (.inl rfl) r hr 1 hα (by decide +kernel) 1 (1/4) (by rw [show r.lags = _ from hl]; rfl)
    (by decide +kernel) (by decide +kernel) decSel dec_clear
  refine ⟨d, r, v, hr, h1, ?_⟩
  have e : |sacf 4 decTimes decValues (weight (fun x => 1 / (1 - x)) "fractional" 1) decSel (sumSq 4 decValues) (1/4) - 19/35| ≤ pow2 (-45) := by
    decide +kernel
  have e2 : 250 * (4 * pow2 (-53)) * ((4 : ℕ) * 4 ^ 2 / sumSq 4 decValues) *
      (1 + |sacf 4 decTimes decValues (weight (fun x => 1 / (1 - x)) "fractional" 1) decSel (sumSq 4 decValues) (1/4)|) +
          65 * ((4 : ℕ) * 4 ^ 2 / sumSq 4 decValues) * ((pow2 (-53) * (decTimes (4 - 1) - decTimes 0 + |1/4|) + pow2 (-1075)) / 1)
      ≤ pow2 (-38) := by decide +kernel
  have e3 : pow2 (-38) + pow2 (-45) ≤ pow2 (-37) := by decide +kernel
  have := abs_sub_abs_le_abs_sub (v - 19/35) (v - sacf 4 decTimes decValues (weight (fun x => 1 / (1 - x)) "fractional" 1) decSel
    (sumSq 4 decValues) (1/4))
  have e4 : v - 19/35 - (v - sacf 4 decTimes decValues (weight (fun x => 1 / (1 - x)) "fractional" 1) decSel (sumSq 4 decValues) (1/4))
    = sacf 4 decTimes decValues (weight (fun x => 1 / (1 - x)) "fractional" 1) decSel (sumSq 4 decValues) (1/4) - 19/35 := by ring
  rw [e4] at this
  have := h2.trans e2
  linarith

/-- C71_binary64 applied: the smallest gap is that of the first two time stamps -/
example : ∃ (d : DS Sacf.B) (r : AcResult Sacf.B), autocorrelation .fabs d = .ok r ∧ r.lags.length = 14 ∧
    ∃ k : ℚ, .fin k ∈ r.lags ∧ |k - (-(decTimes 3 - decTimes 0) + 5 * (decTimes 1 - decTimes 0))| ≤ pow2 (-46) := by
  obtain ⟨d, r, ht, hv, hr, hl⟩ := dec_case {} (fun r => r.lags.length) 14 (by decide +kernel)
  obtain ⟨m, y, h1, h2, _⟩ := C71_binary64 .fabs d ht.built 4 decTimes ht.times decTimes_inc (decTimes 1 - decTimes 0)
    ⟨⟨0, 1, by norm_num, by norm_num, rfl⟩, by
      have h : ∀ j < 4, ∀ i < 4, i < j → decTimes 1 - decTimes 0 ≤ decTimes j - decTimes i := by decide +kernel
      exact fun i j hij hj => h j hj i (by omega) hij⟩ (by decide +kernel) (by decide +kernel) none "natural" "fractional" r hr
  refine ⟨d, r, hr, hl, y 5, (h2 5 (by have : r.lags.length = 14 := hl; omega)).1, ?_⟩
  have := (h2 5 (by have : r.lags.length = 14 := hl; omega)).2.2
  refine le_trans (le_of_eq_of_le ?_ this) (by decide +kernel)
  norm_num

end binary64

end Sacf
