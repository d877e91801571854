import Verif.Props.Fast
import Verif.Props.MissingRounded

/-!
# Fast selection in rounded arithmetic and in binary64 (C36)

`Props/Fast.lean` treats exact arithmetic.  Here: which samples fast selection matches and when it raises, for any rounding; and the values, within the
error bound of C61.
-/

set_option linter.unusedSectionVars false
set_option linter.unusedVariables false

namespace Sacf

open Finset

section rounded
variable {K : Type} [Field K] [LinearOrder K] [IsStrictOrderedRing K] [FloorRing K] {R : Rnd K} {u η big V A : K} {M : ℕ} {t : ℕ → K}
  {wt : String}

theorem lt_of_le_of_lt'' {x y z : XF R} (h1 : Arith.le x y = true) (h2 : Arith.lt y z = true) : Arith.lt x z = true := by
  cases x <;> cases y <;> cases z <;>
    first
    | rfl
    | exact absurd h1 Bool.false_ne_true
    | exact absurd h2 Bool.false_ne_true
    | (simp at *; exact lt_of_le_of_lt h1 h2)

/-- adding the same number keeps the order -/
theorem add_mono_left {a b : K} (h : a ≤ b) {k : XF R} (hk : k ≠ .nan) :
    Arith.le (Arith.add (.fin a) k) (Arith.add (.fin b) k) = true := by
  cases k with
  | nan => exact absurd rfl hk
  | ninf => rfl
  | pinf => rfl
  | fin k => exact round_mono (by linarith)

theorem add_ne_nan {a : K} {k : XF R} (hk : k ≠ .nan) : (Arith.add (.fin a) k : XF R) ≠ .nan := by
  cases k with
  | nan => exact absurd rfl hk
  | ninf => show (XF.ninf : XF R) ≠ .nan; simp
  | pinf => show (XF.pinf : XF R) ≠ .nan; simp
  | fin k => exact round_ne_nan _

/-- of two samples at or after `s` the later one is not computed to be nearer -/
theorem dist_mono {s : XF R} {a b : K} (hs : Arith.le s (.fin a) = true) (hab : a ≤ b) :
    Arith.lt (Arith.fabs (Arith.sub s (.fin b))) (Arith.fabs (Arith.sub s (.fin a))) = false := by
  cases s with
  | nan => exact absurd hs Bool.false_ne_true
  | pinf => exact absurd hs Bool.false_ne_true
  | ninf => rfl
  | fin s =>
    have hs : s ≤ a := by simpa using hs
    rw [dist_round, dist_round]
    apply not_lt_of_le
    apply round_mono
    rw [abs_of_nonpos (by linarith), abs_of_nonpos (by linarith)]
    linarith

/-- the first sample computed to be at or after the shifted first time -/
def FirstAt (R : Rnd K) (M : ℕ) (y : ℕ → K) (k : XF R) (b : ℕ) : Prop :=
  b < M ∧ Arith.le (Arith.add (.fin (y 0)) k) (.fin (y b)) = true ∧ ∀ i < b, Arith.lt (.fin (y i)) (Arith.add (.fin (y 0)) k) = true

/-- the first `n` samples are computed to be strictly before the last time after the shift, the others are not -/
def CountBefore (R : Rnd K) (M : ℕ) (y : ℕ → K) (k : XF R) (n : ℕ) : Prop :=
  n ≤ M ∧ ∀ i < M, (i < n ↔ Arith.le (.fin (y (M - 1))) (Arith.add (.fin (y i)) k) = false)

theorem shiftedFast_rounded {y : ℕ → K} (hM : 0 < M) (hy : InOrder M y) {k : XF R} (hk : k ≠ .nan) :
    ∃ n, CountBefore R M y k n ∧ shiftedFast (samples M y : List (XF R)) k = (List.range n).map fun i => Arith.add (.fin (y i)) k := by
  obtain ⟨m, hm, h1, h2⟩ := takeWhile_range (fun s => !Arith.le (.fin (y (M - 1)) : XF R) s)
    (fun i => (Arith.add (.fin (y i)) k : XF R)) M (by
      intro i j hij hj h
      simp only [Bool.not_eq_true', Bool.eq_false_iff] at h ⊢
      intro hc
      exact h (xf_le_trans hc (add_mono_left (hy i j hij hj) hk)))
  refine ⟨m, ⟨hm, fun i hi => ?_⟩, ?_⟩
  · rw [h2 i hi]; simp
  · unfold shiftedFast
    rw [samples_last hM]
    unfold samples
    rw [List.map_map]
    exact h1

theorem lowerBound_at {y : ℕ → K} (hM : 0 < M) (hy : InOrder M y) {k : XF R} (hk : k ≠ .nan)
    (hlast : Arith.lt (.fin (y (M - 1)) : XF R) (Arith.add (.fin (y 0)) k) = false) :
    ∃ b, lowerBound (samples M y : List (XF R)) (Arith.add (.fin (y 0)) k) = .ok b ∧ FirstAt R M y k b := by
  obtain ⟨b, h1, h2, h3⟩ := lowerBound_lt (samples_ne_nil hM) (val := Arith.add (.fin (y 0)) k) (by rw [samples_last hM]; exact hlast)
  rw [samples_length] at h2 h3
  refine ⟨b, h1, h3, ?_, ?_⟩
  · obtain ⟨x, hx, hl⟩ := h2.above h3
    rw [samples_getElem? h3] at hx
    simp at hx; subst hx
    exact le_of_not_lt (by simp) (add_ne_nan hk) hl
  · intro i hi
    obtain ⟨x, hx, hl⟩ := h2.below (by omega)
    rw [samples_getElem? (by omega)] at hx
    simp at hx; subst hx
    have := hy i (b - 1) (by omega) (by omega)
    exact lt_of_le_of_lt'' (show Arith.le (.fin (y i) : XF R) (.fin (y (b - 1))) = true by simpa using this) hl

/-- what fast selection does with one lag, for any rounding and times in order -/
theorem lagPlan_fast_rounded {y : ℕ → K} (hM : 0 < M) (hy : InOrder M y) {w : XF R → XF R → XF R} (hw : planWt wt = .ok w) (α : XF R)
    {k : XF R} (hk : k ≠ .nan) :
    (Arith.le (.fin (y (M - 1))) (Arith.add (.fin (y 0)) k) = true → lagPlan .fabs "fast" wt (samples M y : List (XF R)) α k = .ok []) ∧
    (Arith.le (.fin (y (M - 1))) (Arith.add (.fin (y 0)) k) = false → (M = 1 ∨ Arith.lt (.fin (y (M - 2))) (Arith.add (.fin (y 0)) k) = true) →
      lagPlan .fabs "fast" wt (samples M y : List (XF R)) α k = .exn .indexError) ∧
    (2 ≤ M → Arith.le (.fin (y (M - 1))) (Arith.add (.fin (y 0)) k) = false →
      Arith.lt (.fin (y (M - 2))) (Arith.add (.fin (y 0)) k) = false → ∃ b n, FirstAt R M y k b ∧ b + 1 < M ∧ CountBefore R M y k n ∧ 0 < n ∧
      lagPlan .fabs "fast" wt (samples M y : List (XF R)) α k
        = .ok ((List.range n).map fun i => (w α (Arith.fabs (Arith.sub (.fin (y (if b + i < n then b + i else 0))) (Arith.add (.fin (y i)) k))),
            if b + i < n then b + i else 0))) := by
  obtain ⟨n, hn, hsh⟩ := shiftedFast_rounded (R := R) hM hy hk
  have hn0 := hn.2 0 hM
  refine ⟨?_, ?_, ?_⟩
  · intro h
    have : n = 0 := by
      by_contra hc
      have := hn0.1 (by omega)
      rw [h] at this
      simp at this
    subst this
    unfold lagPlan planSel planFast
    rw [if_pos rfl, hsh, hw]
    simp [samples, planDelta]
  · intro h h'
    have hpos := hn0.2 h
    obtain ⟨b, hb, hf⟩ := lowerBound_at (R := R) hM hy hk (by
      cases hc : Arith.lt (.fin (y (M - 1)) : XF R) (Arith.add (.fin (y 0)) k) with
      | false => rfl
      | true => rw [le_of_lt' hc] at h; simp at h)
    have hbM : b = M - 1 := by
      by_contra hc
      have := hf.1
      rcases h' with h' | h'
      · omega
      · have h3 := hy b (M - 2) (by omega) (by omega)
        have h4 := xf_le_trans hf.2.1 (show Arith.le (.fin (y b) : XF R) (.fin (y (M - 2))) = true by simpa using h3)
        rw [not_lt_of_le h4] at h'
        simp at h'
    unfold lagPlan planSel planFast
    rw [if_pos rfl, hsh]
    obtain ⟨n', rfl⟩ : ∃ n', n = n' + 1 := ⟨n - 1, by omega⟩
    rw [List.range_succ_eq_map, List.map_cons]
    simp only [fastFirst, hb, Res.ok_bind]
    rw [atGet_of_ge (by rw [samples_length]; omega)]
    rfl
  · intro h2 h h'
    have hpos := hn0.2 h
    obtain ⟨b, hb, hf⟩ := lowerBound_at (R := R) hM hy hk (by
      cases hc : Arith.lt (.fin (y (M - 1)) : XF R) (Arith.add (.fin (y 0)) k) with
      | false => rfl
      | true => rw [le_of_lt' hc] at h; simp at h)
    have hbM : b + 1 < M := by
      by_contra hc
      have := hf.2.2 (M - 2) (by have := hf.1; omega)
      rw [h'] at this
      simp at this
    refine ⟨b, n, hf, hbM, hn, hpos, ?_⟩
    have hfirst : fastFirst .fabs (samples M y : List (XF R)) (Arith.add (.fin (y 0)) k) = .ok b := by
      unfold fastFirst
      rw [hb]
      simp only [Res.ok_bind]
      have a1 : atGet (samples M y : List (XF R)) (b + 1) = .ok (.fin (y (b + 1))) := by
        rw [atGet_eq_ok, samples_getElem? hbM]
      have a2 : atGet (samples M y : List (XF R)) b = .ok (.fin (y b)) := by
        rw [atGet_eq_ok, samples_getElem? hf.1]
      rw [a1, a2]
      simp only [Res.ok_bind, AbsFn.app]
      rw [dist_mono hf.2.1 (hy b (b + 1) (by omega) hbM)]
      simp
    have hplan : planFast .fabs (samples M y : List (XF R)) k = .ok (fastFill n b) := by
      unfold planFast
      rw [hsh]
      obtain ⟨n', rfl⟩ : ∃ n', n = n' + 1 := ⟨n - 1, by omega⟩
      rw [List.range_succ_eq_map, List.map_cons]
      simp only [hfirst, Res.ok_bind, List.length_map, List.length_range]
    unfold lagPlan planSel
    rw [if_pos rfl, hplan]
    simp only [Res.ok_bind]
    have hbound : ∀ s ∈ fastFill n b, s < (samples M y : List (XF R)).length := by
      intro s hs
      obtain ⟨i, hi, rfl⟩ := List.mem_map.1 hs
      have := hn.1
      rw [samples_length]
      split <;> omega
    rw [planDelta_fabs hbound, hw, hsh]
    simp only [Res.ok_bind]
    congr 1
    apply List.ext_getElem
    · simp [samples, fastFill]
    · intro i hi1 hi2
      have hi : i < n := by simpa using hi2
      simp only [List.getElem_zip, List.getElem_map, List.getElem_range, samples, fastFill]
      have e : (if i + b < n then b + i else 0) = if b + i < n then b + i else 0 := by rw [Nat.add_comm i b]
      rw [e, Prod.mk.injEq]
      refine ⟨?_, rfl⟩
      have hidx : (if b + i < n then b + i else 0) < M := by have := hn.1; split <;> omega
      have := samples_getD (R := R) (f := y) hidx (Arith.zero)
      unfold samples at this
      rw [this]

theorem lagPlan_fast_raises {y : ℕ → K} (hM : 2 ≤ M) (hy : InOrder M y) (hw : KnownWeight wt) (α : XF R)
    {k : XF R} (hk : k ≠ .nan) :
    lagPlan .fabs "fast" wt (samples M y : List (XF R)) α k = .exn .indexError ↔
      Arith.lt (.fin (y (M - 2))) (Arith.add (.fin (y 0)) k) = true ∧ Arith.lt (Arith.add (.fin (y 0)) k) (.fin (y (M - 1))) = true := by
  obtain ⟨w, hw⟩ := planWt_known (F := XF R) hw
  obtain ⟨h1, h2, h3⟩ := lagPlan_fast_rounded (R := R) (show 0 < M by omega) hy hw α hk
  have hlt : Arith.lt (Arith.add (.fin (y 0)) k) (.fin (y (M - 1)) : XF R) = true ↔
      Arith.le (.fin (y (M - 1))) (Arith.add (.fin (y 0)) k : XF R) = false := by
    constructor
    · intro h
      cases hc : Arith.le (.fin (y (M - 1))) (Arith.add (.fin (y 0)) k : XF R) with
      | false => rfl
      | true => rw [not_lt_of_le hc] at h; simp at h
    · intro h
      cases hc : Arith.lt (Arith.add (.fin (y 0)) k) (.fin (y (M - 1)) : XF R) with
      | true => rfl
      | false => rw [le_of_not_lt (add_ne_nan hk) (by simp) hc] at h; simp at h
  rw [hlt]
  constructor
  · intro h
    cases hc : Arith.le (.fin (y (M - 1))) (Arith.add (.fin (y 0)) k : XF R) with
    | true => rw [h1 hc] at h; simp at h
    | false =>
      refine ⟨?_, rfl⟩
      cases hc' : Arith.lt (.fin (y (M - 2))) (Arith.add (.fin (y 0)) k : XF R) with
      | true => rfl
      | false =>
        obtain ⟨b, n, _, _, _, _, h4⟩ := h3 hM hc hc'
        rw [h4] at h; simp at h
  · rintro ⟨a1, a2⟩
    exact h2 a2 (Or.inr a1)

theorem lagList_ne_nan {lo hi res : XF R} {m : ℕ} {l : List (XF R)} (hm : GridCount lo hi res m) (hl : IsLagList lo res m l) :
    ∀ k ∈ l, k ≠ .nan := by
  have hg : ∀ i < m, gridPt lo res i ≠ (.nan : XF R) := by
    intro i hi hc
    have := hm.1 i hi
    rw [hc] at this
    exact absurd this Bool.false_ne_true
  rcases hl with ⟨_, rfl⟩ | ⟨i, hi, _, _, _, rfl⟩
  · intro k hk
    obtain ⟨i, hi, rfl⟩ := List.mem_map.1 hk
    exact hg i (List.mem_range.1 hi)
  · intro k hk
    rw [List.mem_append, List.mem_cons] at hk
    rcases hk with hk | rfl | hk
    · obtain ⟨i', hi', rfl⟩ := List.mem_map.1 hk
      exact hg i' (by have := List.mem_range.1 hi'; omega)
    · show (XF.fin 0 : XF R) ≠ .nan; simp
    · obtain ⟨i', hi', rfl⟩ := List.mem_map.1 hk
      exact hg _ (by have := List.mem_range.1 hi'; omega)

/-! ### when it raises -/

/-- **C36, whatever the rounding**: times in order, computed time differences `y i`, and lags that fit into the buffers: `autocorrelation` with fast selection
raises `IndexError` exactly when some lag of the grid lies strictly between the last two time differences; otherwise it returns (if any lag is due
at all). -/
theorem C36_rounded_raises_iff_partial {d : DS (XF R)} (hd : Constructed d) (ht : d.timeseries = samples M t) (hinc : InOrder M t) (hM : 2 ≤ M)
    {y : ℕ → K} (hy : ∀ i < M, (XF.round (t i - t 0) : XF R) = .fin (y i)) (g : LagArgs (XF R)) (hw : KnownWeight wt)
    {c0 : Corr (XF R)} (hc : Corr.new d = .ok c0) {m : ℕ}
    (hm : GridCount (g.minLag.getD c0.minLag) (g.maxLag.getD c0.maxLag) (g.lagRes.getD c0.lagRes) m)
    (hfit : lagTotal (g.minLag.getD c0.minLag) (g.lagRes.getD c0.lagRes) m ≤ c0.lagTimeseries.length) :
    ∃ l, IsLagList (g.minLag.getD c0.minLag) (g.lagRes.getD c0.lagRes) m l ∧
      (autocorrelation .fabs d g "fast" wt = .exn .indexError ↔
        ∃ k ∈ l, Arith.lt (.fin (y (M - 2))) (Arith.add (.fin 0) k) = true ∧ Arith.lt (Arith.add (.fin 0) k) (.fin (y (M - 1))) = true) ∧
      (l ≠ [] → (¬ ∃ k ∈ l, Arith.lt (.fin (y (M - 2))) (Arith.add (.fin 0) k) = true ∧
          Arith.lt (Arith.add (.fin 0) k) (.fin (y (M - 1))) = true) →
        ∃ r, autocorrelation .fabs d g "fast" wt = .ok r ∧ r.lags = l) := by
  obtain ⟨hM0, hnt⟩ := normT_rounded hd ht
  have hnt' : d.normT = samples M y := by
    rw [hnt]
    unfold samples
    apply List.map_congr_left
    intro i hi
    exact hy i (List.mem_range.1 hi)
  have hy0 : y 0 = 0 := by
    have := hy 0 hM0
    rw [sub_self, round_zero] at this
    simpa using this.symm
  obtain ⟨l, hl, hout⟩ := fast_outcome (g := g) hd hw hc hm hfit
  rw [hnt'] at hout
  have hnn := lagList_ne_nan hm hl
  have hyo := inOrder_round hinc hy
  have hplan : ∀ k ∈ l, (lagPlan .fabs "fast" wt (samples M y : List (XF R)) (g.alpha.getD c0.alpha) k = .exn .indexError ↔ _) := fun k hk =>
    lagPlan_fast_raises hM hyo hw _ (hnn k hk)
  rw [hy0] at hplan
  refine ⟨l, hl, ?_⟩
  rcases hout with ⟨h1, k, hk, h2⟩ | ⟨h1, h2⟩
  · have := (hplan k hk).1 h2
    exact ⟨⟨fun _ => ⟨k, hk, this⟩, fun _ => h1⟩, fun _ h => absurd ⟨k, hk, this⟩ h⟩
  · refine ⟨⟨fun h => ?_, fun ⟨k, hk, hb⟩ => ?_⟩, fun hne _ => ?_⟩
    · rcases h2 with ⟨_, h2⟩ | ⟨r, h2, _⟩ <;> rw [h2] at h <;> simp at h
    · obtain ⟨ps, hps⟩ := h1 k hk
      rw [(hplan k hk).2 hb] at hps; simp at hps
    · rcases h2 with ⟨h2, _⟩ | h2
      · exact absurd h2 hne
      · exact h2

theorem grid_between {T δ gap : ℤ} (hδ : 0 < δ) (hT : 0 < T) (hg : δ ≤ gap) :
    (∃ n : ℕ, T - gap < -T + n * δ ∧ -T + n * δ < T) ↔ ¬ (gap = δ ∧ δ ∣ 2 * T) := by
  constructor
  · rintro ⟨n, h1, h2⟩ ⟨rfl, c, hc⟩
    have a1 : (n : ℤ) < c := lt_of_mul_lt_mul_left (show gap * (n : ℤ) < gap * c by linarith [mul_comm gap (n : ℤ)]) hδ.le
    have a2 : c - 1 < (n : ℤ) := lt_of_mul_lt_mul_left (show gap * (c - 1) < gap * n by rw [mul_sub, mul_one]; linarith [mul_comm gap (n : ℤ)]) hδ.le
    omega
  · intro h
    have h0 : 0 ≤ (2 * T - 1) / δ := Int.ediv_nonneg (by omega) hδ.le
    have h1 := Int.ediv_mul_le (2 * T - 1) hδ.ne'
    have h2 := Int.lt_ediv_add_one_mul_self (2 * T - 1) hδ
    refine ⟨((2 * T - 1) / δ).toNat, ?_, ?_⟩ <;> rw [Int.toNat_of_nonneg h0]
    · rw [add_mul, one_mul] at h2
      rcases lt_or_eq_of_le hg with hlt | rfl
      · omega
      · by_contra hc
        refine h ⟨rfl, (2 * T - 1) / δ + 1, ?_⟩
        rw [mul_add, mul_one, mul_comm δ]
        omega
    · omega

/-- **C36, the default call**: time stamps that are multiples `τ i g` of an exact unit.  With fast selection and default lags `autocorrelation` raises `IndexError`
unless the last gap is the smallest one and divides twice the time span; in that case it returns, with the lags of C60. -/
theorem C36_default_partial {g : K} {B : ℤ} (h : ExactUnit R g B) (d : DS (XF R)) (hd : Constructed d) (M : ℕ) (τ : ℕ → ℤ)
    (ht : d.timeseries = samples M fun i => (τ i : K) * g) (hM : 2 ≤ M) (hinc : IncreasingZ M τ) (δ : ℤ)
    (hδ : IsMinGapZ M τ δ) (hB : 2 * (τ (M - 1) - τ 0) ≤ B) (C : ℤ) (hC : 2 * (τ (M - 1) - τ 0) ≤ C * δ)
    (hC31 : C + 3 < 2 ^ 31) (h1 : ∀ n : ℤ, |n| ≤ C → (XF.round (n : K) : XF R) = .fin n) (α : Option (XF R)) (wt : String)
    (hw : KnownWeight wt) :
    (autocorrelation .fabs d { alpha := α } "fast" wt = .exn .indexError ↔
      ¬ (τ (M - 1) - τ (M - 2) = δ ∧ δ ∣ 2 * (τ (M - 1) - τ 0))) ∧
    (τ (M - 1) - τ (M - 2) = δ ∧ δ ∣ 2 * (τ (M - 1) - τ 0) → ∃ r, autocorrelation .fabs d { alpha := α } "fast" wt = .ok r ∧
      ∃ ks : List K, r.lags = ks.map .fin ∧ ks.Pairwise (· < ·) ∧ ∀ k, k ∈ ks ↔
        (∃ n : ℕ, -(τ (M - 1) - τ 0) + n * δ ≤ τ (M - 1) - τ 0 ∧ k = ((-(τ (M - 1) - τ 0) + n * δ : ℤ) : K) * g) ∨ k = 0) := by
  have hle : ∀ i < M, 0 ≤ τ i - τ 0 ∧ τ i - τ 0 ≤ τ (M - 1) - τ 0 := fun i hi => by
    have a1 := hinc.le (Nat.zero_le i) hi
    have a2 := hinc.le (show i ≤ M - 1 by omega) (by omega)
    omega
  have hT0 : 0 < τ (M - 1) - τ 0 := by have := hinc 0 (M - 1) (by omega) (by omega); omega
  obtain ⟨hM0, hnt⟩ := ticks_normT h hd ht (fun i hi => by
    have := hle i hi
    rw [abs_of_nonneg this.1]; omega)
  have hu : IncreasingZ M fun i => τ i - τ 0 := fun i j hij hj => by have := hinc i j hij hj; simp only; omega
  have hgap : IsMinGapZ M (fun i => τ i - τ 0) δ := by
    obtain ⟨⟨i, j, hij, hj, he⟩, h2⟩ := hδ
    exact ⟨⟨i, j, hij, hj, by simp only; omega⟩, fun i j hij hj => by have := h2 i j hij hj; simp only; omega⟩
  have hmin : findMinDiff d.normT = .fin (δ * g) := by
    rw [hnt]
    exact findMinDiff_ticks h hM hu (by omega) hgap
  have hδ0 : 0 < δ := by
    obtain ⟨⟨i, j, hij, hj, he⟩, _⟩ := hδ
    have := hinc i j hij hj; omega
  have hδT : δ ≤ τ (M - 1) - τ 0 := hδ.2 0 (M - 1) (by omega) (by omega)
  have hδg : δ ≤ τ (M - 1) - τ (M - 2) := hδ.2 (M - 2) (M - 1) (by omega) (by omega)
  have hl2 := (hle (M - 2) (by omega)).1
  have hlast : lastD d.normT = .fin (((τ (M - 1) - τ 0 : ℤ) : K) * g) := by rw [hnt, samples_last hM0]
  have hyR : ∀ i < M, (XF.round ((τ i : K) * g - (τ 0 : K) * g) : XF R) = .fin (((τ i - τ 0 : ℤ) : K) * g) := by
    intro i hi
    have := hle i hi
    rw [← sub_mul, ← Int.cast_sub]
    exact h.exact _ (by rw [abs_of_nonneg this.1]; omega)
  have hio : InOrder M fun i => (τ i : K) * g := by
    intro i j hij hj
    apply mul_le_mul_of_nonneg_right _ h.pos.le
    exact_mod_cast hinc.le hij hj
  have hTR : (((τ (M - 2) - τ 0 : ℤ) : K) * g) = (((τ (M - 1) - τ 0) - (τ (M - 1) - τ (M - 2)) : ℤ) : K) * g := by congr 2; ring
  generalize hT : τ (M - 1) - τ 0 = T at *
  generalize hgp : τ (M - 1) - τ (M - 2) = gap at *
  have hneg : Arith.neg (lastD d.normT) = .fin (((-T : ℤ) : K) * g) := by rw [hlast, xf_neg]; push_cast; rw [neg_mul]
  obtain ⟨hg1, hg2⟩ := gridCount_ticks (R := R) h hδ0 hδT hB
  obtain ⟨n, hn1, hn2⟩ := slots_ticks (R := R) h hδ0 hδT hB hC (by norm_num at hC31; omega) h1
  have hslots : slotsOf d.normT = .ok n := by
    unfold slotsOf
    rw [hneg, hlast, hmin]
    exact hn1
  have hq0 : 0 ≤ 2 * T / δ := Int.ediv_nonneg (by omega) hδ0.le
  have hnew : Corr.new d = .ok (Corr.fresh d n) := by rw [corrNew_eq hd.wf, hslots]; rfl
  have e1 : (Corr.fresh d n).minLag = .fin (((-T : ℤ) : K) * g) := by rw [← hneg]; rfl
  have e2 : (Corr.fresh d n).maxLag = .fin ((T : K) * g) := by rw [← hlast]; rfl
  have e3 : (Corr.fresh d n).lagRes = .fin ((δ : K) * g) := by rw [← hmin]; rfl
  have e5 : (Corr.fresh d n).lagTimeseries.length = n := by simp [Corr.fresh, Corr.lagTimeseries]
  obtain ⟨l, hl, hiff, hret⟩ := C36_rounded_raises_iff_partial (R := R) hd ht hio hM (y := fun i => ((τ i - τ 0 : ℤ) : K) * g) hyR
    { alpha := α } hw hnew (m := (2 * T / δ + 1).toNat) (by simp only [Option.getD_none]; rw [e1, e2, e3]; exact hg1)
    (by simp only [Option.getD_none]; rw [e5]; unfold lagTotal; split <;> omega)
  simp only [Option.getD_none, e1, e3] at hl
  obtain ⟨ks, k1, k2, k3⟩ := lagList_mono (f := fun n : ℕ => ((-T + n * δ : ℤ) : K) * g) (fun n hn => hg2 n hn.le) (by
    intro i j hij _
    apply mul_lt_mul_of_pos_right _ h.pos
    have h1 : (i : ℤ) * δ < j * δ := mul_lt_mul_of_pos_right (by exact_mod_cast hij) hδ0
    exact_mod_cast (show -T + (i : ℤ) * δ < -T + j * δ by linarith)) hl
  have hin : ∀ n : ℕ, n < (2 * T / δ + 1).toNat ↔ -T + n * δ ≤ T := by
    intro n
    have e : (n < (2 * T / δ + 1).toNat) ↔ (n : ℤ) ≤ 2 * T / δ := by omega
    rw [e, Int.le_ediv_iff_mul_le hδ0]
    constructor <;> intro h <;> linarith
  have hmem : ∀ k, k ∈ ks ↔ (∃ n : ℕ, -T + n * δ ≤ T ∧ k = ((-T + n * δ : ℤ) : K) * g) ∨ k = 0 := by
    intro k
    rw [k3]
    constructor
    · rintro (⟨n, hn, rfl⟩ | ⟨h0, _⟩)
      · exact Or.inl ⟨n, (hin n).1 hn, rfl⟩
      · exact Or.inr h0
    · rintro (⟨n, hn, rfl⟩ | h0)
      · exact Or.inl ⟨n, (hin n).2 hn, rfl⟩
      · have h2 : 2 * T < (2 * T / δ + 1) * δ := Int.lt_ediv_add_one_mul_self _ hδ0
        refine Or.inr ⟨h0, (2 * T / δ).toNat, by omega, ?_⟩
        apply mul_pos _ h.pos
        have e : (((2 * T / δ).toNat : ℕ) : ℤ) = 2 * T / δ := by omega
        rw [e]
        exact_mod_cast (show 0 < -T + 2 * T / δ * δ by linarith)
  have hadd : ∀ z : ℤ, |z| ≤ B → Arith.add (.fin 0 : XF R) (.fin ((z : K) * g)) = .fin ((z : K) * g) := by
    intro z hz
    show XF.round (0 + (z : K) * g) = _
    rw [zero_add]
    exact h.exact z hz
  have hcmp : ∀ a b : ℤ, Arith.lt (.fin ((a : K) * g) : XF R) (.fin ((b : K) * g)) = true ↔ a < b := by
    intro a b
    show decide _ = true ↔ _
    rw [decide_eq_true_eq, mul_lt_mul_iff_left₀ h.pos, Int.cast_lt]
  have hbet : (∃ k ∈ l, Arith.lt (.fin (((τ (M - 2) - τ 0 : ℤ) : K) * g)) (Arith.add (.fin 0) k) = true ∧
      Arith.lt (Arith.add (.fin 0) k) (.fin (((τ (M - 1) - τ 0 : ℤ) : K) * g) : XF R) = true) ↔
      ∃ n : ℕ, T - gap < -T + n * δ ∧ -T + n * δ < T := by
    rw [hTR, hT, k1]
    constructor
    · rintro ⟨_, hkl, h2, h3⟩
      obtain ⟨k, hks, rfl⟩ := List.mem_map.1 hkl
      rcases (hmem k).1 hks with ⟨n, hn, rfl⟩ | rfl
      · have hz : |-T + (n : ℤ) * δ| ≤ B := by
          have : 0 ≤ (n : ℤ) * δ := by positivity
          rw [abs_le]; constructor <;> linarith
        rw [hadd _ hz, hcmp] at h2 h3
        exact ⟨n, h2, h3⟩
      · have h0 := hadd 0 (by rw [abs_zero]; omega)
        rw [Int.cast_zero, zero_mul] at h0
        rw [h0] at h2
        have h4 := (hcmp (T - gap) 0).1 (by rw [Int.cast_zero, zero_mul]; exact h2)
        omega
    · rintro ⟨n, h2, h3⟩
      have hz : |-T + (n : ℤ) * δ| ≤ B := by
        have : 0 ≤ (n : ℤ) * δ := by positivity
        rw [abs_le]; constructor <;> linarith
      refine ⟨_, List.mem_map_of_mem ((hmem _).2 (Or.inl ⟨n, h3.le, rfl⟩)), ?_, ?_⟩ <;> rw [hadd _ hz, hcmp]
      · exact h2
      · exact h3
  rw [hbet, grid_between hδ0 hT0 hδg] at hiff hret
  refine ⟨hiff, fun hc => ?_⟩
  obtain ⟨r, r1, r2⟩ := hret (by
    rw [k1]
    intro hnil
    have := (hmem 0).2 (Or.inr rfl)
    rw [List.map_eq_nil_iff] at hnil
    rw [hnil] at this; simp at this) (not_not_intro hc)
  exact ⟨r, r1, ks, r2.trans k1, k2, hmem⟩

/-! ### what the values are -/

/-- the plan of fast selection in terms of the computed time differences, for any row -/
theorem fast_plan {d : DS (XF R)} (hd : Constructed d) (ht : d.timeseries = samples M t) (hinc : InOrder M t)
    {y : ℕ → K} (hy : ∀ i < M, (XF.round (t i - t 0) : XF R) = .fin (y i))
    {j : ℕ} {row : List (XF R)} (hrow : d.HasRow j row) {ga : LagArgs (XF R)} (hw : KnownWeight wt) {r : AcResult (XF R)}
    (hr : autocorrelation .fabs d ga "fast" wt = .ok r) {n : ℕ} {k : XF R} (hn : r.lags[n]? = some k) (hk : k ≠ .nan) :
    ∃ b c, CountBefore R M y k c ∧ (0 < c → FirstAt R M y k b) ∧
      r.At j n k (corrValue (row.map fun v => Arith.sub v (meanOf row)) (normOfRow row (meanOf row))
        ((List.range c).map fun i => (fweight wt r.corr.alpha
          (Arith.fabs (Arith.sub (.fin (y (if b + i < c then b + i else 0))) (Arith.add (.fin (y i)) k))), if b + i < c then b + i else 0))) := by
  obtain ⟨hM0, hnt⟩ := normT_rounded hd ht
  have hnt' : d.normT = samples M y := by
    rw [hnt]
    unfold samples
    apply List.map_congr_left
    intro i hi
    exact hy i (List.mem_range.1 hi)
  obtain ⟨ps, hps, hat⟩ := result_at hd hr hrow hn
  rw [hnt'] at hps
  have hyo := inOrder_round hinc hy
  obtain ⟨h1, h2, h3⟩ := lagPlan_fast_rounded (R := R) hM0 hyo (planWt_fweight hw) r.corr.alpha hk
  cases hc : Arith.le (.fin (y (M - 1))) (Arith.add (.fin (y 0)) k : XF R) with
  | true =>
    obtain ⟨c, hcb, _⟩ := shiftedFast_rounded (R := R) hM0 hyo hk
    have hc0 : c = 0 := by
      by_contra h0
      have := (hcb.2 0 hM0).1 (by omega)
      rw [hc] at this; simp at this
    subst hc0
    rw [h1 hc] at hps
    simp only [Res.ok.injEq] at hps
    subst hps
    exact ⟨0, 0, hcb, fun h => absurd h (lt_irrefl 0), hat⟩
  | false =>
    by_cases hl : M = 1 ∨ Arith.lt (.fin (y (M - 2))) (Arith.add (.fin (y 0)) k : XF R) = true
    · rw [h2 hc hl] at hps; simp at hps
    · rw [not_or, Bool.not_eq_true] at hl
      obtain ⟨b, c, hb, _, hcb, _, hp⟩ := h3 (by omega) hc hl.2
      rw [hp] at hps
      simp only [Res.ok.injEq] at hps
      subst hps
      exact ⟨b, c, hcb, fun _ => hb, hat⟩

theorem matched_lt {y : ℕ → K} {k : XF R} {b c i : ℕ} (hc : CountBefore R M y k c) (hi : i < c) : (if b + i < c then b + i else 0) < M := by
  have := hc.1
  split <;> omega

/-- **C36, whatever the rounding**: what fast selection computes at a lag `k` that is not NaN.  With `y i` the computed time differences, the first `c` samples count,
those computed to be strictly before the last one after the shift; with `b` the first sample computed to be at or after the shifted first time, sample
`i` is matched with sample `b + i`, or with sample 0 if `b + i` is not below `c`. -/
theorem C36_rounded_value_partial {d : DS (XF R)} (hd : Constructed d) (ht : d.timeseries = samples M t) (hinc : InOrder M t)
    {y : ℕ → K} (hy : ∀ i < M, (XF.round (t i - t 0) : XF R) = .fin (y i))
    {j : ℕ} {x : ℕ → XF R} (hrow : d.HasRow j ((List.range M).map x)) (hx : ∀ i < M, x i ≠ .nan) {ga : LagArgs (XF R)} (hw : KnownWeight wt)
    {r : AcResult (XF R)} (hr : autocorrelation .fabs d ga "fast" wt = .ok r) {n : ℕ} {k : XF R} (hn : r.lags[n]? = some k) (hk : k ≠ .nan) :
    ∃ b c, CountBefore R M y k c ∧ (0 < c → FirstAt R M y k b) ∧
      r.At j n k (Arith.mul (seqDot (fun i => Arith.mul (fweight wt r.corr.alpha
          (Arith.fabs (Arith.sub (.fin (y (if b + i < c then b + i else 0))) (Arith.add (.fin (y i)) k)))) (seqDev M x i))
        (fun i => seqDev M x (if b + i < c then b + i else 0)) c) (Arith.div Arith.one (seqNorm M x))) := by
  obtain ⟨b, c, h1, h2, h3⟩ := fast_plan hd ht hinc hy hrow hw hr hn hk
  refine ⟨b, c, h1, h2, ?_⟩
  rw [meanOf_seqMean hx, normOfRow_seqNorm hx, List.map_map] at h3
  have e := corrValue_seqDot h1.1 (seqDev M x) (fun i => fweight wt r.corr.alpha
    (Arith.fabs (Arith.sub (.fin (y (if b + i < c then b + i else 0))) (Arith.add (.fin (y i)) k)) : XF R)) (fun i => if b + i < c then b + i else 0)
    (fun i hi => matched_lt h1 hi) (seqNorm M x)
  rw [← e]
  exact h3

/-- **C36, whatever the rounding**: at a lag that is zero or negative every counted sample is matched with itself, however far away the shifted time is. -/
theorem C36_rounded_self_partial {d : DS (XF R)} (hd : Constructed d) (ht : d.timeseries = samples M t) (hinc : InOrder M t)
    {y : ℕ → K} (hy : ∀ i < M, (XF.round (t i - t 0) : XF R) = .fin (y i))
    {j : ℕ} {x : ℕ → XF R} (hrow : d.HasRow j ((List.range M).map x)) (hx : ∀ i < M, x i ≠ .nan) {ga : LagArgs (XF R)} (hw : KnownWeight wt)
    {r : AcResult (XF R)} (hr : autocorrelation .fabs d ga "fast" wt = .ok r) {n : ℕ} {k : XF R} (hn : r.lags[n]? = some k)
    (hk : Arith.le k (.fin 0) = true) :
    ∃ c, CountBefore R M y k c ∧
      r.At j n k (Arith.mul (seqDot (fun i => Arith.mul (fweight wt r.corr.alpha
          (Arith.fabs (Arith.sub (.fin (y i)) (Arith.add (.fin (y i)) k)))) (seqDev M x i))
        (fun i => seqDev M x i) c) (Arith.div Arith.one (seqNorm M x))) := by
  have hkn : k ≠ .nan := by rintro rfl; exact absurd hk Bool.false_ne_true
  have hM0 := (normT_rounded hd ht).1
  have hy0 : y 0 = 0 := by
    have := hy 0 hM0
    rw [sub_self, round_zero] at this
    simpa using this.symm
  obtain ⟨ps, hps, hat⟩ := result_at hd hr hrow hn
  obtain ⟨b, c, h1, h2, h3⟩ := fast_plan hd ht hinc hy hrow hw hr hn hkn
  refine ⟨c, h1, ?_⟩
  have hs : ∀ i < c, (if b + i < c then b + i else 0) = i := by
    intro i hi
    have hb : b = 0 := by
      by_contra h0
      have h4 := (h2 (by omega)).2.2 0 (by omega)
      have h5 : Arith.le (Arith.add (.fin (y 0)) k) (.fin (y 0) : XF R) = true := by
        rw [hy0]
        cases k with
        | nan => exact absurd rfl hkn
        | ninf => rfl
        | pinf => exact absurd hk Bool.false_ne_true
        | fin k =>
          have hk : k ≤ 0 := by simpa using hk
          show Arith.le (XF.round (0 + k)) (.fin 0 : XF R) = true
          rw [← round_zero]
          exact round_mono (by linarith)
      rw [not_lt_of_le h5] at h4; simp at h4
    subst hb
    rw [Nat.zero_add, if_pos hi]
  rw [meanOf_seqMean hx, normOfRow_seqNorm hx, List.map_map] at h3
  rw [← corrValue_seqDot h1.1 (seqDev M x) (fun i => fweight wt r.corr.alpha
    (Arith.fabs (Arith.sub (.fin (y i)) (Arith.add (.fin (y i)) k)) : XF R)) (fun i => i)
    (fun i hi => lt_of_lt_of_le hi h1.1) (seqNorm M x)]
  have e : ((List.range c).map fun i => (fweight wt r.corr.alpha
      (Arith.fabs (Arith.sub (.fin (y (if b + i < c then b + i else 0))) (Arith.add (.fin (y i)) k)) : XF R), if b + i < c then b + i else 0))
      = (List.range c).map fun i => (fweight wt r.corr.alpha (Arith.fabs (Arith.sub (.fin (y i)) (Arith.add (.fin (y i)) k)) : XF R), i) := by
    apply List.map_congr_left
    intro i hi
    rw [hs i (List.mem_range.1 hi)]
  rw [e] at h3
  exact h3

/-! ### how far the values are from the formula -/

theorem obs_some (x : ℕ → K) : (obs M (fun i => some (x i)) : List (XF R)) = samples M x := rfl

theorem present_some (x : ℕ → K) : present M (fun i => some (x i)) = M := by
  unfold present
  simp

theorem obsMean_some (x : ℕ → K) : obsMean M (fun i => some (x i)) = mean M x := by
  unfold obsMean mean
  simp

theorem obsDev_some (x : ℕ → K) (i : ℕ) : obsDev M (fun i => some (x i)) i = dev M x i := by
  unfold obsDev dev
  rw [obsMean_some]
  simp

theorem obsSumSq_some (x : ℕ → K) : obsSumSq M (fun i => some (x i)) = sumSq M x := by
  unfold obsSumSq sumSq
  simp only [obsDev_some]
  simp

theorem fast_ticks {g : K} {B : ℤ} (h : ExactUnit R g B) {d : DS (XF R)} (hd : Constructed d) {τ : ℕ → ℤ}
    (ht : d.timeseries = samples M fun i => (τ i : K) * g) (hinc : IncreasingZ M τ)
    {j : ℕ} {row : List (XF R)} (hrow : d.HasRow j row) {ga : LagArgs (XF R)} (hw : KnownWeight wt) {r : AcResult (XF R)}
    (hr : autocorrelation .fabs d ga "fast" wt = .ok r) {n : ℕ} {k : ℤ} (hn : r.lags[n]? = some (.fin (k * g)))
    (hk : |k| + (τ (M - 1) - τ 0) ≤ B) :
    ∃ b c, ShiftedCount M (fun i => (τ i : K) * g) (k * g) c ∧ (0 < c → FirstFrom M (fun i => (τ i : K) * g) (k * g) b) ∧
      (∀ i < c, |(τ (if b + i < c then b + i else 0) : K) * g - ((τ i : K) * g + k * g)| ≤ B * g) ∧
      r.At j n (.fin (k * g)) (corrValue (row.map fun v => Arith.sub v (meanOf row)) (normOfRow row (meanOf row))
        ((List.range c).map fun i => (fweight wt r.corr.alpha
          (.fin |(τ (if b + i < c then b + i else 0) : K) * g - ((τ i : K) * g + k * g)|), if b + i < c then b + i else 0))) := by
  have hM0 := (normT_rounded hd ht).1
  have hle : ∀ i < M, 0 ≤ τ i - τ 0 ∧ τ i - τ 0 ≤ τ (M - 1) - τ 0 := fun i hi => by
    have a1 := hinc.le (Nat.zero_le i) hi
    have a2 := hinc.le (show i ≤ M - 1 by omega) (by omega)
    omega
  have hk0 := abs_nonneg k
  have hk1 := neg_abs_le k
  have hk2 := le_abs_self k
  have hyR : ∀ i < M, (XF.round ((τ i : K) * g - (τ 0 : K) * g) : XF R) = .fin (((τ i - τ 0 : ℤ) : K) * g) := by
    intro i hi
    have := hle i hi
    rw [← sub_mul, ← Int.cast_sub]
    exact h.exact _ (by rw [abs_of_nonneg this.1]; omega)
  have hio : InOrder M fun i => (τ i : K) * g := by
    intro i j hij hj
    apply mul_le_mul_of_nonneg_right _ h.pos.le
    exact_mod_cast hinc.le hij hj
  obtain ⟨b, c, h1, h2, h3⟩ := fast_plan (y := fun i => ((τ i - τ 0 : ℤ) : K) * g) hd ht hio hyR hrow hw hr hn (by simp)
  have hg := h.pos
  have hcl : ∀ a b : ℤ, (a : K) * g ≤ b * g ↔ a ≤ b := fun a b => by rw [mul_le_mul_iff_left₀ hg, Int.cast_le]
  have hct : ∀ a b : ℤ, (a : K) * g < b * g ↔ a < b := fun a b => by rw [mul_lt_mul_iff_left₀ hg, Int.cast_lt]
  have hadd : ∀ i < M, Arith.add (.fin (((τ i - τ 0 : ℤ) : K) * g)) (.fin ((k : K) * g) : XF R) = .fin (((τ i - τ 0 + k : ℤ) : K) * g) := by
    intro i hi
    have := hle i hi
    exact tick_add h (by rw [abs_le]; constructor <;> omega)
  have hcM := h1.1
  have hdist : ∀ i < c, Arith.fabs (Arith.sub (.fin (((τ (if b + i < c then b + i else 0) - τ 0 : ℤ) : K) * g))
      (Arith.add (.fin (((τ i - τ 0 : ℤ) : K) * g)) (.fin ((k : K) * g))) : XF R)
      = .fin |(τ (if b + i < c then b + i else 0) : K) * g - ((τ i : K) * g + k * g)| ∧
      |(τ (if b + i < c then b + i else 0) : K) * g - ((τ i : K) * g + k * g)| ≤ B * g := by
    intro i hi
    have hs := matched_lt (b := b) h1 hi
    generalize (if b + i < c then b + i else 0) = s at hs ⊢
    have a1 := hle i (by omega)
    have a2 := hle s hs
    have hb : |τ s - τ 0 - (τ i - τ 0 + k)| ≤ B := by rw [abs_le]; constructor <;> omega
    have e : (τ s : K) * g - ((τ i : K) * g + k * g) = ((τ s - τ 0 - (τ i - τ 0 + k) : ℤ) : K) * g := by push_cast; ring
    rw [hadd i (by omega), tick_sub h hb, e, tick_abs h, hcl]
    refine ⟨?_, hb⟩
    show XF.fin |((τ s - τ 0 - (τ i - τ 0 + k) : ℤ) : K) * g| = _
    rw [tick_abs h]
  refine ⟨b, c, ⟨hcM, fun i hi => ?_⟩, fun hc0 => ?_, fun i hi => (hdist i hi).2, ?_⟩
  · have e := h1.2 i hi
    simp only [hadd i hi, tick_le h, decide_eq_false_iff_not, not_le] at e
    rw [e]
    rw [← add_mul, ← Int.cast_add, hct]
    omega
  · obtain ⟨f1, f2, f3⟩ := h2 hc0
    refine ⟨f1, ?_, fun i hi => ?_⟩
    · simp only [hadd 0 hM0, tick_le h, decide_eq_true_eq] at f2
      simp only
      rw [← add_mul, ← Int.cast_add, hcl]
      omega
    · have f3 := f3 i hi
      simp only [hadd 0 hM0, tick_lt h, decide_eq_true_eq] at f3
      simp only
      rw [← add_mul, ← Int.cast_add, hct]
      omega
  · have e : ((List.range c).map fun i => (fweight wt r.corr.alpha
        (.fin |(τ (if b + i < c then b + i else 0) : K) * g - ((τ i : K) * g + k * g)| : XF R), if b + i < c then b + i else 0))
        = (List.range c).map fun i => (fweight wt r.corr.alpha
          (Arith.fabs (Arith.sub (.fin (((τ (if b + i < c then b + i else 0) - τ 0 : ℤ) : K) * g))
            (Arith.add (.fin (((τ i - τ 0 : ℤ) : K) * g)) (.fin ((k : K) * g)))) : XF R), if b + i < c then b + i else 0) := by
      apply List.map_congr_left
      intro i hi
      rw [(hdist i (List.mem_range.1 hi)).1]
    rw [e]
    exact h3

theorem corrValue_nil_zero {row : List (XF R)} {nrm : XF R} {v : K} (h : corrValue row nrm [] = .fin v) : v = 0 := by
  have h : Arith.mul (.fin 0) (Arith.div Arith.one nrm : XF R) = .fin v := h
  have hi : (XF.infSign (0 : K) : XF R) = .nan := by unfold XF.infSign; simp
  have hi' : (XF.infSign (-(0 : K)) : XF R) = .nan := by rw [neg_zero]; exact hi
  cases hc : (Arith.div Arith.one nrm : XF R) with
  | nan =>
    rw [hc] at h
    have h : (XF.nan : XF R) = .fin v := h
    simp at h
  | ninf =>
    rw [hc] at h
    have h : (XF.infSign (-(0 : K)) : XF R) = .fin v := h
    rw [hi'] at h; simp at h
  | pinf =>
    rw [hc] at h
    have h : (XF.infSign (0 : K) : XF R) = .fin v := h
    rw [hi] at h; simp at h
  | fin z =>
    rw [hc] at h
    have h : (XF.round (0 * z) : XF R) = .fin v := h
    rw [zero_mul, round_zero] at h
    simpa using h.symm

/-- **C36 in rounded arithmetic**: times and lag multiples of an exact unit.  The value is within the error bound of C61 of the formula of fast
selection; where no sample counts it is 0. -/
theorem C36_error_partial {g : K} {B : ℤ} (h : ExactUnit R g B) (hmod : Moderate R u η big V A M) (d : DS (XF R)) (hd : Constructed d)
    (τ : ℕ → ℤ) (ht : d.timeseries = samples M fun i => (τ i : K) * g) (hinc : IncreasingZ M τ)
    (j : ℕ) (x : ℕ → K) (hrow : d.HasRow j (samples M x)) (hx : ∀ i < M, |x i| ≤ A)
    (hf : ∀ i < M, Near (Arith.toFloat (.fin (x i) : XF R)) (x i) (2 * (V * A)))
    (ga : LagArgs (XF R)) (wt : String) (hw : wt = "fractional" ∨ wt = "fractional_squared") (r : AcResult (XF R))
    (hr : autocorrelation .fabs d ga "fast" wt = .ok r) (α : K) (hα : r.corr.alpha = .fin α) (hα0 : 0 < α)
    (n : ℕ) (k : ℤ) (hn : r.lags[n]? = some (.fin (k * g))) (hk : |k| + (τ (M - 1) - τ 0) ≤ B)
    (hκ : 122 * V * (M * A ^ 2) ≤ sumSq M x) (hN : 0 < sumSq M x)
    (hb1 : 2 ≤ sumSq M x * big) (hb2 : 24 * (M * A ^ 2) ≤ sumSq M x * big) (hb3 : 4 ≤ big)
    (hb4 : 4 * (B * g / α + (B * g / α) ^ 2) ≤ big) :
    ∃ b c, ShiftedCount M (fun i => (τ i : K) * g) (k * g) c ∧ (0 < c → FirstFrom M (fun i => (τ i : K) * g) (k * g) b) ∧
      ∃ v : K, r.At j n (.fin (k * g)) (.fin v) ∧ (c = 0 → v = 0) ∧
        |v - fastAcf M (fun i => (τ i : K) * g) x (weight R.expK wt α) b c (sumSq M x) (k * g)|
          ≤ 250 * V * (M * A ^ 2 / sumSq M x) *
            (1 + |fastAcf M (fun i => (τ i : K) * g) x (weight R.expK wt α) b c (sumSq M x) (k * g)|) := by
  have hsmall : 100 * u ≤ 1 := by
    obtain ⟨hu, hη, hM, huV, _⟩ := hmod.facts
    have := hmod.V_le; linarith
  obtain ⟨b, c, h1, h2, h3, h4⟩ := fast_ticks h hd ht hinc hrow (wt := wt) (by unfold KnownWeight; tauto) hr hn hk
  refine ⟨b, c, h1, h2, ?_⟩
  have hcM := h1.1
  have hM1 := hmod.facts.2.2.1
  obtain ⟨v, v1, v2⟩ := plan_value (x := fun i => some (x i)) hmod (by rw [present_some]; exact hmod.one_le) (by rw [present_some]; exact hmod.count)
    (fun i hi v hv => by simp only [Option.some.injEq] at hv; subst hv; exact hx i hi)
    (fun i hi v hv => by simp only [Option.some.injEq] at hv; subst hv; exact hf i hi)
    (by rw [obsSumSq_some]; exact hκ) (by rw [obsSumSq_some]; exact hN) (by rw [obsSumSq_some]; exact hb1) (by rw [obsSumSq_some]; exact hb2)
    hcM (s := fun i => if b + i < c then b + i else 0) (fun i hi => by have := h1.1; split <;> omega) (fun i hi => ⟨rfl, rfl⟩)
    (W := fun i => fweight wt r.corr.alpha (.fin |(τ (if b + i < c then b + i else 0) : K) * g - ((τ i : K) * g + k * g)|))
    (w := fun i => weight R.expK wt α |(τ (if b + i < c then b + i else 0) : K) * g - ((τ i : K) * g + k * g)|) (fun i hi => by
      rw [hα]
      refine near_weight hmod.acc hsmall hmod.under1 hb3 hw hα0 (abs_nonneg _) (le_trans ?_ hb4) _
      have e1 := (div_le_div_iff_of_pos_right hα0).2 (h3 i hi)
      have := pow_le_pow_left₀ (div_nonneg (abs_nonneg _) hα0.le) e1 2
      linarith)
  rw [obs_some] at v1
  simp only [obsDev_some, obsSumSq_some] at v2
  refine ⟨v, by rw [← v1]; exact h4, ?_, v2⟩
  rintro rfl
  exact corrValue_nil_zero v1

end rounded

section binary64
variable {ex : ℚ → ℚ} {fu : Bool} {M : ℕ} {A V : ℚ} {j : ℕ} {x : ℕ → ℚ}

/-! ### binary64 -/

/-- **C36 in binary64**: increasing time stamps `τ i 2^e`, either fractional weight function.  At a lag `k 2^e` the value is within `250 V κ (1 + |ρ|)` of the formula `ρ`
of fast selection, and 0 where no sample counts. -/
theorem C36_binary64_partial {d : DS (D64 ex fu)} {τ : ℕ → ℤ} {e : ℤ} (ht : Times64 d M τ e) (hv : Values64 d M j x A V)
    (ga : LagArgs (D64 ex fu)) (wt : String) (hw : wt = "fractional" ∨ wt = "fractional_squared") (r : AcResult (D64 ex fu))
    (hr : autocorrelation .fabs d ga "fast" wt = .ok r) (α : ℚ) (hα : r.corr.alpha = .fin α) (hα0 : pow2 (e - 400) ≤ α)
    (n : ℕ) (k : ℤ) (hn : r.lags[n]? = some (.fin (k * pow2 e))) (hk : |k| + (τ (M - 1) - τ 0) ≤ 2 ^ 53) :
    ∃ b c, ShiftedCount M (fun i => (τ i : ℚ) * pow2 e) (k * pow2 e) c ∧ (0 < c → FirstFrom M (fun i => (τ i : ℚ) * pow2 e) (k * pow2 e) b) ∧
      ∃ v : ℚ, r.At j n (.fin (k * pow2 e)) (.fin v) ∧ (c = 0 → v = 0) ∧
        |v - fastAcf M (fun i => (τ i : ℚ) * pow2 e) x (weight ex wt α) b c (sumSq M x) (k * pow2 e)|
          ≤ 250 * V * (M * A ^ 2 / sumSq M x) *
            (1 + |fastAcf M (fun i => (τ i : ℚ) * pow2 e) x (weight ex wt α) b c (sumSq M x) (k * pow2 e)|) := by
  obtain ⟨hmod, hf, hN, hb1, hb2, hb3⟩ := facts64 (ex := ex) (fu := fu) ht.one_le ht.le hv.amin hv.amax hv.unit hv.small hv.bound hv.float hv.spread
  have hαp : 0 < α := lt_of_lt_of_le (pow2_pos _) hα0
  refine C36_error_partial (exactUnit64 (ex := ex) (fu := fu) e ht.emin ht.emax) hmod d ht.built τ ht.times ht.inc j x hv.row hv.bound
    hf ga wt hw r hr α hα hαp n k hn hk hv.spread hN hb1 hb2 hb3 ?_
  have e1 := ratio64 hα0
  have e0 : 0 ≤ ((2 ^ 53 : ℤ) : ℚ) * pow2 e / α := div_nonneg (mul_nonneg (by norm_num) (pow2_pos _).le) hαp.le
  have e2 := pow_le_pow_left₀ e0 e1 2
  have e3 : pow2 453 ≤ pow2 453 ^ 2 := by
    have : (1 : ℚ) ≤ pow2 453 := by rw [← pow2_zero]; exact pow2_mono (by norm_num)
    nlinarith
  have e4 : 8 * pow2 453 ^ 2 = pow2 909 := by
    rw [show (909 : ℤ) = ((3 : ℕ) : ℤ) + (453 + 453) by norm_num, pow2_add, pow2_nat, pow2_add]; ring
  have := pow2_mono (show (909 : ℤ) ≤ 1023 by norm_num)
  have := pow2_le_big
  linarith

/-- **C36 in binary64**: at and beyond the last time the value is exactly 0. -/
theorem C36_binary64_beyond_partial {d : DS (D64 ex fu)} {τ : ℕ → ℤ} {e : ℤ} (ht : Times64 d M τ e) (hv : Values64 d M j x A V)
    (ga : LagArgs (D64 ex fu)) (wt : String) (hw : wt = "fractional" ∨ wt = "fractional_squared") (r : AcResult (D64 ex fu))
    (hr : autocorrelation .fabs d ga "fast" wt = .ok r) (α : ℚ) (hα : r.corr.alpha = .fin α) (hα0 : pow2 (e - 400) ≤ α)
    (n : ℕ) (k : ℤ) (hn : r.lags[n]? = some (.fin (k * pow2 e))) (hk : |k| + (τ (M - 1) - τ 0) ≤ 2 ^ 53) (hk' : τ (M - 1) - τ 0 ≤ k) :
    r.At j n (.fin (k * pow2 e)) (.fin 0) := by
  obtain ⟨b, c, h1, _, v, h3, h4, _⟩ := C36_binary64_partial ht hv ga wt hw r hr α hα hα0 n k hn hk
  have hc : c = 0 := by
    by_contra h0
    have := (h1.2 0 (by have := h1.1; omega)).1 (by omega)
    simp only at this
    rw [← add_mul, ← Int.cast_add, mul_lt_mul_iff_left₀ (pow2_pos e), Int.cast_lt] at this
    omega
  rw [h4 hc] at h3
  exact h3

/-- **C36 in binary64**: at a negative lag the value is the weight of the lag, up to the error bound, whatever the data. -/
theorem C36_binary64_negative_partial {d : DS (D64 ex fu)} {τ : ℕ → ℤ} {e : ℤ} (ht : Times64 d M τ e) (hv : Values64 d M j x A V)
    (ga : LagArgs (D64 ex fu)) (wt : String) (hw : wt = "fractional" ∨ wt = "fractional_squared") (r : AcResult (D64 ex fu))
    (hr : autocorrelation .fabs d ga "fast" wt = .ok r) (α : ℚ) (hα : r.corr.alpha = .fin α) (hα0 : pow2 (e - 400) ≤ α)
    (n : ℕ) (k : ℤ) (hn : r.lags[n]? = some (.fin (k * pow2 e))) (hk : |k| + (τ (M - 1) - τ 0) ≤ 2 ^ 53) (hk' : k < 0) :
    ∃ v : ℚ, r.At j n (.fin (k * pow2 e)) (.fin v) ∧
      abs (v - weight ex wt α |k * pow2 e|) ≤ 250 * V * (M * A ^ 2 / sumSq M x) * (1 + abs (weight ex wt α |k * pow2 e|)) := by
  obtain ⟨b, c, h1, h2, v, h3, _, h5⟩ := C36_binary64_partial ht hv ga wt hw r hr α hα hα0 n k hn hk
  have hp := pow2_pos e
  have hM1 := ht.one_le
  have hkp : (k : ℚ) * pow2 e < 0 := mul_neg_of_neg_of_pos (by exact_mod_cast hk') hp
  have hcM : c = M := by
    have a1 := h1.1
    have := (h1.2 (M - 1) (by omega)).2 (by linarith)
    omega
  subst hcM
  have hb0 : b = 0 := by
    by_contra hne
    have := (h2 (by omega)).2.2 0 (by omega)
    linarith
  subst hb0
  obtain ⟨_, _, hN, _⟩ := facts64 (ex := ex) (fu := fu) ht.one_le ht.le hv.amin hv.amax hv.unit hv.small hv.bound hv.float hv.spread
  have e1 : fastAcf c (fun i => (τ i : ℚ) * pow2 e) x (weight ex wt α) 0 c (sumSq c x) (k * pow2 e) = weight ex wt α |k * pow2 e| := by
    unfold fastAcf
    rw [div_eq_iff hN.ne']
    unfold sumSq
    rw [Finset.mul_sum]
    apply Finset.sum_congr rfl
    intro i hi
    have hi := Finset.mem_range.1 hi
    rw [Nat.zero_add, if_pos hi]
    have : (τ i : ℚ) * pow2 e - ((τ i : ℚ) * pow2 e + k * pow2 e) = -(k * pow2 e) := by ring
    rw [this, abs_neg]
    ring
  rw [e1] at h5
  exact ⟨v, h3, h5⟩

/-- **C36 in binary64**: the value at lag zero is `1 - dev² / N`, up to the error bound, where `dev` is the deviation of the last sample and `N` the normaliser. -/
theorem C36_binary64_zero_partial {d : DS (D64 ex fu)} {τ : ℕ → ℤ} {e : ℤ} (ht : Times64 d M τ e) (hv : Values64 d M j x A V) (hM : 2 ≤ M)
    (ga : LagArgs (D64 ex fu)) (wt : String) (hw : wt = "fractional" ∨ wt = "fractional_squared") (r : AcResult (D64 ex fu))
    (hr : autocorrelation .fabs d ga "fast" wt = .ok r) (α : ℚ) (hα : r.corr.alpha = .fin α) (hα0 : pow2 (e - 400) ≤ α)
    (n : ℕ) (hn : r.lags[n]? = some (.fin 0)) (hk : τ (M - 1) - τ 0 ≤ 2 ^ 53) :
    ∃ v : ℚ, r.At j n (.fin 0) (.fin v) ∧
      |v - (1 - dev M x (M - 1) ^ 2 / sumSq M x)|
        ≤ 250 * V * (M * A ^ 2 / sumSq M x) * (1 + |1 - dev M x (M - 1) ^ 2 / sumSq M x|) := by
  have h00 : ((0 : ℤ) : ℚ) * pow2 e = 0 := by simp
  obtain ⟨b, c, h1, h2, v, h3, _, h5⟩ := C36_binary64_partial ht hv ga wt hw r hr α hα hα0 n 0 (by rw [h00]; exact hn) (by simpa using hk)
  rw [h00] at h1 h2 h3 h5
  have hp := pow2_pos e
  have hcM : c = M - 1 := by
    have a0 := h1.1
    have a1 := h1.2 (M - 1) (by omega)
    have a2 := (h1.2 (M - 2) (by omega)).2 (by
      have := ht.inc (M - 2) (M - 1) (by omega) (by omega)
      simp only [add_zero]
      rw [mul_lt_mul_iff_left₀ hp, Int.cast_lt]
      exact this)
    have : ¬ M - 1 < c := fun hl => by have := a1.1 hl; simp at this
    omega
  subst hcM
  have hb0 : b = 0 := by
    by_contra hne
    have := (h2 (by omega)).2.2 0 (by omega)
    simp at this
  subst hb0
  obtain ⟨_, _, hN, _⟩ := facts64 (ex := ex) (fu := fu) ht.one_le ht.le hv.amin hv.amax hv.unit hv.small hv.bound hv.float hv.spread
  have e1 : fastAcf M (fun i => (τ i : ℚ) * pow2 e) x (weight ex wt α) 0 (M - 1) (sumSq M x) 0 = 1 - dev M x (M - 1) ^ 2 / sumSq M x := by
    unfold fastAcf
    rw [eq_sub_iff_add_eq, ← add_div, div_eq_one_iff_eq hN.ne']
    unfold sumSq
    conv_rhs => rw [show M = (M - 1) + 1 by omega, Finset.sum_range_succ]
    have e2 : M - 1 + 1 = M := by omega
    congr 1
    · apply Finset.sum_congr rfl
      intro i hi
      have hi := Finset.mem_range.1 hi
      rw [Nat.zero_add, if_pos hi, add_zero, sub_self, abs_zero, e2,
        weight_zero (by unfold KnownWeight; tauto) (by rcases hw with rfl | rfl <;> simp)]
      ring
    · rw [e2]
  rw [e1] at h5
  exact ⟨v, h3, h5⟩

/-- **C36 in binary64, the default call**: increasing time stamps `τ i 2^e`.  With fast selection and default lags `autocorrelation` raises `IndexError` unless
the last gap is the smallest one and divides twice the time span; in that case it returns. -/
theorem C36_binary64_default_partial {d : DS (D64 ex fu)} {τ : ℕ → ℤ} {e : ℤ} (ht : Times64 d M τ e) (hM : 2 ≤ M) (δ : ℤ) (hδ : IsMinGapZ M τ δ)
    (hB : 2 * (τ (M - 1) - τ 0) ≤ 2 ^ 53) (hC : 2 * (τ (M - 1) - τ 0) ≤ (2 ^ 31 - 4) * δ) (α : Option (D64 ex fu)) (wt : String)
    (hw : KnownWeight wt) :
    (autocorrelation .fabs d { alpha := α } "fast" wt = .exn .indexError ↔
      ¬ (τ (M - 1) - τ (M - 2) = δ ∧ δ ∣ 2 * (τ (M - 1) - τ 0))) ∧
    (τ (M - 1) - τ (M - 2) = δ ∧ δ ∣ 2 * (τ (M - 1) - τ 0) → ∃ r, autocorrelation .fabs d { alpha := α } "fast" wt = .ok r ∧
      ∃ ks : List ℚ, r.lags = ks.map .fin ∧ ks.Pairwise (· < ·) ∧ ∀ k, k ∈ ks ↔
        (∃ n : ℕ, -(τ (M - 1) - τ 0) + n * δ ≤ τ (M - 1) - τ 0 ∧ k = ((-(τ (M - 1) - τ 0) + n * δ : ℤ) : ℚ) * pow2 e) ∨ k = 0) :=
  C36_default_partial (exactUnit64 (ex := ex) (fu := fu) e ht.emin ht.emax) d ht.built M τ ht.times hM ht.inc δ hδ hB (2 ^ 31 - 4) hC (by norm_num)
    (fun n hn => round_int64 n (hn.trans (by norm_num))) α wt hw

/-! ### concrete cases -/

/-- the values of the examples -/
def fastX (i : ℕ) : ℚ := [1, 2, 6, 3].getD i 0

theorem fast_case {β : Type} (f : AcResult Sacf.B → β) (z : β)
    (h : ((mkFlat (samples 4 fun i => ((i : ℤ) : ℚ) * pow2 0 : List Sacf.B) (samples 4 fastX)).bind fun d =>
      (autocorrelation .fabs d {} "fast").bind fun r => .ok (f r)) = .ok z) : ∃ (d : DS Sacf.B) (r : AcResult Sacf.B),
    Times64 d 4 (fun i => i) 0 ∧ Values64 d 4 0 fastX 6 (4 * pow2 (-53)) ∧ autocorrelation .fabs d {} "fast" = .ok r ∧ f r = z := by
  obtain ⟨d, hd, ht, hrow, _⟩ := C03_round_trip (F := Sacf.B) (samples 4 fun i => ((i : ℤ) : ℚ) * pow2 0) [samples 4 fastX]
    (by simp [samples]) (by simp) (by simp [Rect, samples])
  rw [← (C03_flat_is_one_row _ _ []).1] at hd
  have hc : Constructed d := .flat hd
  rw [hd, Res.ok_bind, Res.bind_eq_ok] at h
  obtain ⟨r, hr, h⟩ := h
  simp only [Res.ok.injEq] at h
  exact ⟨d, r, ⟨hc, ht, fun i j hij _ => by simpa using hij, by norm_num, by norm_num, by norm_num, by norm_num⟩,
    ⟨⟨_, hrow, rfl⟩, by decide +kernel, by decide +kernel, by decide +kernel, by decide +kernel, by decide +kernel, .inr (by decide +kernel),
      by decide +kernel⟩, hr, h⟩

/-- the theorems applied to the data of `C36_false` (alpha is the median 3/2): at lag -2 the weight 3/7, at lag 0 the value 1 (the last sample has the mean
value), at lag 1 the value 10/49, at lag 3 exactly 0; the first three up to 2^-38 -/
example : ∃ (d : DS Sacf.B) (r : AcResult Sacf.B) (v₁ v₃ v₄ : ℚ), autocorrelation .fabs d {} "fast" = .ok r ∧
    r.At 0 1 (.fin (-2)) (.fin v₁) ∧ |v₁ - 3/7| ≤ pow2 (-38) ∧ r.At 0 3 (.fin 0) (.fin v₃) ∧ |v₃ - 1| ≤ pow2 (-38) ∧
    r.At 0 4 (.fin 1) (.fin v₄) ∧ |v₄ - 10/49| ≤ pow2 (-38) ∧ r.At 0 6 (.fin 3) (.fin 0) := by
  obtain ⟨d, r, ht, hv, hr, hf⟩ := fast_case (fun r => (r.lags, r.corr.alpha)) (b [-3, -2, -1, 0, 1, 2, 3], .fin (3/2)) (by decide +kernel)
  have hl := congrArg Prod.fst hf
  have hα := congrArg Prod.snd hf
  simp only at hl hα
  have hα0 : pow2 (0 - 400) ≤ (3/2 : ℚ) := by decide +kernel
  obtain ⟨v₁, a1, a2⟩ := C36_binary64_negative_partial ht hv _ "fractional" (.inl rfl) r hr _ hα hα0 1 (-2) (by rw [hl]; decide +kernel)
    (by norm_num) (by norm_num)
  obtain ⟨v₃, b1, b2⟩ := C36_binary64_zero_partial ht hv (by norm_num) _ "fractional" (.inl rfl) r hr _ hα hα0 3 (by rw [hl]; decide +kernel)
    (by norm_num)
  obtain ⟨b, c, c1, c2, v₄, c3, _, c4⟩ := C36_binary64_partial ht hv _ "fractional" (.inl rfl) r hr _ hα hα0 4 1 (by rw [hl]; decide +kernel)
    (by norm_num)
  have hc : c = 2 := ShiftedCount.unique (k := ((1 : ℤ) : ℚ) * pow2 0) c1 (by unfold ShiftedCount; decide +kernel)
  subst hc
  have hb : b = 1 := FirstFrom.unique (k := ((1 : ℤ) : ℚ) * pow2 0) (c2 (by norm_num)) (by unfold FirstFrom; decide +kernel)
  subst hb
  have d1 := C36_binary64_beyond_partial ht hv _ "fractional" (.inl rfl) r hr _ hα hα0 6 3 (by rw [hl]; decide +kernel)
    (by norm_num) (by norm_num)
  have p0 : ∀ z : ℤ, (z : ℚ) * pow2 0 = z := fun z => by rw [pow2_zero, mul_one]
  refine ⟨d, r, v₁, v₃, v₄, hr, by simpa [pow2_zero] using a1, ?_, b1, ?_, by simpa [pow2_zero] using c3, ?_, by simpa [pow2_zero] using d1⟩
  · have e : weight (fun x : ℚ => 1 / (1 - x)) "fractional" (3/2) |((-2 : ℤ) : ℚ) * pow2 0| = 3/7 := by decide +kernel
    rw [e] at a2
    exact a2.trans (by decide +kernel)
  · have e : 1 - dev 4 fastX (4 - 1) ^ 2 / sumSq 4 fastX = 1 := by decide +kernel
    rw [e] at b2
    exact b2.trans (by decide +kernel)
  · have e : fastAcf 4 (fun i => ((i : ℤ) : ℚ) * pow2 0) fastX (weight (fun x : ℚ => 1 / (1 - x)) "fractional" (3/2)) 1 2 (sumSq 4 fastX)
      (((1 : ℤ) : ℚ) * pow2 0) = 10/49 := by decide +kernel
    rw [e] at c4
    exact c4.trans (by decide +kernel)

/-- when the default call raises: the gaps 1, 2 (the last one is not the smallest) and the gaps 7, 3 (the smallest is the last, but
does not divide 20) -/
example : ((mkFlat (b [0, 1, 3]) (b [1, 2, 6])).bind fun d => autocorrelation .fabs d {} "fast") = .exn .indexError ∧
    ((mkFlat (b [0, 7, 10]) (b [1, 2, 6])).bind fun d => autocorrelation .fabs d {} "fast") = .exn .indexError := by
  have key : ∀ (τ : ℕ → ℤ) (δ : ℤ), IncreasingZ 3 τ → IsMinGapZ 3 τ δ → 2 * (τ 2 - τ 0) ≤ 100 → 0 < δ →
      ¬ (τ 2 - τ 1 = δ ∧ δ ∣ 2 * (τ 2 - τ 0)) →
      ((mkFlat (samples 3 fun i => (τ i : ℚ) * pow2 0 : List Sacf.B) (b [1, 2, 6])).bind fun d => autocorrelation .fabs d {} "fast")
        = .exn .indexError := by
    intro τ δ h1 h2 h3 h4 h5
    obtain ⟨d, hd, ht, hrow, _⟩ := C03_round_trip (F := Sacf.B) (samples 3 fun i => (τ i : ℚ) * pow2 0) [b [1, 2, 6]]
      (by simp [samples]) (by simp) (by simp [Rect, samples, b])
    rw [← (C03_flat_is_one_row _ _ []).1] at hd
    rw [hd, Res.ok_bind]
    exact (C36_binary64_default_partial ⟨.flat hd, ht, h1, by norm_num, by norm_num, by norm_num, by norm_num⟩ (by norm_num) δ h2
      (by norm_num; linarith) (by norm_num; linarith) none "fractional" (by unfold KnownWeight; tauto)).1.2 h5
  constructor
  · have := key (fun i => [0, 1, 3].getD i 0) 1 (fun i j hij hj => by interval_cases j <;> interval_cases i <;> simp) (by
      refine ⟨⟨0, 1, by norm_num, by norm_num, by decide⟩, fun i j hij hj => ?_⟩
      interval_cases j <;> interval_cases i <;> simp) (by decide) (by norm_num) (by decide)
    have e : (samples 3 fun i => (([0, 1, 3].getD i 0 : ℤ) : ℚ) * pow2 0 : List Sacf.B) = b [0, 1, 3] := by decide +kernel
    rw [e] at this
    exact this
  · have := key (fun i => [0, 7, 10].getD i 0) 3 (fun i j hij hj => by interval_cases j <;> interval_cases i <;> simp) (by
      refine ⟨⟨1, 2, by norm_num, by norm_num, by decide⟩, fun i j hij hj => ?_⟩
      interval_cases j <;> interval_cases i <;> simp) (by decide) (by norm_num) (by decide)
    have e : (samples 3 fun i => (([0, 7, 10].getD i 0 : ℤ) : ℚ) * pow2 0 : List Sacf.B) = b [0, 7, 10] := by decide +kernel
    rw [e] at this
    exact this

end binary64
end Sacf
