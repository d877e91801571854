import Verif.Props.Selection
import Verif.Props.Acf
import Verif.Props.LagRounded
import Verif.Props.Rescale
import Verif.Spec.IntAbs

/-!
# Distances truncated to whole units (C20)

What `autocorrelation` returns when the unqualified `abs` of `Correlator.cpp` denotes `int abs(int)`.
-/

set_option linter.unusedSectionVars false
set_option linter.unusedSimpArgs false

namespace Sacf

open Finset

variable {K : Type} [Field K] [LinearOrder K] [IsStrictOrderedRing K] [FloorRing K]
variable {dm : K} {f32 ex : K → K}

local notation "E" => XF (Rnd.exact dm f32 ex)

/-- `abs` of a double as an integer: its whole part, if that is below 2³¹ -/
theorem app_intAbs (x : K) :
    AbsFn.intAbs.app (.fin x : E) = if ⌊|x|⌋ < 2147483648 then .ok (.fin (⌊|x|⌋ : ℤ)) else .ub := by
  unfold AbsFn.app
  have ht : Arith.toInt (.fin x : E) = some (if 0 ≤ x then ⌊x⌋ else ⌈x⌉) := rfl
  simp only [ht, ex_ofInt]
  by_cases hx : 0 ≤ x
  · have h0 : 0 ≤ ⌊x⌋ := Int.floor_nonneg.2 hx
    rw [if_pos hx, abs_of_nonneg hx]
    by_cases hb : ⌊x⌋ < 2147483648
    · rw [if_pos ⟨by omega, hb⟩, if_pos hb, Int.natAbs_of_nonneg h0]
    · rw [if_neg (by omega), if_neg hb]
  · push Not at hx
    have hc : ⌈x⌉ = -⌊|x|⌋ := by rw [abs_of_neg hx, Int.floor_neg, neg_neg]
    have h0 : 0 ≤ ⌊|x|⌋ := Int.floor_nonneg.2 (abs_nonneg x)
    rw [if_neg (not_le.2 hx), hc]
    by_cases hb : ⌊|x|⌋ < 2147483648
    · rw [if_pos (by omega), if_pos hb]
      congr 2
      have : ((-⌊|x|⌋).natAbs : ℤ) = ⌊|x|⌋ := by omega
      exact_mod_cast congrArg (Int.cast : ℤ → K) this
    · rw [if_neg (by omega), if_neg hb]

theorem app_intAbs_ok {x : K} {y : E} (h : AbsFn.intAbs.app (.fin x : E) = .ok y) :
    ⌊|x|⌋ < 2147483648 ∧ y = .fin (⌊|x|⌋ : ℤ) := by
  rw [app_intAbs] at h
  split at h
  · simp only [Res.ok.injEq] at h
    exact ⟨by assumption, h.symm⟩
  · cases h

theorem FirstAfter.unique {M : ℕ} {t : ℕ → K} {s : K} {r r' : ℕ} (h : FirstAfter M t s r) (h' : FirstAfter M t s r') :
    r = r' := by
  rcases Nat.lt_trichotomy r r' with hl | hl | hl
  · exact absurd h.2.1 (not_le.2 (h'.2.2 r hl))
  · exact hl
  · exact absurd h'.2.1 (not_le.2 (h.2.2 r' hl))

theorem IsNearestWhole.lt {M : ℕ} {t : ℕ → K} {s : K} {j : ℕ} (h : IsNearestWhole M t s j) : j < M := by
  obtain ⟨r, hr, ⟨_, _, rfl⟩ | ⟨_, rfl⟩⟩ := h
  · have := hr.1; omega
  · exact hr.1

theorem IsNearestWhole.unique {M : ℕ} {t : ℕ → K} {s : K} {j j' : ℕ} (h : IsNearestWhole M t s j)
    (h' : IsNearestWhole M t s j') : j = j' := by
  obtain ⟨r, hr, hj⟩ := h
  obtain ⟨r', hr', hj'⟩ := h'
  obtain rfl := hr.unique hr'
  rcases hj with ⟨h1, h2, rfl⟩ | ⟨h1, rfl⟩ <;> rcases hj' with ⟨h3, h4, rfl⟩ | ⟨h3, rfl⟩
  · rfl
  · rcases h3 with h3 | h3
    · omega
    · exact absurd h2 (not_lt.2 h3)
  · rcases h1 with h1 | h1
    · omega
    · exact absurd h4 (not_lt.2 h1)
  · rfl

theorem IsNearestWhole.sub_const {M : ℕ} {t : ℕ → K} {s c : K} {j : ℕ} :
    IsNearestWhole M (fun i => t i - c) (s - c) j ↔ IsNearestWhole M t s j := by
  unfold IsNearestWhole FirstAfter
  simp only [sub_sub_sub_cancel_right, sub_le_sub_iff_right, sub_lt_sub_iff_right]

/-- natural selection with truncated distances -/
theorem selectNat_whole {M : ℕ} {u : ℕ → K} (hM : 0 < M) {s : K} (hu : Increasing M u)
    (hs : s ≤ u (M - 1)) {j : ℕ} (h : Corr.selectNat .intAbs (samples M u : List E) (.fin s) = .ok j) :
    IsNearestWhole M u s j := by
  have hlast : Arith.lt (lastD (samples M u : List E)) (.fin s) = false := by
    rw [samples_last hM]; simpa using hs
  obtain ⟨r, h1, h2, h3⟩ := lowerBound_lt (samples_ne_nil hM) hlast
  rw [samples_length] at *
  have hr : s ≤ u r := by
    obtain ⟨x, hx, hl⟩ := h2.above h3
    rw [samples_getElem? h3] at hx
    simp at hx; subst hx
    simpa using hl
  have hr1 : 0 < r → u (r - 1) < s := by
    intro h0
    obtain ⟨x, hx, hl⟩ := h2.below h0
    rw [samples_getElem? (by omega)] at hx
    simp at hx; subst hx
    simpa using hl
  refine ⟨r, ⟨h3, hr, fun i hi => lt_of_le_of_lt (hu.le (show i ≤ r - 1 by omega) (by omega)) (hr1 (by omega))⟩, ?_⟩
  unfold Corr.selectNat at h
  rw [h1] at h
  simp only [Res.ok_bind] at h
  by_cases h0 : r = 0
  · subst h0
    simp at h
    exact Or.inr ⟨Or.inl rfl, h.symm⟩
  · rw [if_pos h0] at h
    simp only [Res.bind_eq_ok, atGet_eq_ok] at h
    obtain ⟨lo, hlo, dlo, hdlo, hi, hhi, dhi, hdhi, h⟩ := h
    rw [samples_getElem? (by omega)] at hlo
    rw [samples_getElem? h3] at hhi
    simp only [Option.some.injEq] at hlo hhi
    subst hlo hhi
    rw [ex_sub] at hdlo hdhi
    obtain ⟨_, rfl⟩ := app_intAbs_ok hdlo
    obtain ⟨_, rfl⟩ := app_intAbs_ok hdhi
    simp only [xf_lt, Int.cast_lt, decide_eq_true_eq, Res.ok.injEq] at h
    split at h
    · rename_i hlt
      exact Or.inl ⟨by omega, hlt, h.symm⟩
    · rename_i hlt
      exact Or.inr ⟨Or.inr (not_lt.1 hlt), h.symm⟩

/-- the pairs of one lag -/
theorem lagPlan_whole {M : ℕ} {u : ℕ → K} (hM : 0 < M) (hu : Increasing M u) {wt : String}
    (hw : KnownWeight wt) {α : K} (hα : 0 < α) (k : K) {ps : List (E × ℕ)}
    (hps : lagPlan .intAbs "natural" wt (samples M u : List E) (.fin α) (.fin k) = .ok ps) :
    ∃ (m : ℕ) (s : ℕ → ℕ), m ≤ M ∧ (∀ i < M, (i < m ↔ u i + k ≤ u (M - 1))) ∧
      (∀ i < m, IsNearestWhole M u (u i + k) (s i)) ∧
      ps = (List.range m).map fun i => (.fin (weight ex wt α (⌊|u (s i) - (u i + k)|⌋ : ℤ)), s i) := by
  obtain ⟨m, _, h1, h2, _, h4, _⟩ := planNat_nearest (dm := dm) (f32 := f32) (ex := ex) hM hu k
  obtain ⟨w, hw1, hw2⟩ := planWt_weight (dm := dm) (f32 := f32) (ex := ex) hw hα
  unfold lagPlan planSel at hps
  rw [if_neg (by decide), if_pos rfl, hw1, h4] at hps
  simp only [Res.bind_eq_ok, Res.ok_bind, Res.ok.injEq] at hps
  obtain ⟨p, ⟨sl, hsl, rfl⟩, dl, hdl, rfl⟩ := hps
  unfold planNat at hsl
  rw [h4] at hsl
  have hlen := Res.mapL_length hsl
  rw [samples_length] at hlen
  have hsel : ∀ i (hi : i < m), IsNearestWhole M u (u i + k) (sl[i]'(by omega)) := by
    intro i hi
    obtain ⟨y, hy1, hy2⟩ := Res.mapL_eq_ok_getElem hsl i _ (samples_getElem? hi)
    rw [List.getElem?_eq_getElem (by omega)] at hy1
    simp only [Option.some.injEq] at hy1
    rw [← hy1] at hy2
    exact selectNat_whole hM hu ((h2 i (by omega)).1 hi) hy2
  have hget : ∀ i (hi : i < sl.length), sl.getD i 0 = sl[i] := fun i hi => by simp [List.getD, hi]
  have hdlen := Res.mapL_length hdl
  simp only [List.length_zip, samples_length, hlen, min_self] at hdlen
  refine ⟨m, fun i => sl.getD i 0, h1, h2, fun i hi => ?_, ?_⟩
  · show IsNearestWhole M u (u i + k) (sl.getD i 0)
    rw [hget i (by omega)]; exact hsel i hi
  · apply List.ext_getElem
    · simp [hlen, hdlen]
    · intro i hi1 hi2
      have hi : i < m := by simpa using hi2
      have hsM := (hsel i hi).lt
      simp only [List.getElem_zip, List.getElem_map, List.getElem_range]
      rw [hget i (by omega), Prod.mk.injEq]
      refine ⟨?_, rfl⟩
      have hz : (sl.zip (samples m (fun i => u i + k) : List E))[i]? = some (sl[i]'(by omega), .fin (u i + k)) := by
        rw [List.getElem?_zip_eq_some]
        exact ⟨List.getElem?_eq_getElem _, samples_getElem? hi⟩
      obtain ⟨y, hy1, hy2⟩ := Res.mapL_eq_ok_getElem hdl i _ hz
      rw [List.getElem?_eq_getElem (by omega)] at hy1
      simp only [Option.some.injEq] at hy1
      rw [← hy1, Res.bind_eq_ok] at hy2
      obtain ⟨t', ht', hy2⟩ := hy2
      rw [atGet_eq_ok, samples_getElem? hsM] at ht'
      simp only [Option.some.injEq] at ht'
      rw [← ht', ex_sub] at hy2
      obtain ⟨_, hy3⟩ := app_intAbs_ok hy2
      rw [hy3]
      apply hw2
      exact_mod_cast Int.floor_nonneg.2 (abs_nonneg _)

variable {d : DS (Exact dm f32 ex)} {g : LagArgs (Exact dm f32 ex)} {wt : String} {r : AcResult (Exact dm f32 ex)}
  {M : ℕ} {t : ℕ → K} {j : ℕ} {x : ℕ → K} {α : K}

/-- **C20**: with `int abs(int)` every correlation returned is the formula with distances truncated to whole units,
both in the choice of the sample and in its weight. -/
theorem C20_formula_partial (h : IntAbsRun d g wt r M t j x α) (hf : ∀ i < M, f32 (x i) = x i) (hv : sumSq M x ≠ 0)
    (n : ℕ) (k : K) (hn : r.lags[n]? = some (.fin k)) (s : ℕ → ℕ) (hs : SelectsWhole M t k s) :
    r.At j n (.fin k) (.fin (sacfWhole M t x (weight ex wt α) s (sumSq M x) k)) := by
  obtain ⟨hM, hnt, _⟩ := built_times h.built h.times
  obtain ⟨ps, h1, h2⟩ := result_at h.built h.run h.row hn
  rw [h.alpha, hnt] at h1
  obtain ⟨m, s', a1, a2, a3, rfl⟩ := lagPlan_whole hM (h.inc.sub_const (t 0)) h.wt_known h.alpha_pos k h1
  rw [dev_samples hM, meanOf_samples hM, normOfRow_samples] at h2
  have hnn : (∑ i ∈ range M, (f32 (x i) - mean M x) ^ 2) = sumSq M x := narrowed_eq hf
  rw [hnn, corrValue_samples a1 (dev M x) (fun i => weight ex wt α (⌊|t (s' i) - t 0 - (t i - t 0 + k)|⌋ : ℤ)) s'
    (fun i hi => (a3 i hi).lt) hv] at h2
  convert h2 using 2
  unfold sacfWhole
  congr 1
  have hmem : ∀ i < M, (i < m ↔ t i + k ≤ t (M - 1)) := by
    intro i hi
    rw [a2 i hi]
    constructor <;> intro h <;> linarith
  have hset : (range M).filter (fun i => t i + k ≤ t (M - 1)) = range m := by
    ext i
    simp only [Finset.mem_filter, Finset.mem_range]
    constructor
    · rintro ⟨hi, h⟩; exact (hmem i hi).2 h
    · intro hi; exact ⟨by omega, (hmem i (by omega)).1 hi⟩
  rw [hset]
  apply Finset.sum_congr rfl
  intro i hi
  have hi := Finset.mem_range.1 hi
  have hiM : i < M := by omega
  have e : s' i = s i := by
    have b1 := a3 i hi
    have b2 := hs i hiM ((hmem i hiM).1 hi)
    have e2 : t i - t 0 + k = (t i + k) - t 0 := by ring
    rw [e2, IsNearestWhole.sub_const] at b1
    exact b1.unique b2
  rw [e]
  have e3 : t (s i) - t 0 - (t i - t 0 + k) = t (s i) - (t i + k) := by ring
  simp only [e3]

/-- a first sample at or after a time that is not beyond the last one -/
theorem exists_firstAfter {M : ℕ} (hM : 0 < M) {t : ℕ → K} {s : K} (hs : s ≤ t (M - 1)) :
    ∃ r, FirstAfter M t s r := by
  classical
  have hex : ∃ r, r < M ∧ s ≤ t r := ⟨M - 1, by omega, hs⟩
  refine ⟨Nat.find hex, (Nat.find_spec hex).1, (Nat.find_spec hex).2, fun i hi => ?_⟩
  have := Nat.find_min hex hi
  have hlt := (Nat.find_spec hex).1
  push Not at this
  exact this (by omega)

/-- **C20**: if consecutive times are less than one unit apart, then for every lag above -1 the weight function and
`alpha` have no influence (every weight is the one of distance 0) and each shifted time is matched with the first sample
at or after it, not with the nearest. -/
theorem C20_below_one_unit_partial (h : IntAbsRun d g wt r M t j x α) (hf : ∀ i < M, f32 (x i) = x i) (hv : sumSq M x ≠ 0)
    (hgap : ∀ i, i + 1 < M → t (i + 1) - t i < 1)
    (n : ℕ) (k : K) (hk : -1 < k) (hn : r.lags[n]? = some (.fin k)) (s : ℕ → ℕ)
    (hs : ∀ i < M, t i + k ≤ t (M - 1) → FirstAfter M t (t i + k) (s i)) :
    r.At j n (.fin k) (.fin (weight ex wt α 0 *
      (∑ i ∈ range M with t i + k ≤ t (M - 1), dev M x i * dev M x (s i)) / sumSq M x)) := by
  obtain ⟨hM, _, _⟩ := built_times h.built h.times
  have hdist : ∀ i < M, t i + k ≤ t (M - 1) → ⌊|t i + k - t (s i)|⌋ = 0 ∧
      (0 < s i → ⌊|t i + k - t (s i - 1)|⌋ = 0) := by
    intro i hi hik
    obtain ⟨h1, h2, h3⟩ := hs i hi hik
    have h0 : t 0 ≤ t i := h.inc.le (Nat.zero_le i) hi
    constructor
    · rw [Int.floor_eq_zero_iff, Set.mem_Ico]
      refine ⟨abs_nonneg _, ?_⟩
      rw [abs_of_nonpos (by linarith)]
      rcases Nat.eq_zero_or_pos (s i) with hz | hz
      · rw [hz]; linarith
      · have := hgap (s i - 1) (by omega)
        have h4 := h3 (s i - 1) (by omega)
        rw [show s i - 1 + 1 = s i by omega] at this
        linarith
    · intro hz
      rw [Int.floor_eq_zero_iff, Set.mem_Ico]
      refine ⟨abs_nonneg _, ?_⟩
      have h4 := h3 (s i - 1) (by omega)
      have := hgap (s i - 1) (by omega)
      rw [show s i - 1 + 1 = s i by omega] at this
      rw [abs_of_pos (by linarith)]
      linarith
  have hsw : SelectsWhole M t k s := by
    intro i hi hik
    refine ⟨s i, hs i hi hik, Or.inr ⟨?_, rfl⟩⟩
    rcases Nat.eq_zero_or_pos (s i) with hz | hz
    · exact Or.inl hz
    · right
      rw [(hdist i hi hik).1, (hdist i hi hik).2 hz]
  have := C20_formula_partial h hf hv n k hn s hsw
  convert this using 2
  unfold sacfWhole
  congr 1
  rw [Finset.mul_sum]
  apply Finset.sum_congr rfl
  intro i hi
  obtain ⟨hi, hik⟩ := Finset.mem_filter.1 hi
  have e := (hdist i (Finset.mem_range.1 hi) hik).1
  rw [abs_sub_comm] at e
  rw [e]
  push_cast
  ring

/-- five samples 0.4 apart: with `int abs(int)` another weight function and `alpha` give the same values at lags 0.4 and 0.6 -/
example : ((mkFlat (q [0, 2/5, 4/5, 6/5, 8/5]) (q [1, 2, 0, 5, 3])).bind fun d =>
    (acOut .intAbs d ⟨some (.fin (2/5)), some (.fin (3/5)), some (.fin (1/5)), none⟩ "natural" "fractional").bind fun r =>
    (acOut .intAbs d ⟨some (.fin (2/5)), some (.fin (3/5)), some (.fin (1/5)), some (.fin 7)⟩ "natural" "fractional_squared").bind fun r' =>
    .ok (r, decide (r = r')))
      = .ok ((q [0, 2/5, 3/5], .flat (q [1, -81/370, 4/185])), true) := by
  decide +kernel

/-- the same call with the floating-point `abs` -/
example : ((mkFlat (q [0, 2/5, 4/5, 6/5, 8/5]) (q [1, 2, 0, 5, 3])).bind fun d =>
    (acOut .fabs d ⟨some (.fin (2/5)), some (.fin (3/5)), some (.fin (1/5)), none⟩ "natural" "fractional").bind fun r =>
    (acOut .fabs d ⟨some (.fin (2/5)), some (.fin (3/5)), some (.fin (1/5)), some (.fin 7)⟩ "natural" "fractional_squared").bind fun r' =>
    .ok (decide (r = r')))
      = .ok false := by
  decide +kernel

/-! ### distances of 2³¹ and more -/

section rounded
open Arith
variable {R : Rnd K}

theorem selectNat_intAbs_cases {F : Type} [Arith F] {nt : List F} (hne : nt ≠ []) {s : F} (h : lt (lastD nt) s = false) :
    (∃ j, Corr.selectNat .intAbs nt s = .ok j) ∨ Corr.selectNat .intAbs nt s = .ub := by
  obtain ⟨r, h1, _, h3⟩ := lowerBound_lt hne h
  have happ : ∀ x : F, (∃ y, AbsFn.intAbs.app x = .ok y) ∨ AbsFn.intAbs.app x = .ub := by
    intro x
    unfold AbsFn.app
    cases Arith.toInt x with
    | none => exact Or.inr rfl
    | some n =>
      by_cases hb : -2147483648 < n ∧ n < 2147483648
      · simp [hb]
      · simp [hb]
  unfold Corr.selectNat
  rw [h1]
  simp only [Res.ok_bind]
  by_cases hr : r = 0
  · simp [hr]
  · rw [if_pos hr, atGet_of_lt (show r - 1 < nt.length by omega), atGet_of_lt h3]
    simp only [Res.ok_bind]
    rcases happ (sub s nt[r - 1]) with ⟨y, hy⟩ | hy
    · rw [hy]
      simp only [Res.ok_bind]
      rcases happ (sub s nt[r]) with ⟨z, hz⟩ | hz
      · rw [hz]; exact Or.inl ⟨_, rfl⟩
      · rw [hz]; exact Or.inr rfl
    · rw [hy]; exact Or.inr rfl

theorem mapL_ok_or_ub {α β : Type} {f : α → Res β} {l : List α} (h : ∀ x ∈ l, (∃ y, f x = .ok y) ∨ f x = .ub) :
    (∃ y, Res.mapL f l = .ok y) ∨ Res.mapL f l = .ub := by
  induction l with
  | nil => exact Or.inl ⟨[], rfl⟩
  | cons x xs ih =>
    rw [Res.mapL_cons]
    rcases h x (by simp) with ⟨y, hy⟩ | hy
    · rw [hy]
      rcases ih (fun x hx => h x (by simp [hx])) with ⟨z, hz⟩ | hz
      · rw [hz]; exact Or.inl ⟨_, rfl⟩
      · rw [hz]; exact Or.inr rfl
    · rw [hy]; exact Or.inr rfl

/-- the first lag is `-2³¹` or below: the distance of the first sample from its shifted time does not fit an `int` -/
theorem lagPlan_overflow {nt rest : List (XF R)} (hnt : nt = .fin 0 :: rest) (hnn : ∀ x ∈ nt, Arith.le (.fin 0) x = true)
    {lo : K} (hlo : lo ≤ -2147483648) (hdbl : (XF.round lo : XF R) = .fin lo) (wt : String) (α : XF R) :
    lagPlan .intAbs "natural" wt nt α (.fin lo) = .ub := by
  have hlt0 : ∀ x ∈ nt, Arith.lt x (.fin lo : XF R) = false := by
    intro x hx
    have := hnn x hx
    cases x with
    | nan => rfl
    | ninf => simp [Arith.le, XF.le] at this
    | pinf => rfl
    | fin y =>
      have hy : 0 ≤ y := by simpa [Arith.le, XF.le] using this
      show XF.lt (.fin y) (.fin lo) = false
      simp only [XF.lt, decide_eq_false_iff_not, not_lt]
      linarith
  have hne : nt ≠ [] := by rw [hnt]; simp
  have hsh0 : Arith.add (.fin 0 : XF R) (.fin lo) = .fin lo := by
    show XF.round (0 + lo) = _
    rw [zero_add, hdbl]
  have hlast : Arith.lt (lastD nt) (.fin lo : XF R) = false := by
    apply hlt0
    have := lastD_eq_getElem hne
    exact List.mem_iff_getElem?.2 ⟨_, this⟩
  obtain ⟨sh, hsh⟩ : ∃ sh, shiftedNat nt (.fin lo) = .fin lo :: sh := by
    unfold shiftedNat
    generalize lastD nt = la at hlast
    rw [hnt, List.map_cons, List.takeWhile_cons, hsh0, hlast]
    exact ⟨_, rfl⟩
  have hfirst : Corr.selectNat .intAbs nt (.fin lo : XF R) = .ok 0 := by
    obtain ⟨r, h1, h2, h3⟩ := lowerBound_lt hne hlast
    have hr : r = 0 := by
      by_contra hr
      obtain ⟨x, hx, hl⟩ := h2.below (by omega)
      rw [hlt0 x (List.mem_iff_getElem?.2 ⟨_, hx⟩)] at hl
      cases hl
    unfold Corr.selectNat
    rw [h1, hr]
    rfl
  unfold lagPlan planSel
  rw [if_neg (by decide), if_pos rfl]
  have hp : (∃ y, planNat .intAbs nt (.fin lo : XF R) = .ok y) ∨ planNat .intAbs nt (.fin lo : XF R) = .ub :=
    mapL_ok_or_ub fun x hx => selectNat_intAbs_cases hne (mem_shiftedNat hx)
  rcases hp with ⟨y, hy⟩ | hy
  · have hy' := hy
    unfold planNat at hy'
    rw [hsh, Res.mapL_cons, hfirst] at hy'
    simp only [Res.ok_bind, Res.bind_eq_ok, Res.ok.injEq] at hy'
    obtain ⟨ys, _, rfl⟩ := hy'
    rw [hy, hsh]
    simp only [Res.ok_bind, planDelta, List.zip_cons_cons, Res.mapL_cons]
    rw [hnt]
    have h0 : atGet ((.fin 0 : XF R) :: rest) 0 = .ok (.fin 0) := rfl
    have happ : AbsFn.intAbs.app (Arith.sub (.fin 0 : XF R) (.fin lo)) = .ub := by
      have : Arith.sub (.fin 0 : XF R) (.fin lo) = .fin (-lo) := by
        show XF.round (0 + -lo) = _
        rw [zero_add, Sacf.round_neg, hdbl]
        rfl
      rw [this]
      unfold AbsFn.app
      have ht : Arith.toInt (.fin (-lo) : XF R) = some (if 0 ≤ -lo then ⌊-lo⌋ else ⌈-lo⌉) := rfl
      simp only [ht]
      have hpos : (0 : K) ≤ -lo := by linarith
      simp only [hpos, if_true]
      rw [if_neg]
      rintro ⟨_, h⟩
      have : (2147483648 : ℤ) ≤ ⌊-lo⌋ := by
        rw [Int.le_floor]
        push_cast
        linarith
      omega
    rw [h0]
    simp only [Res.ok_bind, happ]
    rfl
  · rw [hy]; rfl

/-- **C20**: with `int abs(int)` a call whose first lag is `-2³¹` or below has undefined behaviour, in any rounding; by
default that is every data structure whose times span `2³¹` units or more (times in nanoseconds: two seconds). -/
theorem C20_overflow (d : DS (XF R)) (hd : Constructed d) (M : ℕ) (t : ℕ → K) (ht : d.timeseries = samples M t)
    (hmin : ∀ i < M, t 0 ≤ t i) (g : LagArgs (XF R)) (lo : K)
    (hlo : g.minLag = some (.fin lo) ∨ (g.minLag = none ∧ (XF.round (t (M - 1) - t 0) : XF R) = .fin (-lo)))
    (hdbl : (XF.round lo : XF R) = .fin lo) (hbig : lo ≤ -2147483648)
    (hmax : ∀ x, g.maxLag = some x → Arith.le (.fin lo) x = true) (wt : String) :
    autocorrelation .intAbs d g "natural" wt = .ub := by
  obtain ⟨hM, hnt⟩ := normT_rounded hd ht
  have hlast : lastD d.normT = XF.round (t (M - 1) - t 0) := by
    have h1 := lastD_eq_getElem (l := d.normT) (by rw [hnt]; simpa using hM.ne')
    rw [hnt] at h1 ⊢
    simp only [List.length_map, List.length_range, List.getElem?_map,
      List.getElem?_range (show M - 1 < M by omega), Option.map_some, Option.some.injEq] at h1
    exact h1.symm
  have hnn : ∀ x ∈ d.normT, Arith.le (.fin 0) x = true := by
    intro x hx
    rw [hnt] at hx
    obtain ⟨i, hi, rfl⟩ := List.mem_map.1 hx
    exact round_nonneg (by have := hmin i (List.mem_range.1 hi); linarith)
  obtain ⟨rest, hrest⟩ : ∃ rest, d.normT = .fin 0 :: rest := by
    obtain ⟨M', rfl⟩ : ∃ M', M = M' + 1 := ⟨M - 1, by omega⟩
    rw [hnt, List.range_succ_eq_map]
    simp only [List.map_cons, sub_self, round_zero]
    exact ⟨_, rfl⟩
  have hplan : acPlan .intAbs d.normT d.tMedian g "natural" wt = .ub := by
    unfold acPlan
    have hl : g.minLag.getD (Arith.neg (lastD d.normT)) = .fin lo := by
      rcases hlo with h | ⟨h, h'⟩
      · rw [h]; rfl
      · rw [h, hlast, h']
        show XF.neg (.fin (-lo)) = _
        simp [XF.neg]
    have hle : Arith.le (.fin lo : XF R) (g.maxLag.getD (lastD d.normT)) = true := by
      cases hm : g.maxLag with
      | some x => exact hmax x hm
      | none =>
        refine xf_le_trans (y := .fin 0) ?_ ?_
        · show XF.le (.fin lo) (.fin 0) = true
          simp only [XF.le, decide_eq_true_eq]
          linarith
        · apply hnn
          exact List.mem_iff_getElem?.2 ⟨_, lastD_eq_getElem (by rw [hrest]; simp)⟩
    rw [hl]
    have hslots : (∃ n, slotsOf d.normT = .ok n) ∨ slotsOf d.normT = .ub := by
      unfold slotsOf lagSlots
      split
      · exact Or.inr rfl
      · split
        · split
          · exact Or.inl ⟨_, rfl⟩
          · exact Or.inr rfl
        · exact Or.inr rfl
    rcases hslots with ⟨n, hn⟩ | hn
    · rw [hn]
      simp only [Res.ok_bind]
      have hl1 : ∃ l, lagsUpTo (g.maxLag.getD (lastD d.normT)) (g.lagRes.getD (findMinDiff d.normT)) (n + 1) (.fin lo) false
          = .fin lo :: l := by
        unfold lagsUpTo
        rw [if_pos hle]
        have h1 : Arith.lt (Arith.zero : XF R) (.fin lo) = false := by
          show XF.lt (.fin 0) (.fin lo) = false
          simp only [XF.lt, decide_eq_false_iff_not, not_lt]
          linarith
        rw [h1]
        exact ⟨_, rfl⟩
      obtain ⟨l, hl2⟩ := hl1
      unfold planRun
      rw [hl2, List.take_succ_cons, Res.mapL_cons]
      have : lagPlan' .intAbs "natural" wt d.normT (g.alpha.getD d.tMedian) (.fin lo : XF R) = .ub := by
        unfold lagPlan'
        rw [lagPlan_overflow hrest hnn hbig hdbl]
        rfl
      rw [this]
      rfl
    · rw [hn]; rfl
  rw [autocorrelation_plan _ hd.wf, hplan]
  rfl


/-! ### integer times and lags, in any rounding -/

/-- integers up to `B` are doubles -/
def IntsExact (R : Rnd K) (B : ℤ) : Prop := ∀ n : ℤ, |n| ≤ B → (XF.round (n : K) : XF R) = .fin n

variable {B : ℤ}

theorem dbl_add (hB : IntsExact R B) {m n : ℤ} (h : |m + n| ≤ B) :
    Arith.add (dbl m : XF R) (dbl n) = dbl (m + n) := by
  show XF.round ((m : K) + n) = _
  rw [← Int.cast_add]
  exact hB _ h

theorem dbl_sub (hB : IntsExact R B) {m n : ℤ} (h : |m - n| ≤ B) :
    Arith.sub (dbl m : XF R) (dbl n) = dbl (m - n) := by
  show XF.round ((m : K) + -n) = _
  rw [← sub_eq_add_neg, ← Int.cast_sub]
  exact hB _ h

theorem app_dbl (hB : IntsExact R B) (hB32 : 2147483648 ≤ B) {n : ℤ} (h : |n| < 2147483648) :
    AbsFn.intAbs.app (dbl n : XF R) = AbsFn.fabs.app (dbl n) := by
  have h' := abs_lt.1 h
  unfold AbsFn.app dbl
  have : Arith.toInt (.fin (n : K) : XF R) = some n := by
    show XF.toInt _ = _
    simp only [XF.toInt]
    split <;> simp
  simp only [this]
  rw [if_pos ⟨by omega, h'.2⟩]
  have e : (Arith.ofInt (n.natAbs : ℤ) : XF R) = .fin ((n.natAbs : ℤ) : K) := hB _ (by rw [abs_lt] at h; rw [abs_le]; omega)
  rw [e]
  show Res.ok (XF.fin ((n.natAbs : ℤ) : K)) = Res.ok (XF.fin |(n : K)|)
  congr 2
  rw [← Int.cast_abs, Int.natCast_natAbs]

theorem app_dbl_sub (hB : IntsExact R B) (hB32 : 2147483648 ≤ B) {m n : ℤ} (h : |m - n| < 2147483648) :
    AbsFn.intAbs.app (Arith.sub (dbl m : XF R) (dbl n)) = AbsFn.fabs.app (Arith.sub (dbl m : XF R) (dbl n)) := by
  rw [dbl_sub hB (by omega)]
  exact app_dbl hB hB32 h

/-- the normalised times are integers between 0 and `T`, `T` the last -/
structure IntTimesR (nt : List (XF R)) (T : ℤ) : Prop where
  int : ∀ x ∈ nt, ∃ n : ℤ, x = dbl n ∧ 0 ≤ n ∧ n ≤ T
  last : lastD nt = dbl T

theorem app_of_mem (hB : IntsExact R B) (hB32 : 2147483648 ≤ B) {nt : List (XF R)} {T k : ℤ} (h : IntTimesR nt T)
    (hk : k ≤ T) (hb : T - k < 2147483648) (hT : T < 2147483648) (i : ℕ) (x : XF R) (hx : atGet nt i = .ok x) :
    AbsFn.intAbs.app (Arith.sub (dbl k : XF R) x) = AbsFn.fabs.app (Arith.sub (dbl k) x) := by
  rw [atGet_eq_ok] at hx
  obtain ⟨n, rfl, h0, h1⟩ := h.int x (List.mem_iff_getElem?.2 ⟨i, hx⟩)
  apply app_dbl_sub hB hB32
  rw [abs_lt]; omega

theorem lagPlan_dbl (hB : IntsExact R B) (hB32 : 2 * 2147483648 ≤ B) {nt : List (XF R)} {T k : ℤ} (h : IntTimesR nt T)
    (hk : k ≤ 2147483648) (hb : T - k < 2147483648) (hT : T < 2147483648) (sel wt : String) (alpha : XF R) :
    lagPlan .intAbs sel wt nt alpha (dbl k) = lagPlan .fabs sel wt nt alpha (dbl k) := by
  have hB' : 2147483648 ≤ B := by omega
  have hsh : ∀ x ∈ nt.map (fun t => Arith.add t (dbl k)), ∃ n : ℤ, x = dbl n ∧ k ≤ n := by
    intro x hx
    obtain ⟨y, hy, rfl⟩ := List.mem_map.1 hx
    obtain ⟨n, rfl, h0, h1⟩ := h.int y hy
    exact ⟨n + k, dbl_add hB (by rw [abs_le]; omega), by omega⟩
  have hle : ∀ (m n : ℤ), Arith.lt (dbl m : XF R) (dbl n) = decide (m < n) := by
    intro m n
    show XF.lt (.fin (m : K)) (.fin (n : K)) = _
    simp [XF.lt]
  have hle' : ∀ (m n : ℤ), Arith.le (dbl m : XF R) (dbl n) = decide (m ≤ n) := by
    intro m n
    show XF.le (.fin (m : K)) (.fin (n : K)) = _
    simp [XF.le]
  have hnat : ∀ x ∈ shiftedNat nt (dbl k), ∃ n : ℤ, x = dbl n ∧ k ≤ n ∧ n ≤ T := by
    intro x hx
    obtain ⟨n, rfl, hn⟩ := hsh x ((List.takeWhile_sublist _).mem hx)
    refine ⟨n, rfl, hn, ?_⟩
    have := of_mem_takeWhile hx
    rw [h.last, hle] at this
    simpa using this
  have hfast : ∀ x ∈ shiftedFast nt (dbl k), ∃ n : ℤ, x = dbl n ∧ k ≤ n ∧ n ≤ T := by
    intro x hx
    obtain ⟨n, rfl, hn⟩ := hsh x ((List.takeWhile_sublist _).mem hx)
    refine ⟨n, rfl, hn, ?_⟩
    have := of_mem_takeWhile hx
    rw [h.last, hle'] at this
    simp at this
    omega
  have hpn : planNat .intAbs nt (dbl k) = planNat .fabs nt (dbl k) := by
    unfold planNat
    apply Res.mapL_congr
    intro x hx
    obtain ⟨n, rfl, h0, h1⟩ := hnat x hx
    have ha := app_of_mem hB hB' h h1 (by omega) hT
    unfold Corr.selectNat
    apply Res.bind_congr
    intro idx _
    split
    · apply Res.bind_congr
      intro lo hlo
      rw [ha _ lo hlo]
      apply Res.bind_congr
      intro dlo _
      apply Res.bind_congr
      intro hi hhi
      rw [ha _ hi hhi]
    · rfl
  have hpf : planFast .intAbs nt (dbl k) = planFast .fabs nt (dbl k) := by
    unfold planFast
    split
    · rfl
    · rename_i s rest he
      obtain ⟨n, hs, h0, h1⟩ := hfast s (by rw [he]; simp)
      have ha := app_of_mem hB hB' h h1 (by omega) hT
      rw [hs]
      congr 1
      unfold fastFirst
      apply Res.bind_congr
      intro idx _
      apply Res.bind_congr
      intro hi hhi
      rw [ha _ hi hhi]
      apply Res.bind_congr
      intro dhi _
      apply Res.bind_congr
      intro lo hlo
      rw [ha _ lo hlo]
  have hdel : ∀ (s : List ℕ) (sh : List (XF R)), (∀ x ∈ sh, ∃ n : ℤ, x = dbl n ∧ k ≤ n ∧ n ≤ T) →
      planDelta .intAbs nt s sh = planDelta .fabs nt s sh := by
    intro s sh hs
    unfold planDelta
    apply Res.mapL_congr
    intro p hp
    apply Res.bind_congr
    intro t ht
    rw [atGet_eq_ok] at ht
    obtain ⟨n, rfl, h0, h1⟩ := h.int t (List.mem_iff_getElem?.2 ⟨_, ht⟩)
    obtain ⟨m, hm, h2, h3⟩ := hs p.2 (List.of_mem_zip hp).2
    rw [hm]
    apply app_dbl_sub hB hB'
    rw [abs_lt]; omega
  unfold lagPlan planSel
  rw [hpn, hpf]
  split
  · simp only [Res.bind_assoc]
    apply Res.bind_congr
    intro s _
    simp only [Res.ok_bind]
    rw [hdel s _ hfast]
  · split
    · simp only [Res.bind_assoc]
      apply Res.bind_congr
      intro s _
      simp only [Res.ok_bind]
      rw [hdel s _ hnat]
    · rfl

theorem lagsUpTo_dbl (hB : IntsExact R B) {hi res C : ℤ} (hres : 0 ≤ res) (hC : C ≤ B) (hhi : hi + res ≤ B)
    (fuel : ℕ) (lo : ℤ) (hlo : -C ≤ lo) (p : Bool) :
    ∀ x ∈ lagsUpTo (dbl hi : XF R) (dbl res) fuel (dbl lo) p, ∃ n : ℤ, x = dbl n ∧ ((lo ≤ n ∧ n ≤ hi) ∨ n = 0) := by
  induction fuel generalizing lo p with
  | zero => simp [lagsUpTo]
  | succ f ih =>
    intro x hx
    unfold lagsUpTo at hx
    split at hx
    · rename_i hle
      have hle' : lo ≤ hi := by
        have h1 : XF.le (.fin (lo : K)) (.fin (hi : K) : XF R) = true := hle
        simpa [XF.le] using h1
      have hadd : (Arith.add (dbl lo) (dbl res) : XF R) = dbl (lo + res) := dbl_add hB (by rw [abs_le]; omega)
      have ih' : ∀ p, ∀ x ∈ lagsUpTo (dbl hi : XF R) (dbl res) f (Arith.add (dbl lo) (dbl res)) p,
          ∃ n : ℤ, x = dbl n ∧ ((lo ≤ n ∧ n ≤ hi) ∨ n = 0) := by
        intro p x hx
        rw [hadd] at hx
        obtain ⟨n, h1, h2⟩ := ih (lo + res) (by omega) p x hx
        exact ⟨n, h1, by omega⟩
      generalize (if Arith.eq (dbl lo : XF R) Arith.zero = true then true else p) = q at hx
      split at hx
      · rcases List.mem_cons.1 hx with rfl | hx
        · exact ⟨0, by show (.fin 0 : XF R) = .fin ((0 : ℤ) : K); simp, Or.inr rfl⟩
        · rcases List.mem_cons.1 hx with rfl | hx
          · exact ⟨lo, rfl, Or.inl ⟨le_rfl, hle'⟩⟩
          · exact ih' _ x hx
      · rcases List.mem_cons.1 hx with rfl | hx
        · exact ⟨lo, rfl, Or.inl ⟨le_rfl, hle'⟩⟩
        · exact ih' _ x hx
    · simp at hx

/-- **C20** in any rounding for which the integers up to `B ≥ 2³²` are doubles: for integer times and lag parameters
(span plus `|min_lag|` below 2³¹, `max_lag` at most 2³¹, `max_lag + lag_resolution ≤ B`) both overloads of `abs` give the
same outcome, bit for bit, for all data, selection and weight functions and any `alpha`. -/
theorem C20_integer_rounded_partial (hu : ExactUnit R 1 B) (hB32 : 2 * 2147483648 ≤ B) (d : DS (XF R)) (hd : Constructed d)
    (M : ℕ) (τ : ℕ → ℤ) (ht : d.timeseries = samples M (fun i => (τ i : K))) (hinc : IncreasingZ M τ) (hM : 2 ≤ M)
    (g : LagArgs (XF R)) (lo hi res : Option ℤ) (hlo : g.minLag = lo.map dbl) (hhi : g.maxLag = hi.map dbl)
    (hres : g.lagRes = res.map dbl) (hres0 : ∀ n ∈ res, 0 ≤ n) (C : ℤ) (hlo' : ∀ n ∈ lo, -C ≤ n)
    (hspan : τ (M - 1) - τ 0 ≤ C) (hfit : τ (M - 1) - τ 0 + C < 2147483648)
    (hhi' : ∀ n ∈ hi, n ≤ 2147483648) (hres' : ∀ n ∈ res, n + 2147483648 ≤ B) (sel wt : String) :
    autocorrelation .intAbs d g sel wt = autocorrelation .fabs d g sel wt := by
  have hB : IntsExact R B := fun n hn => by simpa using hu.exact n hn
  set T := τ (M - 1) - τ 0 with hT
  have hT0 : 0 ≤ T := by have := hinc.le (Nat.zero_le (M - 1)) (by omega); omega
  have hdiff : ∀ i < M, 0 ≤ τ i - τ 0 ∧ τ i - τ 0 ≤ T := by
    intro i hi
    have h1 := hinc.le (Nat.zero_le i) hi
    have h2 := hinc.le (show i ≤ M - 1 by omega) (by omega)
    omega
  obtain ⟨hM0, hnt⟩ := ticks_normT hu hd (M := M) (τ := τ) (by simpa using ht)
    (fun i hi => by have := hdiff i hi; rw [abs_le]; omega)
  have hlast : lastD d.normT = dbl T := by
    rw [hnt, samples_last hM0]
    simp [dbl, hT]
  have hint : IntTimesR d.normT T := by
    refine ⟨?_, hlast⟩
    intro x hx
    rw [hnt] at hx
    obtain ⟨i, hi, rfl⟩ := samples_mem.1 hx
    exact ⟨τ i - τ 0, by simp [dbl], (hdiff i hi).1, (hdiff i hi).2⟩
  have hinc' : IncreasingZ M (fun i => τ i - τ 0) := fun i j hij hj => by have := hinc i j hij hj; simp only; omega
  have hδ : ∃ n : ℤ, 0 ≤ n ∧ n ≤ T ∧ findMinDiff d.normT = dbl n := by
    obtain ⟨δ, hδ⟩ := exists_minGapZ hM hinc'
    have h1 := findMinDiff_ticks hu hM hinc' (by omega) hδ
    obtain ⟨⟨i, j, hij, hj, he⟩, _⟩ := hδ
    have h2 := hinc' i j hij hj
    refine ⟨δ, by omega, ?_, by rw [hnt, h1]; simp [dbl]⟩
    have h3 := hdiff i (by omega)
    have h4 := hdiff j hj
    simp only at he
    omega
  have hplan : acPlan .intAbs d.normT d.tMedian g sel wt = acPlan .fabs d.normT d.tMedian g sel wt := by
    unfold acPlan
    apply Res.bind_congr
    intro n _
    have hl : ∃ l : ℤ, -C ≤ l ∧ g.minLag.getD (Arith.neg (lastD d.normT)) = dbl l := by
      rw [hlo]
      cases lo with
      | none =>
        refine ⟨-T, by omega, ?_⟩
        simp only [Option.map_none, Option.getD_none, hlast]
        unfold dbl
        simp
      | some l => exact ⟨l, hlo' l rfl, rfl⟩
    have hr : ∃ n : ℤ, 0 ≤ n ∧ n + 2147483648 ≤ B ∧ g.lagRes.getD (findMinDiff d.normT) = dbl n := by
      rw [hres]
      cases res with
      | none =>
        obtain ⟨n, h1, h2, h3⟩ := hδ
        exact ⟨n, h1, by omega, h3⟩
      | some l => exact ⟨l, hres0 l rfl, hres' l rfl, rfl⟩
    have hh : ∃ n : ℤ, n ≤ 2147483648 ∧ g.maxLag.getD (lastD d.normT) = dbl n := by
      rw [hhi]
      cases hi with
      | none => exact ⟨T, by omega, hlast⟩
      | some l => exact ⟨l, hhi' l rfl, rfl⟩
    obtain ⟨l, hl1, hl2⟩ := hl
    obtain ⟨m, hm1, hm2, hm3⟩ := hr
    obtain ⟨w, hw1, hw2⟩ := hh
    rw [hl2, hm3, hw2]
    have : ∀ n, planRun .intAbs sel wt d.normT (g.alpha.getD d.tMedian) (dbl l) (dbl w) (dbl m) n
        = planRun .fabs sel wt d.normT (g.alpha.getD d.tMedian) (dbl l) (dbl w) (dbl m) n := by
      intro n
      unfold planRun
      congr 1
      apply Res.mapL_congr
      intro x hx
      obtain ⟨k, rfl, hk⟩ := lagsUpTo_dbl hB hm1 (C := C) (by omega) (by omega) _ _ hl1 _ x (List.mem_of_mem_take hx)
      unfold lagPlan'
      rw [lagPlan_dbl hB hB32 hint (by omega) (by omega) (by omega)]
    rw [this]
  rw [autocorrelation_plan _ hd.wf, autocorrelation_plan _ hd.wf, hplan]

/-- binary64: the hypotheses of the previous theorem hold for `B = 2^53` -/
theorem C20_integer_binary64_partial {ex : ℚ → ℚ} {fu : Bool} (d : DS (XF (Rnd.binary64 ex fu))) (hd : Constructed d)
    (M : ℕ) (τ : ℕ → ℤ) (ht : d.timeseries = samples M (fun i => (τ i : ℚ))) (hinc : IncreasingZ M τ) (hM : 2 ≤ M)
    (hspan : 2 * (τ (M - 1) - τ 0) < 2147483648) (alpha : Option (XF (Rnd.binary64 ex fu))) (sel wt : String) :
    autocorrelation .intAbs d ⟨none, none, none, alpha⟩ sel wt = autocorrelation .fabs d ⟨none, none, none, alpha⟩ sel wt := by
  have hu := exactUnit64 (ex := ex) (fu := fu) 0 (by norm_num) (by norm_num)
  rw [pow2_zero] at hu
  exact C20_integer_rounded_partial hu (by norm_num) d hd M τ ht hinc hM _ none none none rfl rfl rfl (by simp)
    (τ (M - 1) - τ 0) (by simp) le_rfl (by omega) (by simp) (by simp) sel wt

end rounded

/-- three times spanning `2³¹`: undefined behaviour with `int abs(int)`, a value with the floating-point one -/
example : ((mkFlat (q [0, 1073741824, 2147483648]) (q [1, 2, 4])).bind fun d =>
    match acOut .intAbs d {} "natural" "fractional", acOut .fabs d {} "natural" "fractional" with
    | .ub, .ok r => .ok r.1.length
    | _, _ => .diverge) = .ok 5 := by
  decide +kernel

end Sacf
