import Verif.Props.FastRounded
import Verif.Props.LagGrid
import Verif.Props.Rounded
import Mathlib.Tactic.Linarith

/-!
# Missing and infinite time stamps (C119)
-/

set_option linter.unusedSectionVars false

namespace Sacf

variable {K : Type} [Field K] [LinearOrder K] [IsStrictOrderedRing K] [FloorRing K] {R : Rnd K} {dm : K} {f32 ex : K → K}

/-- time stamps some of which are missing (NaN) -/
def withMissing (M : ℕ) (t : ℕ → K) (miss : ℕ → Bool) : List (XF R) := (List.range M).map fun i => if miss i then .nan else .fin (t i)

/-- neither NaN nor infinite -/
def XF.IsFinite : XF R → Prop
  | .fin _ => True
  | _ => False

/-! ### a missing time among those before the last -/

theorem getElem?_takeWhile_of {α : Type} (p : α → Bool) (l : List α) (i : ℕ) (x : α) (hx : l[i]? = some x)
    (h : ∀ j ≤ i, ∀ y, l[j]? = some y → p y = true) : (l.takeWhile p)[i]? = some x := by
  induction l generalizing i with
  | nil => simp at hx
  | cons y l ih =>
    rw [List.takeWhile_cons, if_pos (h 0 (Nat.zero_le _) y rfl)]
    cases i with
    | zero => exact hx
    | succ i => exact ih i hx fun j hj z hz => h (j + 1) (by omega) z hz

theorem weight_of_nan {wt : String} {w : XF R → XF R → XF R} (h : planWt wt = .ok w) (α : XF R) : w α .nan = .nan := by
  unfold planWt at h
  have hd : (Arith.div (.nan : XF R) α) = .nan := by cases α <;> rfl
  split at h
  · cases h
    show Arith.exp (Arith.div _ (Arith.mul (Arith.mul Arith.two α) α)) = _
    rw [show (Arith.neg (Arith.mul (.nan : XF R) .nan)) = .nan from rfl]
    cases (Arith.mul (Arith.mul Arith.two α) α) <;> rfl
  · split at h
    · cases h
      show Arith.div Arith.one (Arith.add Arith.one (Arith.div .nan α)) = _
      rw [hd]
      rfl
    · split at h
      · cases h
        show Arith.div Arith.one (Arith.addMul Arith.one (Arith.div .nan α) (Arith.div .nan α)) = _
        rw [hd]
        show XF.div _ (bif R.fused then _ else _) = _
        cases R.fused <;> rfl
      · cases h

/-- a shifted time that is NaN gives a NaN weight -/
theorem nan_time_value {a : AbsFn} {d : DS (XF R)} (hd : Constructed d) {g : LagArgs (XF R)} {sel wt : String} {r : AcResult (XF R)}
    (hr : autocorrelation a d g sel wt = .ok r) {j : ℕ} {row : List (XF R)} (hrow : d.HasRow j row) {n : ℕ} {k : XF R} (hn : r.lags[n]? = some k)
    {i : ℕ} (hi : d.normT[i]? = some .nan)
    (hb : ∀ j < i, ∀ x, d.normT[j]? = some x → (if sel = "fast" then Arith.le (lastD d.normT) (Arith.add x k) else Arith.lt (lastD d.normT) (Arith.add x k)) = false) :
    r.At j n k .nan := by
  obtain ⟨ps, h1, h2⟩ := result_at hd hr hrow hn
  unfold lagPlan at h1
  obtain ⟨p, hp, h1⟩ := Res.bind_eq_ok.1 h1
  obtain ⟨δ, hδ, h1⟩ := Res.bind_eq_ok.1 h1
  obtain ⟨w, hw, h1⟩ := Res.bind_eq_ok.1 h1
  cases h1
  obtain ⟨l1, l2⟩ := planSel_length hp
  have hsh : p.2[i]? = some .nan := by
    have hm : (d.normT.map fun t => Arith.add t k)[i]? = some .nan := by
      rw [List.getElem?_map, hi]
      simp [add_nan_left]
    have hlt : Arith.lt (lastD d.normT) (.nan : XF R) = false := by cases lastD d.normT <;> rfl
    have hle : Arith.le (lastD d.normT) (.nan : XF R) = false := by cases lastD d.normT <;> rfl
    have hall : ∀ q ≤ i, ∀ y, (d.normT.map fun t => Arith.add t k)[q]? = some y →
        (if sel = "fast" then Arith.le (lastD d.normT) y else Arith.lt (lastD d.normT) y) = false := by
      intro q hq y hy
      rcases Nat.lt_or_ge q i with h | h
      · rw [List.getElem?_map] at hy
        cases hx : d.normT[q]? with
        | none => rw [hx] at hy; simp at hy
        | some x =>
          rw [hx] at hy
          simp only [Option.map_some, Option.some.injEq] at hy
          subst hy
          exact hb q h x hx
      · obtain rfl : q = i := by omega
        rw [hm] at hy
        cases hy
        split <;> assumption
    unfold planSel at hp
    split at hp
    · rename_i hs
      obtain ⟨s, _, hp⟩ := Res.bind_eq_ok.1 hp
      cases hp
      exact getElem?_takeWhile_of _ _ i _ hm fun q hq y hy => by have := hall q hq y hy; rw [if_pos hs] at this; simp [this]
    · rename_i hs
      split at hp
      · obtain ⟨s, _, hp⟩ := Res.bind_eq_ok.1 hp
        cases hp
        exact getElem?_takeWhile_of _ _ i _ hm fun q hq y hy => by have := hall q hq y hy; rw [if_neg hs] at this; simp [this]
      · cases hp
  have hlt : i < p.1.length := by rw [l1]; exact (List.getElem?_eq_some_iff.1 hsh).1
  have hz : (p.1.zip p.2)[i]? = some (p.1[i], .nan) := by rw [List.getElem?_zip_eq_some]; exact ⟨by simp, hsh⟩
  obtain ⟨y, hy1, hy2⟩ := Res.mapL_eq_ok_getElem hδ i _ hz
  have hy : y = .nan := by
    obtain ⟨t, _, hy2⟩ := Res.bind_eq_ok.1 hy2
    have hs : (Arith.sub t (.nan : XF R)) = .nan := by cases t <;> rfl
    simp only [hs] at hy2
    cases a with
    | fabs => cases hy2; rfl
    | intAbs => cases hy2
  subst hy
  rw [corrValue_nan_weight _ _ _ p.1[i]] at h2
  · exact h2
  · refine List.mem_iff_getElem?.2 ⟨i, ?_⟩
    rw [List.getElem?_zip_eq_some]
    refine ⟨?_, by simp⟩
    rw [List.getElem?_map, hy1]
    simp [weight_of_nan hw]

/-- the normalised times when the first time is present -/
theorem normT_missing {d : DS (XF R)} (hd : Constructed d) {M : ℕ} {t : ℕ → K} {miss : ℕ → Bool} (ht : d.timeseries = withMissing M t miss)
    (h0 : miss 0 = false) : 0 < M ∧ d.normT = (List.range M).map fun i => if miss i then .nan else XF.round (t i - t 0) := by
  obtain ⟨t', data, err, N, hN, hb⟩ := hd.built
  have e : t' = withMissing M t miss := by rw [← hb.ht]; exact ht
  subst e
  have hM : 0 < M := by
    have := List.length_pos_iff.2 hb.tne
    simpa [withMissing] using this
  refine ⟨hM, ?_⟩
  have hh : (withMissing M t miss : List (XF R)).head hb.tne = .fin (t 0) := by
    obtain ⟨m, rfl⟩ : ∃ m, M = m + 1 := ⟨M - 1, by omega⟩
    simp [withMissing, List.range_succ_eq_map, h0]
  rw [hb.normT, hh]
  unfold withMissing
  rw [List.map_map]
  refine List.map_congr_left fun i _ => ?_
  simp only [Function.comp]
  split
  · rfl
  · show XF.round (t i + -t 0) = _
    rw [← sub_eq_add_neg]

theorem lastD_missing {M : ℕ} {f : ℕ → XF R} (hM : 0 < M) : lastD ((List.range M).map f) = f (M - 1) := by
  unfold lastD
  rw [List.getLastD_eq_getLast?, List.getLast?_eq_getElem?]
  simp [show M - 1 < M by omega]

theorem round_fixed {x y : K} (h : (XF.round x : XF R) = .fin y) : (XF.round y : XF R) = .fin y := by
  have h1 : (XF.clip R.maxFin (R.rnd x) : XF R) = .fin y := h
  have h2 : R.rnd x = y := by
    unfold XF.clip at h1
    split at h1
    · cases h1; rfl
    · split at h1
      · cases h1
      · split at h1
        · cases h1
        · cases h1; rfl
  show XF.clip R.maxFin (R.rnd y) = _
  rw [← h2, R.rnd_rnd, h1, h2]

/-- **C119** (any rounding, natural selection): a missing time between the first and the last makes the value at lag 0 and at every negative lag NaN, in every
dataset, whatever the weights, alpha and values. -/
theorem C119_natural (a : AbsFn) (d : DS (XF R)) (hd : Constructed d) (M : ℕ) (t : ℕ → K) (miss : ℕ → Bool) (ht : d.timeseries = withMissing M t miss)
    (hin : InOrder M t) (h0 : miss 0 = false) (hlast : miss (M - 1) = false) (i : ℕ) (hi : i < M) (hmi : miss i = true) (g : LagArgs (XF R)) (wt : String)
    (r : AcResult (XF R)) (hr : autocorrelation a d g "natural" wt = .ok r) (n : ℕ) (κ : K) (hκ : κ ≤ 0) (hn : r.lags[n]? = some (.fin κ)) (j : ℕ)
    (row : List (XF R)) (hrow : d.HasRow j row) : r.At j n (.fin κ) .nan := by
  obtain ⟨hM, hnt⟩ := normT_missing hd ht h0
  refine nan_time_value hd hr hrow hn (i := i) (by rw [hnt]; simp [hi, hmi]) fun q hq x hx => ?_
  rw [if_neg (by decide), hnt, lastD_missing hM, hlast]
  rw [hnt] at hx
  simp only [List.getElem?_map, List.getElem?_range (show q < M by omega), Option.map_some, Option.some.injEq] at hx
  subst hx
  simp only [Bool.false_eq_true, if_false]
  split
  · rw [add_nan_left]; cases (XF.round (t (M - 1) - t 0) : XF R) <;> rfl
  · have m1 := round_mono (R := R) (show t q - t 0 ≤ t (M - 1) - t 0 by have := hin q (M - 1) (by omega) (by omega); linarith)
    cases hq' : (XF.round (t q - t 0) : XF R) with
    | nan => rw [add_nan_left]; cases (XF.round (t (M - 1) - t 0) : XF R) <;> rfl
    | ninf => cases (XF.round (t (M - 1) - t 0) : XF R) <;> rfl
    | pinf =>
      rw [hq'] at m1
      cases hl : (XF.round (t (M - 1) - t 0) : XF R) with
      | pinf => rfl
      | _ => rw [hl] at m1; cases m1
    | fin y =>
      rw [hq'] at m1
      show XF.lt _ (XF.round (y + κ)) = false
      have m2 := round_mono (R := R) (show y + κ ≤ y by linarith)
      rw [round_fixed hq'] at m2
      generalize (XF.round (t (M - 1) - t 0) : XF R) = z at m1
      generalize (XF.round (y + κ) : XF R) = u at m2
      cases z <;> cases u <;> first | rfl | cases m1 | cases m2 | skip
      have m1 := of_decide_eq_true m1
      have m2 := of_decide_eq_true m2
      exact decide_eq_false (by linarith)

/-- **C119** (any rounding, fast selection): the same, if the times before the missing one lie, as computed, before the last. -/
theorem C119_fast (a : AbsFn) (d : DS (XF R)) (hd : Constructed d) (M : ℕ) (t : ℕ → K) (miss : ℕ → Bool) (ht : d.timeseries = withMissing M t miss)
    (h0 : miss 0 = false) (hlast : miss (M - 1) = false) (i : ℕ) (hi : i < M) (hmi : miss i = true)
    (hlt : ∀ q < i, miss q = false → Arith.lt (XF.round (t q - t 0) : XF R) (XF.round (t (M - 1) - t 0)) = true) (g : LagArgs (XF R)) (wt : String)
    (r : AcResult (XF R)) (hr : autocorrelation a d g "fast" wt = .ok r) (n : ℕ) (κ : K) (hκ : κ ≤ 0) (hn : r.lags[n]? = some (.fin κ)) (j : ℕ)
    (row : List (XF R)) (hrow : d.HasRow j row) : r.At j n (.fin κ) .nan := by
  obtain ⟨hM, hnt⟩ := normT_missing hd ht h0
  refine nan_time_value hd hr hrow hn (i := i) (by rw [hnt]; simp [hi, hmi]) fun q hq x hx => ?_
  rw [if_pos rfl, hnt, lastD_missing hM, hlast]
  rw [hnt] at hx
  simp only [List.getElem?_map, List.getElem?_range (show q < M by omega), Option.map_some, Option.some.injEq] at hx
  subst hx
  simp only [Bool.false_eq_true, if_false]
  split
  · rw [add_nan_left]; cases (XF.round (t (M - 1) - t 0) : XF R) <;> rfl
  · have m1 := hlt q hq (by simpa using ‹¬ miss q = true›)
    cases hq' : (XF.round (t q - t 0) : XF R) with
    | nan => rw [add_nan_left]; cases (XF.round (t (M - 1) - t 0) : XF R) <;> rfl
    | ninf =>
      rw [hq'] at m1
      cases hl : (XF.round (t (M - 1) - t 0) : XF R) with
      | ninf => rw [hl] at m1; cases m1
      | _ => rfl
    | pinf =>
      rw [hq'] at m1
      cases hl : (XF.round (t (M - 1) - t 0) : XF R) <;> (rw [hl] at m1; cases m1)
    | fin y =>
      rw [hq'] at m1
      show XF.le _ (XF.round (y + κ)) = false
      have m2 := round_mono (R := R) (show y + κ ≤ y by linarith)
      rw [round_fixed hq'] at m2
      generalize (XF.round (t (M - 1) - t 0) : XF R) = z at m1
      generalize (XF.round (y + κ) : XF R) = u at m2
      cases z <;> cases u <;> first | rfl | exact absurd m1 Bool.false_ne_true | exact absurd m2 Bool.false_ne_true | skip
      have m1 := of_decide_eq_true m1
      have m2 := of_decide_eq_true m2
      exact decide_eq_false (by linarith)

/-- **C119** (exact arithmetic): a missing time makes the value NaN at every lag that moves no time before it beyond the last (for the fast selection: to the last
or beyond it), positive lags included. -/
theorem C119_exact (a : AbsFn) (d : DS (Exact dm f32 ex)) (hd : Constructed d) (M : ℕ) (t : ℕ → K) (miss : ℕ → Bool) (ht : d.timeseries = withMissing M t miss)
    (h0 : miss 0 = false) (hlast : miss (M - 1) = false) (i : ℕ) (hi : i < M) (hmi : miss i = true) (g : LagArgs (Exact dm f32 ex)) (sel wt : String)
    (r : AcResult (Exact dm f32 ex)) (hr : autocorrelation a d g sel wt = .ok r) (n : ℕ) (κ : K)
    (hκ : ∀ q < i, miss q = false → if sel = "fast" then t q + κ < t (M - 1) else t q + κ ≤ t (M - 1)) (hn : r.lags[n]? = some (.fin κ)) (j : ℕ)
    (row : List (Exact dm f32 ex)) (hrow : d.HasRow j row) : r.At j n (.fin κ) .nan := by
  obtain ⟨hM, hnt⟩ := normT_missing hd ht h0
  refine nan_time_value hd hr hrow hn (i := i) (by rw [hnt]; simp [hi, hmi]) fun q hq x hx => ?_
  rw [hnt, lastD_missing hM, hlast]
  rw [hnt] at hx
  simp only [List.getElem?_map, List.getElem?_range (show q < M by omega), Option.map_some, Option.some.injEq] at hx
  subst hx
  by_cases hm : miss q = true
  · rw [if_pos hm, add_nan_left]
    split <;> rfl
  · have h := hκ q hq (by simpa using hm)
    rw [if_neg hm]
    split at h
    · rw [if_pos (by assumption)]
      show decide (t (M - 1) - t 0 ≤ t q - t 0 + κ) = false
      exact decide_eq_false (by linarith)
    · rw [if_neg (by assumption)]
      show decide (t (M - 1) - t 0 < t q - t 0 + κ) = false
      exact decide_eq_false (by linarith)

/-! ### the first or the last time -/

theorem sub_not_finite {x y : XF R} (h : ¬ x.IsFinite ∨ ¬ y.IsFinite) : ¬ (Arith.sub x y).IsFinite := by
  cases x <;> cases y <;> first | exact fun h => h.elim | skip
  rcases h with h | h <;> exact absurd trivial h

theorem lagSlots_not_finite {x : XF R} (h : ¬ x.IsFinite) (res : XF R) : lagSlots x (Arith.neg x) res = .ub := by
  have key : ∀ y : XF R, ¬ y.IsFinite → lagSlots x (Arith.neg x) res = .ub ∨ Arith.toInt (Arith.floor y) = (none : Option ℤ) := by
    intro y hy
    right
    cases y <;> first | rfl | exact absurd trivial hy
  have h2 : Arith.toInt (Arith.floor (Arith.div (Arith.sub x (Arith.neg x)) res)) = (none : Option ℤ) := by
    cases x with
    | fin x => exact absurd trivial h
    | nan => cases res <;> rfl
    | pinf =>
      cases res with
      | fin y =>
        show XF.toInt (XF.floor (if y < 0 then .ninf else .pinf)) = _
        split <;> rfl
      | _ => rfl
    | ninf =>
      cases res with
      | fin y =>
        show XF.toInt (XF.floor (if y < 0 then .pinf else .ninf)) = _
        split <;> rfl
      | _ => rfl
  unfold lagSlots
  rw [h2]

/-- **C119** (any rounding): if the first or the last time is NaN or infinite, creating the `Correlator`, and so every call of `autocorrelation()`, has undefined
behaviour (a NaN or an infinity is converted to `int`), whatever the arguments. -/
theorem C119_ends (a : AbsFn) (d : DS (XF R)) (hd : Constructed d) (x y : XF R) (hx : d.timeseries.head? = some x) (hy : d.timeseries.getLast? = some y)
    (h : ¬ x.IsFinite ∨ ¬ y.IsFinite) :
    Corr.new d = .ub ∧ ∀ (g : LagArgs (XF R)) (sel wt : String), autocorrelation a d g sel wt = .ub := by
  have h1 : Corr.new d = .ub := by
    obtain ⟨t', data, err, N, hN, hb⟩ := hd.built
    have e : d.timeseries = t' := hb.ht
    rw [e] at hx hy
    have hl : lastD d.normT = Arith.sub y x := by
      unfold lastD
      rw [hb.normT, List.getLastD_eq_getLast?, List.getLast?_map, hy]
      have hh : t'.head hb.tne = x := by rw [List.head?_eq_some_head hb.tne] at hx; exact Option.some.inj hx
      simp [hh]
    rw [corrNew_eq hd.wf]
    unfold slotsOf
    rw [hl, lagSlots_not_finite (sub_not_finite h.symm)]
    rfl
  refine ⟨h1, fun g sel wt => ?_⟩
  unfold autocorrelation
  rw [h1]
  rfl

/-! ### the default resolution -/

theorem xlt_trans {x y z : XF R} (h1 : Arith.lt x y = true) (h2 : Arith.lt y z = true) : Arith.lt x z = true := by
  cases x <;> cases y <;> cases z <;> first | rfl | exact absurd h1 Bool.false_ne_true | exact absurd h2 Bool.false_ne_true | skip
  have h1 := of_decide_eq_true h1
  have h2 := of_decide_eq_true h2
  exact decide_eq_true (h1.trans h2)

theorem xlt_irrefl (x : XF R) : Arith.lt x x = false := by
  cases x <;> first | rfl | exact decide_eq_false (lt_irrefl _)

/-- `findMinDiff` returns its start value or the difference of a pair of neighbours, and no pair has a smaller difference -/
theorem findMinDiff_go_least (l : List (XF R)) (m : XF R) :
    (findMinDiff.go m l = m ∨ Arith.lt (findMinDiff.go m l) m = true ∧ ∃ i x y, l[i]? = some x ∧ l[i + 1]? = some y ∧ findMinDiff.go m l = Arith.sub y x) ∧
    ∀ i x y, l[i]? = some x → l[i + 1]? = some y → Arith.lt (Arith.sub y x) (findMinDiff.go m l) = false := by
  induction l generalizing m with
  | nil => exact ⟨.inl rfl, fun i x y hx => by simp at hx⟩
  | cons x l ih =>
    cases l with
    | nil => exact ⟨.inl rfl, fun i x y _ hy => by simp at hy⟩
    | cons y l =>
      rw [findMinDiff.go]
      obtain ⟨h1, h2⟩ := ih (if Arith.lt (Arith.sub y x) m then Arith.sub y x else m)
      generalize hv : findMinDiff.go (if Arith.lt (Arith.sub y x) m then Arith.sub y x else m) (y :: l) = v at h1 h2
      refine ⟨?_, ?_⟩
      · by_cases hc : Arith.lt (Arith.sub y x) m = true
        · rw [if_pos hc] at h1
          right
          rcases h1 with h1 | ⟨h1, i, x', y', hx', hy', e⟩
          · exact ⟨h1 ▸ hc, 0, x, y, rfl, rfl, h1⟩
          · exact ⟨xlt_trans h1 hc, i + 1, x', y', hx', hy', e⟩
        · rw [if_neg hc] at h1
          rcases h1 with h1 | ⟨h1, i, x', y', hx', hy', e⟩
          · exact .inl h1
          · exact .inr ⟨h1, i + 1, x', y', hx', hy', e⟩
      · intro i x' y' hx' hy'
        cases i with
        | succ i => exact h2 i x' y' hx' hy'
        | zero =>
          cases hx'
          cases hy'
          by_cases hc : Arith.lt (Arith.sub y x) m = true
          · rw [if_pos hc] at h1
            rcases h1 with h1 | ⟨h1, _⟩
            · rw [h1]; exact xlt_irrefl _
            · cases h3 : Arith.lt (Arith.sub y x) v with
              | false => rfl
              | true => have := xlt_trans h3 h1; rw [xlt_irrefl] at this; cases this
          · rw [if_neg hc] at h1
            rcases h1 with h1 | ⟨h1, _⟩
            · rw [h1]; simpa using hc
            · cases h3 : Arith.lt (Arith.sub y x) v with
              | false => rfl
              | true => exact absurd (xlt_trans h3 h1) hc

/-- **C119** (exact arithmetic): missing times are skipped in the default resolution, but only pairs of adjacent entries count. It is the least difference of two
adjacent times that are both present; if there is no such pair it is `DBL_MAX`. -/
theorem C119_resolution (d : DS (Exact dm f32 ex)) (hd : Constructed d) (M : ℕ) (t : ℕ → K) (miss : ℕ → Bool) (ht : d.timeseries = withMissing M t miss)
    (h0 : miss 0 = false) (hdm : ∀ i, i + 1 < M → t (i + 1) - t i < dm) (c : Corr (Exact dm f32 ex)) (hc : Corr.new d = .ok c) :
    (∀ g, (∃ i, i + 1 < M ∧ miss i = false ∧ miss (i + 1) = false ∧ t (i + 1) - t i = g) →
      (∀ i, i + 1 < M → miss i = false → miss (i + 1) = false → g ≤ t (i + 1) - t i) → c.lagRes = .fin g) ∧
    ((∀ i, i + 1 < M → miss i = true ∨ miss (i + 1) = true) → c.lagRes = .fin dm) := by
  obtain ⟨hM, hnt⟩ := normT_missing hd ht h0
  obtain ⟨n, _, rfl, _⟩ := corrNew_good hd.wf hc
  show (∀ g, _ → _ → findMinDiff d.normT = _) ∧ (_ → findMinDiff d.normT = _)
  have hat : ∀ i x, d.normT[i]? = some x → i < M ∧ x = if miss i then .nan else .fin (t i - t 0) := by
    intro i x hx
    rw [hnt] at hx
    have hi : i < M := by have := (List.getElem?_eq_some_iff.1 hx).1; simpa using this
    simp only [List.getElem?_map, List.getElem?_range hi, Option.map_some, Option.some.injEq] at hx
    exact ⟨hi, hx.symm⟩
  have hget : ∀ i, i < M → d.normT[i]? = some (if miss i then .nan else .fin (t i - t 0)) := by
    intro i hi
    rw [hnt]
    simp only [List.getElem?_map, List.getElem?_range hi, Option.map_some]
    rfl
  have hsub : ∀ i, miss i = false → miss (i + 1) = false →
      (Arith.sub (if miss (i + 1) then .nan else .fin (t (i + 1) - t 0)) (if miss i then .nan else .fin (t i - t 0)) : Exact dm f32 ex) = .fin (t (i + 1) - t i) := by
    intro i a1 a2
    rw [a1, a2]
    show (XF.fin ((t (i + 1) - t 0) + -(t i - t 0)) : Exact dm f32 ex) = _
    congr 1
    ring
  have hnan : ∀ i, (miss i = true ∨ miss (i + 1) = true) →
      (Arith.sub (if miss (i + 1) then .nan else .fin (t (i + 1) - t 0)) (if miss i then .nan else .fin (t i - t 0)) : Exact dm f32 ex) = .nan := by
    rintro i (a1 | a1)
    · rw [a1]; cases miss (i + 1) <;> rfl
    · rw [a1]; cases miss i <;> rfl
  obtain ⟨k1, k2⟩ := findMinDiff_go_least d.normT (.fin dm)
  have e : findMinDiff d.normT = findMinDiff.go (.fin dm) d.normT := rfl
  rw [← e] at k1 k2
  constructor
  · rintro g ⟨i, hi, a1, a2, rfl⟩ hall
    have h3 := k2 i _ _ (hget i (by omega)) (hget (i + 1) hi)
    rw [hsub i a1 a2] at h3
    rcases k1 with k1 | ⟨k1, i', x, y, hx, hy, k3⟩
    · rw [k1] at h3
      exact absurd (hdm i hi) (of_decide_eq_false h3)
    · obtain ⟨hi1, rfl⟩ := hat _ _ hx
      obtain ⟨hi2, rfl⟩ := hat _ _ hy
      by_cases hm : miss i' = true ∨ miss (i' + 1) = true
      · rw [hnan i' hm] at k3
        rw [k3] at k1
        cases k1
      · simp only [not_or, Bool.not_eq_true] at hm
        rw [hsub i' hm.1 hm.2] at k3
        rw [k3] at h3 ⊢
        have h3 := of_decide_eq_false h3
        congr 1
        exact le_antisymm (not_lt.1 h3) (hall i' hi2 hm.1 hm.2)
  · intro hall
    rcases k1 with k1 | ⟨k1, i', x, y, hx, hy, k3⟩
    · exact k1
    · obtain ⟨hi1, rfl⟩ := hat _ _ hx
      obtain ⟨hi2, rfl⟩ := hat _ _ hy
      rw [hnan i' (hall i' hi2)] at k3
      rw [k3] at k1
      cases k1

/-! ### an infinite time -/

/-- between finite ends and without NaN, an infinite entry makes a difference of neighbours minus infinity -/
theorem exists_ninf_diff (l : List (XF R)) (hn : ∀ x ∈ l, x ≠ .nan) (hl : ∀ y, l.getLast? = some y → y.IsFinite) (x : XF R) (hx : l.head? = some x)
    (hinf : ¬ x.IsFinite ∧ x = .pinf ∨ x.IsFinite ∧ ∃ y ∈ l, ¬ y.IsFinite) :
    ∃ (i : ℕ) (u v : XF R), l[i]? = some u ∧ l[i + 1]? = some v ∧ Arith.sub v u = .ninf := by
  induction l generalizing x with
  | nil => simp at hx
  | cons z l ih =>
    simp only [List.head?_cons, Option.some.injEq] at hx
    subst hx
    cases l with
    | nil =>
      have := hl z rfl
      rcases hinf with ⟨h, _⟩ | ⟨_, y, hy, h⟩
      · exact absurd this h
      · simp only [List.mem_singleton] at hy
        exact absurd (hy ▸ this) h
    | cons y l =>
      have hn' : ∀ u ∈ y :: l, u ≠ .nan := fun u hu => hn u (List.mem_cons_of_mem _ hu)
      have hl' : ∀ u, (y :: l).getLast? = some u → u.IsFinite := fun u hu => hl u (by rw [List.getLast?_cons_cons]; exact hu)
      have go : (¬ y.IsFinite ∧ y = .pinf ∨ y.IsFinite ∧ ∃ u ∈ y :: l, ¬ u.IsFinite) →
          ∃ (i : ℕ) (u v : XF R), (z :: y :: l)[i]? = some u ∧ (z :: y :: l)[i + 1]? = some v ∧ Arith.sub v u = .ninf := by
        intro h
        obtain ⟨i, u, v, h1, h2, h3⟩ := ih hn' hl' y rfl h
        exact ⟨i + 1, u, v, h1, h2, h3⟩
      have here : Arith.sub y z = .ninf → ∃ (i : ℕ) (u v : XF R), (z :: y :: l)[i]? = some u ∧ (z :: y :: l)[i + 1]? = some v ∧ Arith.sub v u = .ninf :=
        fun h => ⟨0, z, y, rfl, rfl, h⟩
      rcases hinf with ⟨_, rfl⟩ | ⟨hz, u, hu, hui⟩
      · cases y with
        | nan => exact absurd rfl (hn' _ (by simp))
        | pinf => exact go (.inl ⟨fun h => h, rfl⟩)
        | ninf => exact here rfl
        | fin y => exact here rfl
      · cases z with
        | fin z =>
          have hu' : u ∈ y :: l := by
            rcases List.mem_cons.1 hu with rfl | h
            · exact absurd trivial hui
            · exact h
          cases y with
          | nan => exact absurd rfl (hn' _ (by simp))
          | pinf => exact go (.inl ⟨fun h => h, rfl⟩)
          | ninf => exact here rfl
          | fin y => exact go (.inr ⟨trivial, u, hu', hui⟩)
        | _ => exact hz.elim

theorem findMinDiff_ninf {l : List (XF R)} {i : ℕ} {u v : XF R} (h1 : l[i]? = some u) (h2 : l[i + 1]? = some v) (h3 : Arith.sub v u = .ninf) :
    findMinDiff l = .ninf := by
  obtain ⟨k1, k2⟩ := findMinDiff_go_least l (Arith.dblMax : XF R)
  have e : findMinDiff l = findMinDiff.go Arith.dblMax l := rfl
  rw [← e] at k1 k2
  have h := k2 i u v h1 h2
  rw [h3] at h
  cases hf : findMinDiff l with
  | ninf => rfl
  | nan =>
    rcases k1 with k1 | ⟨k1, _⟩
    · rw [hf] at k1; cases k1
    · rw [hf] at k1; cases k1
  | pinf => rw [hf] at h; cases h
  | fin x => rw [hf] at h; cases h

/-- **C119** (any rounding): an infinite time between finite ends (no NaN, the span finite and not negative) makes the default resolution minus infinity, and no
call that leaves the lags at their defaults ever returns. -/
theorem C119_infinite (a : AbsFn) (d : DS (XF R)) (hd : Constructed d) (x y : K) (hx : d.timeseries.head? = some (.fin x))
    (hy : d.timeseries.getLast? = some (.fin y)) (hspan : (XF.round (y - x) : XF R).IsFinite) (hle : x ≤ y) (hnan : (.nan : XF R) ∉ d.timeseries)
    (hinf : (.pinf : XF R) ∈ d.timeseries ∨ (.ninf : XF R) ∈ d.timeseries) :
    (∀ c, Corr.new d = .ok c → c.lagRes = .ninf) ∧
    ∀ (alpha : Option (XF R)) (sel wt : String) (r : AcResult (XF R)), autocorrelation a d ⟨none, none, none, alpha⟩ sel wt ≠ .ok r := by
  obtain ⟨t', data, err, N, hN, hb⟩ := hd.built
  have e : d.timeseries = t' := hb.ht
  rw [e] at hx hy hnan hinf
  have hh : t'.head hb.tne = .fin x := by rw [List.head?_eq_some_head hb.tne] at hx; exact Option.some.inj hx
  have hnt : d.normT = t'.map fun u => Arith.sub u (.fin x) := by rw [hb.normT, hh]
  have hsub : (Arith.sub (.fin y) (.fin x) : XF R) = XF.round (y - x) := by
    show XF.round (y + -x) = _
    rw [← sub_eq_add_neg]
  have hlast : lastD d.normT = XF.round (y - x) := by
    unfold lastD
    rw [hnt, List.getLastD_eq_getLast?, List.getLast?_map, hy]
    exact hsub
  have hx0 : (Arith.sub (.fin x) (.fin x) : XF R) = .fin 0 := by
    show XF.round (x + -x) = _
    rw [add_neg_cancel]
    exact round_zero
  have hres : findMinDiff d.normT = .ninf := by
    suffices h : ∃ (i : ℕ) (u v : XF R), d.normT[i]? = some u ∧ d.normT[i + 1]? = some v ∧ Arith.sub v u = .ninf by
      obtain ⟨i, u, v, h1, h2, h3⟩ := h
      exact findMinDiff_ninf h1 h2 h3
    refine exists_ninf_diff d.normT ?_ ?_ (.fin 0) ?_ (.inr ⟨trivial, ?_⟩)
    · intro z hz
      rw [hnt] at hz
      obtain ⟨u, hu, rfl⟩ := List.mem_map.1 hz
      cases u with
      | nan => exact absurd hu hnan
      | pinf => exact fun h => by cases h
      | ninf => exact fun h => by cases h
      | fin u =>
        show XF.round (u + -x) ≠ _
        exact round_ne_nan _
    · intro z hz
      rw [hnt, List.getLast?_map, hy] at hz
      simp only [Option.map_some, Option.some.injEq] at hz
      rw [← hz, hsub]
      exact hspan
    · rw [hnt, List.head?_map, hx]
      simp only [Option.map_some]
      rw [hx0]
    · rcases hinf with h | h
      · exact ⟨.pinf, by rw [hnt]; exact List.mem_map.2 ⟨_, h, rfl⟩, fun h => h⟩
      · exact ⟨.ninf, by rw [hnt]; exact List.mem_map.2 ⟨_, h, rfl⟩, fun h => h⟩
  refine ⟨fun c hc => ?_, fun alpha sel wt r hr => ?_⟩
  · obtain ⟨n, _, rfl, _⟩ := corrNew_good hd.wf hc
    exact hres
  · obtain ⟨c, hc⟩ : ∃ c, Corr.new d = .ok c := by
      unfold autocorrelation at hr
      obtain ⟨c, hc, _⟩ := Res.bind_eq_ok.1 hr
      exact ⟨c, hc⟩
    obtain ⟨n, _, rfl, _⟩ := corrNew_good hd.wf hc
    obtain ⟨s, hs⟩ : ∃ s, (XF.round (y - x) : XF R) = .fin s := by
      cases h : (XF.round (y - x) : XF R) with
      | fin s => exact ⟨s, rfl⟩
      | _ => rw [h] at hspan; exact hspan.elim
    have hs0 : 0 ≤ s := by
      have h := round_mono (R := R) (show (0 : K) ≤ y - x by linarith)
      rw [round_zero, hs] at h
      exact of_decide_eq_true h
    have hneg : (Corr.fresh d n).minLag = .fin (-s) := by
      show Arith.neg (lastD d.normT) = _
      rw [hlast, hs]
      rfl
    refine C45_never_returns a d hd ⟨none, none, none, alpha⟩ sel wt _ hc ?_ ?_ ?_ ?_ r hr
    · show (Corr.fresh d n).minLag.IsDouble
      rw [hneg]
      have h := round_fixed hs
      show (XF.round (-s) : XF R) = .fin (-s)
      rw [round_neg, h]
      rfl
    · show (Corr.fresh d n).minLag ≠ _
      rw [hneg]
      exact fun h => by cases h
    · show Arith.le (findMinDiff d.normT) _ = true
      rw [hres]
      rfl
    · show Arith.le (Corr.fresh d n).minLag (lastD d.normT) = true
      rw [hneg, hlast, hs]
      exact decide_eq_true (by linarith)

/-! ### the default alpha -/

theorem weight_of_nan_alpha {wt : String} {w : XF R → XF R → XF R} (h : planWt wt = .ok w) (x : XF R) : w .nan x = .nan := by
  unfold planWt at h
  have hd : (Arith.div x (.nan : XF R)) = .nan := by cases x <;> rfl
  split at h
  · cases h
    show Arith.exp (Arith.div _ (Arith.mul (Arith.mul Arith.two (.nan : XF R)) (.nan : XF R))) = _
    rw [show (Arith.mul (Arith.mul Arith.two (.nan : XF R)) (.nan : XF R)) = .nan from rfl]
    cases (Arith.neg (Arith.mul x x)) <;> rfl
  · split at h
    · cases h
      show Arith.div Arith.one (Arith.add Arith.one (Arith.div x .nan)) = _
      rw [hd]
      rfl
    · split at h
      · cases h
        show Arith.div Arith.one (Arith.addMul Arith.one (Arith.div x .nan) (Arith.div x .nan)) = _
        rw [hd]
        show XF.div _ (bif R.fused then _ else _) = _
        cases R.fused <;> rfl
      · cases h

/-- **C119** (any rounding): the default `alpha` is taken from the entry in the middle (for an even number of times, the two entries in the middle); if it is missing,
`alpha` is NaN and so is the value of every dataset at every reported lag up to the span (fast selection: computed below the span). -/
theorem C119_middle (a : AbsFn) (d : DS (XF R)) (hd : Constructed d) (M : ℕ) (t : ℕ → K) (miss : ℕ → Bool) (ht : d.timeseries = withMissing M t miss)
    (h0 : miss 0 = false) (hlast : miss (M - 1) = false) (hmid : miss (M / 2) = true ∨ M % 2 = 0 ∧ miss (M / 2 - 1) = true)
    (lo hi res : Option (XF R)) (sel wt : String) (r : AcResult (XF R)) (hr : autocorrelation a d ⟨lo, hi, res, none⟩ sel wt = .ok r) (n : ℕ) (κ : K)
    (hκ : if sel = "fast" then Arith.lt (XF.round κ : XF R) (XF.round (t (M - 1) - t 0)) = true else κ ≤ t (M - 1) - t 0)
    (hn : r.lags[n]? = some (.fin κ)) (j : ℕ) (row : List (XF R)) (hrow : d.HasRow j row) : r.corr.alpha = .nan ∧ r.At j n (.fin κ) .nan := by
  obtain ⟨hM, hnt⟩ := normT_missing hd ht h0
  have hlen : d.normT.length = M := by rw [hnt]; simp
  have hget : ∀ i, i < M → rawGet d.normT i = .ok (if miss i then .nan else XF.round (t i - t 0)) := by
    intro i hi
    unfold rawGet
    rw [hnt]
    simp only [List.getElem?_map, List.getElem?_range hi, Option.map_some]
  have hmed : d.tMedian = .nan := by
    obtain ⟨t', data, err, N, hN, hb⟩ := hd.built
    have h := hb.med
    unfold settMedian at h
    simp only [hlen] at h
    split at h
    · rename_i hev
      rw [hget _ (by omega), hget _ (by omega)] at h
      have h := (Res.ok.inj h).symm
      rw [h]
      rcases hmid with hm | ⟨_, hm⟩
      · rw [hm]
        simp only [if_true]
        generalize (if miss (M / 2 - 1) = true then (.nan : XF R) else XF.round (t (M / 2 - 1) - t 0)) = z
        cases z <;> rfl
      · rw [hm]
        rfl
    · rename_i hodd
      rw [hget _ (by omega)] at h
      rcases hmid with hm | ⟨hm, _⟩
      · rw [hm] at h
        simpa using h.symm
      · exact absurd hm hodd
  have ha : r.corr.alpha = .nan := by
    obtain ⟨n', L, _, _, _, hcr⟩ := autocorrelation_ok hd.wf hr
    rw [hcr, setUp_fields]
    exact hmed
  refine ⟨ha, ?_⟩
  obtain ⟨ps, h1, h2⟩ := result_at hd hr hrow hn
  rw [ha] at h1
  unfold lagPlan at h1
  obtain ⟨p, hp, h1⟩ := Res.bind_eq_ok.1 h1
  obtain ⟨δ, hδ, h1⟩ := Res.bind_eq_ok.1 h1
  obtain ⟨w, hw, h1⟩ := Res.bind_eq_ok.1 h1
  cases h1
  obtain ⟨l1, l2⟩ := planSel_length hp
  have hfirst : (d.normT.map fun u => Arith.add u (.fin κ))[0]? = some (XF.round κ) := by
    rw [hnt]
    simp only [List.map_map, List.getElem?_map, List.getElem?_range hM, Option.map_some, Function.comp, h0]
    simp only [Bool.false_eq_true, if_false, sub_self, round_zero]
    show some (XF.round (0 + κ)) = _
    rw [zero_add]
  have hl : lastD d.normT = XF.round (t (M - 1) - t 0) := by
    rw [hnt, lastD_missing hM, hlast]
    simp
  have hsh : p.2[0]? = some (XF.round κ) := by
    unfold planSel at hp
    split at hp
    · rename_i hs
      obtain ⟨s, _, hp⟩ := Res.bind_eq_ok.1 hp
      cases hp
      refine getElem?_takeWhile_of _ _ 0 _ hfirst fun q hq y hy => ?_
      obtain rfl : q = 0 := by omega
      rw [hfirst] at hy
      cases hy
      rw [if_pos hs] at hκ
      rw [hl]
      generalize (XF.round (t (M - 1) - t 0) : XF R) = z at hκ
      generalize (XF.round κ : XF R) = u at hκ
      cases z <;> cases u <;> first | rfl | exact absurd hκ Bool.false_ne_true | skip
      have hκ := of_decide_eq_true hκ
      have : Arith.le (.fin _ : XF R) (.fin _) = false := decide_eq_false (not_le.2 hκ)
      rw [this]
      rfl
    · rename_i hs
      split at hp
      · obtain ⟨s, _, hp⟩ := Res.bind_eq_ok.1 hp
        cases hp
        refine getElem?_takeWhile_of _ _ 0 _ hfirst fun q hq y hy => ?_
        obtain rfl : q = 0 := by omega
        rw [hfirst] at hy
        cases hy
        rw [if_neg hs] at hκ
        rw [hl]
        have hm := round_mono (R := R) hκ
        generalize (XF.round (t (M - 1) - t 0) : XF R) = z at hm
        generalize (XF.round κ : XF R) = u at hm
        cases z <;> cases u <;> first | rfl | exact absurd hm Bool.false_ne_true | skip
        have hm := of_decide_eq_true hm
        have : Arith.lt (.fin _ : XF R) (.fin _) = false := decide_eq_false (not_lt.2 hm)
        rw [this]
        rfl
      · cases hp
  have hlt : 0 < p.1.length := by rw [l1]; exact (List.getElem?_eq_some_iff.1 hsh).1
  have hz : (p.1.zip p.2)[0]? = some (p.1[0], XF.round κ) := by rw [List.getElem?_zip_eq_some]; exact ⟨by simp, hsh⟩
  obtain ⟨y, hy1, _⟩ := Res.mapL_eq_ok_getElem hδ 0 _ hz
  rw [corrValue_nan_weight _ _ _ p.1[0]] at h2
  · exact h2
  · refine List.mem_iff_getElem?.2 ⟨0, ?_⟩
    rw [List.getElem?_zip_eq_some]
    refine ⟨?_, by simp⟩
    rw [List.getElem?_map, hy1]
    simp [weight_of_nan_alpha hw]

end Sacf
