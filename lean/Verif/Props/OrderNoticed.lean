import Verif.Props.MissingTimes
import Verif.Props.StatsRounded
import Verif.Props.Binary
import Verif.Props.Total

/-!
# With the default resolution, lags are returned for increasing times only (C120)
-/

set_option linter.unusedSectionVars false

namespace Sacf

section rounded
variable {K : Type} [Field K] [LinearOrder K] [IsStrictOrderedRing K] [FloorRing K] {R : Rnd K}

theorem findMinDiff_ne_nan (l : List (XF R)) : findMinDiff l ≠ .nan := by
  intro h
  rcases (findMinDiff_go_least l (Arith.dblMax : XF R)).1 with h' | ⟨h', _⟩
  · have : findMinDiff l = Arith.dblMax := h'
    rw [h] at this
    cases this
  · have : Arith.lt (findMinDiff l) Arith.dblMax = true := h'
    rw [h] at this
    cases this

theorem increasing_of_succ {M : ℕ} {t : ℕ → K} (h : ∀ i, i + 1 < M → t i < t (i + 1)) : Increasing M t := by
  intro i j hij hj
  induction j with
  | zero => omega
  | succ j ih =>
    rcases Nat.lt_or_ge i j with hlt | hge
    · exact (ih hlt (by omega)).trans (h j hj)
    · obtain rfl : i = j := by omega
      exact h i hj

/-- what a returned lag says about the lags asked for -/
theorem first_lag_due {F : Type} [Arith F] {a : AbsFn} {d : DS F} (hd : d.WF) {g : LagArgs F} {sel wt : String} {r : AcResult F}
    (hr : autocorrelation a d g sel wt = .ok r) : r.lags ≠ [] ↔ Arith.le r.corr.minLag r.corr.maxLag = true := by
  obtain ⟨m, hg, hl⟩ := result_lags hd hr
  constructor
  · intro hne
    refine hg.1 0 (Nat.pos_of_ne_zero fun hm => hne ?_)
    subst hm
    rcases hl with ⟨_, hl⟩ | ⟨i, hi, _⟩
    · simpa using hl
    · omega
  · intro h
    have hm : m ≠ 0 := by
      rintro rfl
      have h2 : Arith.le r.corr.minLag r.corr.maxLag = false := hg.2
      rw [h] at h2
      cases h2
    rcases hl with ⟨_, hl⟩ | ⟨i, hi, _, _, _, hl⟩
    · rw [hl]
      simpa using hm
    · rw [hl]
      simp

/-- a finite span and a positive resolution: the times are strictly increasing, also as computed -/
theorem increasing_of_resolution {d : DS (XF R)} (hd : Constructed d) {M : ℕ} {t : ℕ → K} (ht : d.timeseries = samples M t) {T : K} (hT : lastD d.normT = .fin T)
    (hpos : Arith.le (findMinDiff d.normT) (.fin 0) = false) :
    Increasing M t ∧ ∃ y : ℕ → K, (∀ i < M, (XF.round (t i - t 0) : XF R) = .fin (y i)) ∧ Increasing M y := by
  obtain ⟨hM, hnt⟩ := normT_rounded hd ht
  have hget : ∀ i, i < M → d.normT[i]? = some (XF.round (t i - t 0)) := by
    intro i hi
    rw [hnt]
    simp [hi]
  have hfin : ∀ i < M, ∃ y, (XF.round (t i - t 0) : XF R) = .fin y := by
    by_contra hno
    push Not at hno
    obtain ⟨i, hi, hno⟩ := hno
    obtain ⟨i', u, v, h1, h2, h3⟩ := exists_ninf_diff d.normT
      (fun x hx => by
        rw [hnt] at hx
        obtain ⟨j, _, rfl⟩ := List.mem_map.1 hx
        exact round_ne_nan _)
      (fun y hy => by
        have : lastD d.normT = y := by unfold lastD; rw [List.getLastD_eq_getLast?, hy]; rfl
        rw [← this, hT]
        trivial)
      (.fin 0) (by rw [List.head?_eq_getElem?, hget 0 hM, sub_self, round_zero])
      (.inr ⟨trivial, XF.round (t i - t 0), List.mem_of_getElem? (hget i hi), fun hf => by
        cases hz : (XF.round (t i - t 0) : XF R) with
        | fin y => exact hno y hz
        | _ => rw [hz] at hf; exact hf⟩)
    rw [findMinDiff_ninf h1 h2 h3] at hpos
    cases hpos
  choose! y hy using hfin
  have hyinc : ∀ i, i + 1 < M → y i < y (i + 1) := by
    intro i hi
    have h1 := hget i (by omega)
    have h2 := hget (i + 1) hi
    rw [hy i (by omega)] at h1
    rw [hy (i + 1) hi] at h2
    have h3 : Arith.lt (Arith.sub (.fin (y (i + 1))) (.fin (y i))) (findMinDiff d.normT) = false := (findMinDiff_go_least d.normT _).2 i _ _ h1 h2
    by_contra hcon
    have h4 := round_mono (R := R) (show y (i + 1) + -y i ≤ 0 by linarith [not_lt.1 hcon])
    rw [round_zero] at h4
    have h5 : (Arith.sub (.fin (y (i + 1))) (.fin (y i)) : XF R) = XF.round (y (i + 1) + -y i) := rfl
    rw [h5] at h3
    have h6 := findMinDiff_ne_nan d.normT
    generalize findMinDiff d.normT = v at h3 hpos h6
    generalize hw : (XF.round (y (i + 1) + -y i) : XF R) = w at h3 h4
    cases v with
    | nan => exact h6 rfl
    | ninf => cases hpos
    | pinf =>
      cases w with
      | nan => exact round_ne_nan _ hw
      | ninf => cases h3
      | pinf => cases h4
      | fin w => cases h3
    | fin v =>
      have hv := of_decide_eq_false hpos
      cases w with
      | nan => exact round_ne_nan _ hw
      | ninf => cases h3
      | pinf => cases h4
      | fin w =>
        have h3 := of_decide_eq_false h3
        have h4 := of_decide_eq_true h4
        linarith
  refine ⟨increasing_of_succ fun i hi => ?_, y, hy, increasing_of_succ hyinc⟩
  by_contra hcon
  have h4 := round_mono (R := R) (show t (i + 1) - t 0 ≤ t i - t 0 by linarith [not_lt.1 hcon])
  rw [hy i (by omega), hy (i + 1) hi] at h4
  have := of_decide_eq_true h4
  linarith [hyinc i hi]

/-- **C120** (any rounding): a call that leaves the resolution at its default and returns a lag at all was given strictly increasing times, and they are so as
computed: the offsets from the first time are finite and strictly increasing. -/
theorem C120_increasing (a : AbsFn) (d : DS (XF R)) (hd : Constructed d) (M : ℕ) (t : ℕ → K) (ht : d.timeseries = samples M t) (g : LagArgs (XF R))
    (hg : g.lagRes = none) (hlo : ∀ x ∈ g.minLag, x.IsDouble ∧ x ≠ .pinf) (sel wt : String) (r : AcResult (XF R))
    (hr : autocorrelation a d g sel wt = .ok r) (hne : r.lags ≠ []) :
    Increasing M t ∧ ∃ y : ℕ → K, (∀ i < M, (XF.round (t i - t 0) : XF R) = .fin (y i)) ∧ Increasing M y := by
  obtain ⟨hM, hnt⟩ := normT_rounded hd ht
  obtain ⟨c, hc⟩ : ∃ c, Corr.new d = .ok c := by
    unfold autocorrelation at hr
    obtain ⟨c, hc, _⟩ := Res.bind_eq_ok.1 hr
    exact ⟨c, hc⟩
  have hov := C15_overrides a d hd g sel wt r hr c hc
  obtain ⟨n, hs, rfl, _⟩ := corrNew_good hd.wf hc
  have hlast : lastD d.normT = XF.round (t (M - 1) - t 0) := by rw [hnt, lastD_rounded hM]
  obtain ⟨⟨T, hT⟩, _⟩ := lagSlots_ok (R := R) hs
  have hle := (first_lag_due hd.wf hr).1 hne
  rw [hov.1, hov.2.1] at hle
  have hpos : Arith.le (findMinDiff d.normT) (.fin 0) = false := by
    cases hcase : Arith.le (findMinDiff d.normT) (.fin 0 : XF R) with
    | false => rfl
    | true =>
      refine absurd hr (C45_never_returns a d hd g sel wt _ hc ?_ ?_ (by rw [hg]; exact hcase) hle r)
      · cases hm : g.minLag with
        | some x => exact (hlo x hm).1
        | none =>
          show (Arith.neg (lastD d.normT)).IsDouble
          rw [hT]
          have h := round_fixed (hlast.symm.trans hT)
          show (XF.round (-T) : XF R) = .fin (-T)
          rw [round_neg, h]
          rfl
      · cases hm : g.minLag with
        | some x => exact (hlo x hm).2
        | none =>
          show Arith.neg (lastD d.normT) ≠ _
          rw [hT]
          exact fun h => by cases h
  exact increasing_of_resolution hd ht hT hpos

/-- **C120** (any rounding): so if one time is not after its predecessor, such a call returns no lag: it returns empty lists, raises, or is undefined. -/
theorem C120_out_of_order (a : AbsFn) (d : DS (XF R)) (hd : Constructed d) (M : ℕ) (t : ℕ → K) (ht : d.timeseries = samples M t) (i : ℕ) (hi : i + 1 < M)
    (hbad : t (i + 1) ≤ t i) (g : LagArgs (XF R)) (hg : g.lagRes = none) (hlo : ∀ x ∈ g.minLag, x.IsDouble ∧ x ≠ .pinf) (sel wt : String) :
    (∃ r, autocorrelation a d g sel wt = .ok r ∧ r.lags = []) ∨ (∃ e, autocorrelation a d g sel wt = .exn e) ∨ autocorrelation a d g sel wt = .ub := by
  cases hr : autocorrelation a d g sel wt with
  | ok r =>
    left
    refine ⟨r, rfl, ?_⟩
    by_contra hne
    have := (C120_increasing a d hd M t ht g hg hlo sel wt r hr hne).1 i (i + 1) (by omega) hi
    linarith
  | exn e => exact .inr (.inl ⟨e, rfl⟩)
  | ub => exact .inr (.inr rfl)
  | diverge => exact absurd hr (C49_autocorrelation a d g sel wt)

/-- **C120** (any rounding): with the natural selection, a time that is not after its predecessor makes every default call undefined behaviour (it converts an infinity
to `int`, or writes outside its buffers), unless the last time is before the first. -/
theorem C120_undefined (d : DS (XF R)) (hd : Constructed d) (M : ℕ) (t : ℕ → K) (ht : d.timeseries = samples M t) (i : ℕ) (hi : i + 1 < M)
    (hbad : t (i + 1) ≤ t i) (hends : t 0 ≤ t (M - 1)) (alpha : Option (XF R)) (wt : String) (hw : KnownWeight wt) :
    autocorrelation .fabs d ⟨none, none, none, alpha⟩ "natural" wt = .ub := by
  cases hc : Corr.new d with
  | ub => unfold autocorrelation; rw [hc]; rfl
  | exn e =>
    rw [corrNew_eq hd.wf] at hc
    unfold slotsOf lagSlots at hc
    repeat' split at hc
    all_goals cases hc
  | diverge =>
    rw [corrNew_eq hd.wf] at hc
    unfold slotsOf lagSlots at hc
    repeat' split at hc
    all_goals cases hc
  | ok c =>
    obtain ⟨hM, hnt⟩ := normT_rounded hd ht
    have hc' := hc
    obtain ⟨n, hs, rfl, _⟩ := corrNew_good hd.wf hc'
    have hlast : lastD d.normT = XF.round (t (M - 1) - t 0) := by rw [hnt, lastD_rounded hM]
    obtain ⟨⟨T, hT⟩, _⟩ := lagSlots_ok (R := R) hs
    have hT0 : 0 ≤ T := by
      have h := round_mono (R := R) (show (0 : K) ≤ t (M - 1) - t 0 by linarith)
      rw [round_zero, ← hlast, hT] at h
      exact of_decide_eq_true h
    refine C45_overflow d hd _ wt hw _ hc ?_ ?_ ?_ ?_
    · show (Arith.neg (lastD d.normT)).IsDouble
      rw [hT]
      have h := round_fixed (hlast.symm.trans hT)
      show (XF.round (-T) : XF R) = .fin (-T)
      rw [round_neg, h]
      rfl
    · show Arith.neg (lastD d.normT) ≠ _
      rw [hT]
      exact fun h => by cases h
    · show Arith.le (findMinDiff d.normT) (.fin 0 : XF R) = true
      cases hcase : Arith.le (findMinDiff d.normT) (.fin 0 : XF R) with
      | true => rfl
      | false =>
        have := (increasing_of_resolution hd ht hT hcase).1 i (i + 1) (by omega) hi
        linarith
    · show Arith.le (Arith.neg (lastD d.normT)) (lastD d.normT) = true
      rw [hT]
      exact decide_eq_true (by linarith)

/-- the number of lags returned is at most the number of slots of a new `Correlator` -/
theorem lags_le_slots {F : Type} [Arith F] {a : AbsFn} {d : DS F} (hd : d.WF) {g : LagArgs F} {sel wt : String} {r : AcResult F}
    (hr : autocorrelation a d g sel wt = .ok r) : ∃ n, slotsOf d.normT = .ok n ∧ r.lags.length ≤ n := by
  obtain ⟨n, L, hL, hlags, _, _⟩ := autocorrelation_ok hd hr
  unfold acPlan at hL
  obtain ⟨n', hn', hL⟩ := Res.bind_eq_ok.1 hL
  obtain ⟨L', hL', hL⟩ := Res.bind_eq_ok.1 hL
  split at hL
  · cases hL
  · cases hL
    obtain ⟨_, h2, _⟩ := planRun_lags hL'
    exact ⟨n', hn', by rw [hlags, List.length_map]; exact h2⟩

theorem slots_nonpos {T : K} (hT : 0 ≤ T) {res : XF R} (hres : Arith.le res (.fin 0) = true) {n : ℕ}
    (h : lagSlots (.fin T : XF R) (Arith.neg (.fin T)) res = .ok n) : n ≤ 3 := by
  have key : ∀ z : ℤ, Arith.toInt (Arith.floor (Arith.div (Arith.sub (.fin T : XF R) (Arith.neg (.fin T))) res)) = some z → z ≤ 0 := by
    intro z hz
    have hsub : (Arith.sub (.fin T : XF R) (Arith.neg (.fin T))) = XF.round (T + - -T) := rfl
    rw [hsub] at hz
    have h0 := round_mono (R := R) (show (0 : K) ≤ T + - -T by linarith)
    rw [round_zero] at h0
    generalize (XF.round (T + - -T) : XF R) = u at hz h0
    cases u with
    | nan => cases h0
    | ninf => cases h0
    | pinf =>
      cases res with
      | fin y =>
        have hz : XF.toInt (XF.floor (if y < 0 then (.ninf : XF R) else .pinf)) = some z := hz
        split at hz <;> cases hz
      | _ => cases hz
    | fin u =>
      have h0 := of_decide_eq_true h0
      cases res with
      | nan => cases hz
      | pinf => cases hres
      | ninf =>
        have hz : XF.toInt (XF.floor (.fin 0 : XF R)) = some z := hz
        simp [XF.toInt, XF.floor] at hz
        omega
      | fin y =>
        have hy := of_decide_eq_true hres
        have hz : XF.toInt (XF.floor (if y = 0 then XF.infSign u else XF.round (u / y) : XF R)) = some z := hz
        split at hz
        · unfold XF.infSign at hz
          split at hz
          · cases hz
          · split at hz <;> cases hz
        · have h1 := round_mono (R := R) (show u / y ≤ 0 from div_nonpos_of_nonneg_of_nonpos h0 hy)
          rw [round_zero] at h1
          generalize (XF.round (u / y) : XF R) = v at hz h1
          cases v with
          | fin v =>
            have h1 := of_decide_eq_true h1
            have h2 : ⌊v⌋ ≤ 0 := by
              have := Int.floor_le_floor h1
              simpa using this
            simp only [XF.toInt, XF.floor, Option.some.injEq, Int.floor_intCast, Int.ceil_intCast, ite_self] at hz
            omega
          | _ => cases hz
  unfold lagSlots at h
  split at h
  · cases h
  · rename_i z hz
    have := key z hz
    split at h
    · split at h
      · cases h
        omega
      · cases h
    · cases h

/-- **C120** (any rounding): if a time is not after its predecessor and the last is not before the first, no call whatever its arguments returns more than three
lags: the memory allocated for them has no more places. -/
theorem C120_three_lags (a : AbsFn) (d : DS (XF R)) (hd : Constructed d) (M : ℕ) (t : ℕ → K) (ht : d.timeseries = samples M t) (i : ℕ) (hi : i + 1 < M)
    (hbad : t (i + 1) ≤ t i) (hends : t 0 ≤ t (M - 1)) (g : LagArgs (XF R)) (sel wt : String) (r : AcResult (XF R))
    (hr : autocorrelation a d g sel wt = .ok r) : r.lags.length ≤ 3 := by
  obtain ⟨n, hs, hn⟩ := lags_le_slots hd.wf hr
  refine hn.trans ?_
  obtain ⟨hM, hnt⟩ := normT_rounded hd ht
  have hlast : lastD d.normT = XF.round (t (M - 1) - t 0) := by rw [hnt, lastD_rounded hM]
  obtain ⟨⟨T, hT⟩, _⟩ := lagSlots_ok (R := R) hs
  have hT0 : 0 ≤ T := by
    have h := round_mono (R := R) (show (0 : K) ≤ t (M - 1) - t 0 by linarith)
    rw [round_zero, ← hlast, hT] at h
    exact of_decide_eq_true h
  unfold slotsOf at hs
  rw [hT] at hs
  refine slots_nonpos hT0 ?_ hs
  cases hcase : Arith.le (findMinDiff d.normT) (.fin 0 : XF R) with
  | true => rfl
  | false =>
    have := (increasing_of_resolution hd ht hT hcase).1 i (i + 1) (by omega) hi
    linarith

end rounded

section binary64
variable {ex : ℚ → ℚ} {fu : Bool}

/-- **C120 in binary64**: for doubles whose span is less than `2^25` times the least gap of neighbours, and at most half of `DBL_MAX`, a default call returns lags if and only
if the times are strictly increasing. -/
theorem C120_binary64 (d : DS (D64 ex fu)) (hd : Constructed d) (M : ℕ) (t : ℕ → ℚ) (ht : d.timeseries = samples M t)
    (hdbl : ∀ i < M, (.fin (t i) : D64 ex fu).IsDouble) (hM : 2 ≤ M) (hratio : ∀ i, i + 1 < M → t i < t (i + 1) → t (M - 1) - t 0 ≤ 2 ^ 25 * (t (i + 1) - t i))
    (hspan : 2 * (t (M - 1) - t 0) ≤ (Rnd.binary64 ex fu).dblMax) (α : Option (D64 ex fu)) (wt : String) (hw : KnownWeight wt) :
    (∃ r, autocorrelation .fabs d { alpha := α } "natural" wt = .ok r ∧ r.lags ≠ []) ↔ Increasing M t := by
  constructor
  · rintro ⟨r, hr, hne⟩
    exact (C120_increasing .fabs d hd M t ht _ rfl (fun x hx => by cases hx) _ _ r hr hne).1
  · intro hinc
    obtain ⟨i, hi, hmin⟩ : ∃ i ∈ Finset.range (M - 1), ∀ j ∈ Finset.range (M - 1), t (i + 1) - t i ≤ t (j + 1) - t j :=
      Finset.exists_min_image _ _ ⟨0, Finset.mem_range.2 (by omega)⟩
    have hi := Finset.mem_range.1 hi
    have hgap : IsMinGap M t (t (i + 1) - t i) := by
      refine ⟨⟨i, i + 1, by omega, by omega, rfl⟩, fun k j hkj hj => ?_⟩
      have h1 := hmin k (Finset.mem_range.2 (by omega))
      have h2 : t (k + 1) ≤ t j := by
        rcases Nat.lt_or_ge (k + 1) j with h | h
        · exact (hinc (k + 1) j h hj).le
        · rw [show j = k + 1 by omega]
      linarith
    obtain ⟨r, hr⟩ := C46_default_safe d hd M t ht hdbl hM hinc _ hgap (hratio i (by omega) (hinc i (i + 1) (by omega) (by omega))) hspan α wt hw
    refine ⟨r, hr, ?_⟩
    rw [first_lag_due hd.wf hr]
    obtain ⟨c, hc⟩ : ∃ c, Corr.new d = .ok c := by
      have hr' := hr
      unfold autocorrelation at hr'
      obtain ⟨c, hc, _⟩ := Res.bind_eq_ok.1 hr'
      exact ⟨c, hc⟩
    have hov := C15_overrides .fabs d hd _ _ wt r hr c hc
    rw [hov.1, hov.2.1]
    obtain ⟨n, hs, rfl, _⟩ := corrNew_good hd.wf hc
    obtain ⟨hM0, hnt⟩ := normT_rounded hd ht
    have hlast : lastD d.normT = XF.round (t (M - 1) - t 0) := by rw [hnt, lastD_rounded hM0]
    obtain ⟨⟨T, hT⟩, _⟩ := lagSlots_ok hs
    have hT0 : 0 ≤ T := by
      have h := round_mono (R := Rnd.binary64 ex fu) (show (0 : ℚ) ≤ t (M - 1) - t 0 by linarith [hinc 0 (M - 1) (by omega) (by omega)])
      rw [round_zero, ← hlast, hT] at h
      exact of_decide_eq_true h
    show Arith.le (Arith.neg (lastD d.normT)) (lastD d.normT) = true
    rw [hT]
    exact decide_eq_true (by linarith)

end binary64

end Sacf
