import Verif.Lemmas.Grid
import Verif.Lemmas.Round
import Verif.Props.Driver
import Verif.Spec.Rational

/-!
# The lag grid (C17, C18, C21 for the default range, C45)

The parameters a call used are read off the returned correlator (`r.corr`); `C15_overrides` says what they are in
terms of the arguments.
-/

set_option linter.unusedSectionVars false
set_option linter.unusedSimpArgs false

namespace Sacf

/-! ## C17 -/

/-- **C17** (any arithmetic): the lags are the points `min, min+res, (min+res)+res, …` up to the first one that is
not `<= max`, with zero put before the first positive point unless a point before that is zero. -/
theorem C17_lag_list {F : Type} [Arith F] (a : AbsFn) (d : DS F) (hd : Constructed d) (g : LagArgs F)
    (sel wt : String) (r : AcResult F) (hr : autocorrelation a d g sel wt = .ok r) :
    ∃ m, GridCount r.corr.minLag r.corr.maxLag r.corr.lagRes m ∧
      IsLagList r.corr.minLag r.corr.lagRes m r.lags := result_lags hd.wf hr

section exact
variable {K : Type} [Field K] [LinearOrder K] [IsStrictOrderedRing K] [FloorRing K]
variable {dm : K} {f32 ex : K → K}

/-- **C17** (exact arithmetic): the lags are strictly increasing, and are exactly the numbers `min + n·res` not
above `max`, together with zero if one of them is positive. -/
theorem C17_grid (a : AbsFn) (d : DS (Exact dm f32 ex)) (hd : Constructed d) (g : LagArgs (Exact dm f32 ex))
    (sel wt : String) (r : AcResult (Exact dm f32 ex)) (hr : autocorrelation a d g sel wt = .ok r)
    (lo hi res : K) (hlo : r.corr.minLag = .fin lo) (hhi : r.corr.maxLag = .fin hi)
    (hre : r.corr.lagRes = .fin res) (hres : 0 < res) :
    ∃ ks : List K, r.lags = ks.map .fin ∧ ks.Pairwise (· < ·) ∧
      ∀ k, k ∈ ks ↔ (∃ n : ℕ, k = lo + n * res ∧ k ≤ hi) ∨
        (k = 0 ∧ ∃ n : ℕ, 0 < lo + n * res ∧ lo + n * res ≤ hi) := by
  obtain ⟨m, hg, hl⟩ := result_lags hd.wf hr
  rw [hlo, hhi, hre] at hg
  rw [hlo, hre] at hl
  exact lagList_exact hres hg hl

example : ((mkFlat (q [0, 1, 3]) (q [1, 2, 4])).bind fun d =>
    (autocorrelation .fabs d { minLag := some (.fin (-3/2)), maxLag := some (.fin 2) }).bind fun r => .ok r.lags)
      = .ok (q [-3/2, -1/2, 0, 1/2, 3/2]) := by decide +kernel

/-! ## C18 -/

/-- **C18**: the largest part that holds.  If `min ≤ 0` and some grid point lies in `[0, max]`, zero is among the
lags exactly once and every lag lies in `[min, max]`. -/
theorem C18_zero_once_partial (a : AbsFn) (d : DS (Exact dm f32 ex)) (hd : Constructed d)
    (g : LagArgs (Exact dm f32 ex)) (sel wt : String) (r : AcResult (Exact dm f32 ex))
    (hr : autocorrelation a d g sel wt = .ok r) (lo hi res : K) (hlo : r.corr.minLag = .fin lo)
    (hhi : r.corr.maxLag = .fin hi) (hre : r.corr.lagRes = .fin res) (hres : 0 < res) (hlo0 : lo ≤ 0)
    (hpt : ∃ n : ℕ, 0 ≤ lo + n * res ∧ lo + n * res ≤ hi) :
    r.lags.count (.fin 0) = 1 ∧ ∀ x ∈ r.lags, ∃ k, x = .fin k ∧ lo ≤ k ∧ k ≤ hi := by
  obtain ⟨ks, h1, h2, h3⟩ := C17_grid a d hd g sel wt r hr lo hi res hlo hhi hre hres
  obtain ⟨n, hn0, hn⟩ := hpt
  have h0 : (0 : K) ∈ ks := by
    rw [h3]
    rcases eq_or_lt_of_le hn0 with h | h
    · exact Or.inl ⟨n, h, by linarith⟩
    · exact Or.inr ⟨rfl, n, h, hn⟩
  have hnd : ks.Nodup := h2.imp fun h => ne_of_lt h
  constructor
  · rw [h1]
    have hinj : Function.Injective (XF.fin : K → Exact dm f32 ex) := fun x y h => by injection h
    have hnd' : (ks.map (XF.fin : K → Exact dm f32 ex)).Nodup := hnd.map hinj
    exact List.count_eq_one_of_mem hnd' (List.mem_map_of_mem h0)
  · intro x hx
    rw [h1] at hx
    obtain ⟨k, hk, rfl⟩ := List.mem_map.1 hx
    refine ⟨k, rfl, ?_⟩
    rcases (h3 k).1 hk with ⟨n', rfl, hle⟩ | ⟨rfl, n', _, _⟩
    · refine ⟨?_, hle⟩
      have : 0 ≤ (n' : K) * res := by positivity
      linarith
    · exact ⟨hlo0, by linarith⟩

/-- **C18**: zero never occurs twice. -/
theorem C18_at_most_once_partial (a : AbsFn) (d : DS (Exact dm f32 ex)) (hd : Constructed d)
    (g : LagArgs (Exact dm f32 ex)) (sel wt : String) (r : AcResult (Exact dm f32 ex))
    (hr : autocorrelation a d g sel wt = .ok r) (lo hi res : K) (hlo : r.corr.minLag = .fin lo)
    (hhi : r.corr.maxLag = .fin hi) (hre : r.corr.lagRes = .fin res) (hres : 0 < res) (x : Exact dm f32 ex) :
    r.lags.count x ≤ 1 := by
  obtain ⟨ks, h1, h2, _⟩ := C17_grid a d hd g sel wt r hr lo hi res hlo hhi hre hres
  have hnd : ks.Nodup := h2.imp fun h => ne_of_lt h
  have hinj : Function.Injective (XF.fin : K → Exact dm f32 ex) := fun x y h => by injection h
  rw [h1]
  exact List.nodup_iff_count_le_one.1 (hnd.map hinj) x

/-- **C18**: a call with the default range reports zero exactly once and stays in range, for every increasing
time list with at least two entries (so the corner cases need user-supplied parameters). -/
theorem C18_default_partial (a : AbsFn) (d : DS (Exact dm f32 ex)) (hd : Constructed d) (M : ℕ) (t : ℕ → K)
    (ht : d.timeseries = samples M t) (hM : 2 ≤ M) (hinc : Increasing M t) (hspan : t (M - 1) - t 0 ≤ dm)
    (α : Option (Exact dm f32 ex)) (sel wt : String)
    (r : AcResult (Exact dm f32 ex)) (hr : autocorrelation a d { alpha := α } sel wt = .ok r) :
    r.lags.count (.fin 0) = 1 ∧
    ∀ x ∈ r.lags, ∃ k, x = .fin k ∧ -(t (M - 1) - t 0) ≤ k ∧ k ≤ t (M - 1) - t 0 := by
  obtain ⟨hM0, hn, _⟩ := built_times hd ht
  obtain ⟨δ, h1, ⟨⟨i, j, hij, hj, he⟩, h2⟩, hpos⟩ :=
    findMinDiff_gap (dm := dm) (f32 := f32) (ex := ex) hM (hinc.sub_const (t 0)) (by simpa using hspan)
  obtain ⟨n, L, _, _, _, hc⟩ := autocorrelation_ok hd.wf hr
  have hlast : lastD d.normT = .fin (t (M - 1) - t 0) := by rw [hn, samples_last hM0]
  have hδ : δ ≤ t (M - 1) - t 0 := by
    have := h2 0 (M - 1) (by omega) (by omega)
    linarith
  refine C18_zero_once_partial a d hd _ sel wt r hr (-(t (M - 1) - t 0)) (t (M - 1) - t 0) δ ?_ ?_ ?_ hpos
    (by linarith) ?_
  · rw [hc, setUp_fields]; simp [Corr.store, Corr.fresh, hlast]
  · rw [hc, setUp_fields]; simp [Corr.store, Corr.fresh, hlast]
  · rw [hc, setUp_fields]; simp [Corr.store, Corr.fresh, hn, h1]
  · refine ⟨⌈(t (M - 1) - t 0) / δ⌉.toNat, ?_, ?_⟩
    all_goals
      have hq : 0 ≤ (t (M - 1) - t 0) / δ := by apply div_nonneg <;> linarith
      have hc0 : 0 ≤ ⌈(t (M - 1) - t 0) / δ⌉ := Int.ceil_nonneg hq
      have hcast : ((⌈(t (M - 1) - t 0) / δ⌉.toNat : ℕ) : K) = (⌈(t (M - 1) - t 0) / δ⌉ : K) := by
        have : ((⌈(t (M - 1) - t 0) / δ⌉.toNat : ℤ)) = ⌈(t (M - 1) - t 0) / δ⌉ := Int.toNat_of_nonneg hc0
        exact_mod_cast congrArg (Int.cast (R := K)) this
      rw [hcast]
    · have := Int.le_ceil ((t (M - 1) - t 0) / δ)
      rw [div_le_iff₀ hpos] at this
      linarith
    · have := Int.ceil_lt_add_one ((t (M - 1) - t 0) / δ)
      have h3 : (⌈(t (M - 1) - t 0) / δ⌉ : K) * δ ≤ ((t (M - 1) - t 0) / δ + 1) * δ :=
        mul_le_mul_of_nonneg_right this.le hpos.le
      have h4 : ((t (M - 1) - t 0) / δ + 1) * δ = (t (M - 1) - t 0) + δ := by
        field_simp
      linarith

/-- **C18 is false of the code**: zero is in the range but not among the lags. -/
theorem C18_false_missing : ((mkFlat (q [0, 1, 3]) (q [1, 2, 4])).bind fun d =>
    (autocorrelation .fabs d ⟨some (.fin (-1)), some (.fin (1/10)), some (.fin (6/5)), none⟩).bind fun r =>
      .ok r.lags) = .ok (q [-1]) := by decide +kernel

/-- **C18 is false of the code**: a lag outside the range. -/
theorem C18_false_outside : ((mkFlat (q [0, 1, 3]) (q [1, 2, 4])).bind fun d =>
    (autocorrelation .fabs d { minLag := some (.fin 1), maxLag := some (.fin 3) }).bind fun r => .ok r.lags)
      = .ok (q [0, 1, 2, 3]) := by decide +kernel

/-! ## C21, default range -/

/-- **C21**: with natural selection the call returns whenever the range lies inside the default one and the
resolution is not finer than the default (in particular for every default call); only the empty range on the
Python path raises instead (C38). -/
theorem C21_default_range_partial (d : DS (Exact dm f32 ex)) (hd : Constructed d) (M : ℕ) (t : ℕ → K)
    (ht : d.timeseries = samples M t) (hM : 2 ≤ M) (hinc : Increasing M t) (hspan : t (M - 1) - t 0 ≤ dm)
    (δ : K) (hδ : IsMinGap M t δ) (hint : ⌊2 * (t (M - 1) - t 0) / δ⌋ + 3 < 2 ^ 31)
    (g : LagArgs (Exact dm f32 ex)) (wt : String) (hw : KnownWeight wt)
    (hlo : ∀ x ∈ g.minLag, ∃ k, x = .fin k ∧ -(t (M - 1) - t 0) ≤ k)
    (hhi : ∀ x ∈ g.maxLag, ∃ k, x = .fin k ∧ k ≤ t (M - 1) - t 0)
    (hres : ∀ x ∈ g.lagRes, ∃ k, x = .fin k ∧ δ ≤ k) :
    (∃ r, autocorrelation .fabs d g "natural" wt = .ok r) ∨
    (wt ≠ "fractional" ∧ autocorrelation .fabs d g "natural" wt = .exn .unboundLocal) := by
  obtain ⟨hM0, hn, _⟩ := built_times hd ht
  obtain ⟨δ', h1, h2, hpos⟩ := findMinDiff_gap (dm := dm) (f32 := f32) (ex := ex) hM (hinc.sub_const (t 0)) (by
    simpa using hspan)
  have h2' : IsMinGap M t δ' := by
    obtain ⟨⟨i, j, hij, hj, he⟩, h3⟩ := h2
    refine ⟨⟨i, j, hij, hj, by linarith⟩, fun i j hij hj => ?_⟩
    have := h3 i j hij hj; linarith
  have := hδ.unique h2'
  subst this
  have hlast : lastD d.normT = .fin (t (M - 1) - t 0) := by rw [hn, samples_last hM0]
  set T : K := t (M - 1) - t 0 with hT
  have hT0 : 0 ≤ T := by have := hinc.le (Nat.zero_le (M - 1)) (by omega); linarith
  have hfl : 0 ≤ ⌊2 * T / δ⌋ := Int.floor_nonneg.2 (by positivity)
  have hs : slotsOf d.normT = .ok (⌊2 * T / δ⌋ + 3).toNat := by
    have : slotsOf d.normT = lagSlots (.fin T : Exact dm f32 ex) (.fin (-T)) (.fin δ) := by
      unfold slotsOf; rw [hlast, hn, h1]; rfl
    rw [this, slots_exact hpos.ne', if_pos ⟨by omega, by simpa using hint⟩, if_pos (by omega)]
  have hmin : ∃ lo, g.minLag.getD (Arith.neg (lastD d.normT)) = .fin lo ∧ -T ≤ lo := by
    cases hg : g.minLag with
    | none => exact ⟨-T, by simp [hlast], le_rfl⟩
    | some x => obtain ⟨k, rfl, h⟩ := hlo x (by simp [hg]); exact ⟨k, rfl, h⟩
  have hmax : ∃ hi, g.maxLag.getD (lastD d.normT) = .fin hi ∧ hi ≤ T := by
    cases hg : g.maxLag with
    | none => exact ⟨T, by simp [hlast], le_rfl⟩
    | some x => obtain ⟨k, rfl, h⟩ := hhi x (by simp [hg]); exact ⟨k, rfl, h⟩
  have hrs : ∃ res, g.lagRes.getD (findMinDiff d.normT) = .fin res ∧ δ ≤ res := by
    cases hg : g.lagRes with
    | none => exact ⟨δ, by simp [hn, h1], le_rfl⟩
    | some x => obtain ⟨k, rfl, h⟩ := hres x (by simp [hg]); exact ⟨k, rfl, h⟩
  obtain ⟨lo, elo, hlo'⟩ := hmin
  obtain ⟨hi, ehi, hhi'⟩ := hmax
  obtain ⟨res, eres, hres'⟩ := hrs
  have hrpos : 0 < res := by linarith
  have hfit : (lagsUpTo (.fin hi : Exact dm f32 ex) (.fin res) ((⌊2 * T / δ⌋ + 3).toNat + 1) (.fin lo) false).length
      ≤ (⌊2 * T / δ⌋ + 3).toNat := by
    rw [lags_fit_iff]
    refine ⟨_, gridCount_floor hrpos, ?_⟩
    have hle : ⌊(hi - lo) / res⌋ ≤ ⌊2 * T / δ⌋ := by
      by_cases hneg : hi - lo < 0
      · have : (hi - lo) / res ≤ 2 * T / δ := by
          have h5 : (hi - lo) / res ≤ 0 := div_nonpos_of_nonpos_of_nonneg hneg.le hrpos.le
          have h6 : 0 ≤ 2 * T / δ := by positivity
          linarith
        exact Int.floor_le_floor this
      · apply Int.floor_le_floor
        rw [div_le_div_iff₀ hrpos hpos]
        push Not at hneg
        calc (hi - lo) * δ ≤ (2 * T) * δ := mul_le_mul_of_nonneg_right (by linarith) hpos.le
          _ ≤ 2 * T * res := mul_le_mul_of_nonneg_left hres' (by linarith)
    unfold lagTotal
    split <;> omega
  obtain ⟨c', _, he⟩ := autocorrelation_eq .fabs hd.wf g "natural" wt
  rw [he, acPlan, hs]
  simp only [Res.ok_bind]
  rw [elo, ehi, eres]
  rcases planRun_natural hd.wf.ne hw (g.alpha.getD d.tMedian) (.fin lo) (.fin hi) (.fin res)
    (⌊2 * T / δ⌋ + 3).toNat with ⟨_, L, hL, _⟩ | ⟨hgt, _⟩
  · rw [hL]
    simp only [Res.ok_bind]
    split
    · rename_i h
      right
      refine ⟨?_, rfl⟩
      rintro rfl
      simp at h
    · left
      simp only [Res.ok_bind]
      have hN : 0 < d.N := by
        obtain ⟨_, _, _, N, hN, hb⟩ := hd.built
        rw [hb.hN]; exact hN
      unfold corrOut
      split
      · exact ⟨_, rfl⟩
      · cases hr : (List.range d.N).map (d.acRow L) with
        | nil =>
          have := congrArg List.length hr
          simp at this; omega
        | cons row rows => exact ⟨_, rfl⟩
  · omega

/-- **C21 is false of the code**: a finer resolution overflows the buffers. -/
theorem C21_false : ((mkFlat (q [0, 1, 3]) (q [1, 2, 4])).bind fun d =>
    (autocorrelation .fabs d { lagRes := some (.fin (1/2)) }).bind fun r => .ok r.lags) = .ub := by
  decide +kernel

/-- **C21 is false of the code**: a wider range overflows the buffers. -/
theorem C21_false_range : ((mkFlat (q [0, 1, 3]) (q [1, 2, 4])).bind fun d =>
    (autocorrelation .fabs d { maxLag := some (.fin 6) }).bind fun r => .ok r.lags) = .ub := by
  decide +kernel

end exact

/-! ## C45 -/

section rounded
variable {K : Type} [Field K] [LinearOrder K] [IsStrictOrderedRing K] [FloorRing K] {R : Rnd K}

/-- adding a non-positive number to a double gives a double that is not larger -/
theorem add_nonpos {x y : XF R} (hx : x.IsDouble) (hx' : x ≠ .pinf) (hxn : x ≠ .nan)
    (hy : Arith.le y (.fin 0) = true) :
    (Arith.add x y).IsDouble ∧ Arith.add x y ≠ .pinf ∧ Arith.add x y ≠ .nan ∧
      Arith.le (Arith.add x y) x = true := by
  cases x with
  | nan => exact absurd rfl hxn
  | pinf => exact absurd rfl hx'
  | ninf =>
    cases y with
    | nan => exact absurd hy (by simp [Arith.le, XF.le])
    | pinf => exact absurd hy (by simp [Arith.le, XF.le])
    | ninf => exact ⟨trivial, by simp [Arith.add, XF.add], by simp [Arith.add, XF.add], rfl⟩
    | fin b => exact ⟨trivial, by simp [Arith.add, XF.add], by simp [Arith.add, XF.add], rfl⟩
  | fin a =>
    cases y with
    | nan => exact absurd hy (by simp [Arith.le, XF.le])
    | pinf => exact absurd hy (by simp [Arith.le, XF.le])
    | ninf => exact ⟨trivial, by simp [Arith.add, XF.add], by simp [Arith.add, XF.add], rfl⟩
    | fin b =>
      simp only [xf_le, decide_eq_true_eq] at hy
      have hle : XF.le (XF.round (a + b) : XF R) (XF.round a) = true := round_mono (by linarith)
      have ha : (XF.round a : XF R) = .fin a := hx
      rw [ha] at hle
      show (XF.round (a + b) : XF R).IsDouble ∧ (XF.round (a + b) : XF R) ≠ _ ∧ (XF.round (a + b) : XF R) ≠ _ ∧
        XF.le (XF.round (a + b) : XF R) _ = true
      refine ⟨round_isDouble _, ?_, ?_, hle⟩
      · intro h; rw [h] at hle; exact absurd hle (by simp [XF.le])
      · intro h; rw [h] at hle; exact absurd hle (by simp [XF.le])

theorem grid_nonpos {lo hi res : XF R} (hlo : lo.IsDouble) (hlo' : lo ≠ .pinf)
    (hres : Arith.le res (.fin 0) = true) (hle : Arith.le lo hi = true) (n : ℕ) :
    Arith.le (gridPt lo res n) hi = true := by
  have hnan : ∀ x : XF R, Arith.le x hi = true → x ≠ .nan := by
    rintro _ h rfl
    exact absurd h (by simp [Arith.le, XF.le])
  induction n generalizing lo with
  | zero => exact hle
  | succ n ih =>
    obtain ⟨h1, h2, _, h4⟩ := add_nonpos hlo hlo' (hnan lo hle) hres
    exact ih h1 h2 (xf_le_trans h4 hle)

/-- **C45** (any rounding): with a resolution that is not positive and a non-empty range, no call returns,
whatever the functions and the data.  (Excluded: an infinite `min_lag`.) -/
theorem C45_never_returns (a : AbsFn) (d : DS (XF R)) (hd : Constructed d) (g : LagArgs (XF R))
    (sel wt : String) (c0 : Corr (XF R)) (hc : Corr.new d = .ok c0)
    (hlo : (g.minLag.getD c0.minLag).IsDouble) (hlo' : g.minLag.getD c0.minLag ≠ .pinf)
    (hres : Arith.le (g.lagRes.getD c0.lagRes) (.fin 0) = true)
    (hle : Arith.le (g.minLag.getD c0.minLag) (g.maxLag.getD c0.maxLag) = true)
    (r : AcResult (XF R)) : autocorrelation a d g sel wt ≠ .ok r := by
  intro hr
  obtain ⟨m, hg, _⟩ := result_lags hd.wf hr
  obtain ⟨n, L, _, _, _, hcr⟩ := autocorrelation_ok hd.wf hr
  obtain ⟨n', _, rfl, _⟩ := corrNew_good hd.wf hc
  have e1 : r.corr.minLag = g.minLag.getD (Arith.neg (lastD d.normT)) := by rw [hcr, setUp_fields]; rfl
  have e2 : r.corr.maxLag = g.maxLag.getD (lastD d.normT) := by rw [hcr, setUp_fields]; rfl
  have e3 : r.corr.lagRes = g.lagRes.getD (findMinDiff d.normT) := by rw [hcr, setUp_fields]; rfl
  rw [e1, e2, e3] at hg
  have := grid_nonpos (lo := g.minLag.getD (Arith.neg (lastD d.normT))) (hi := g.maxLag.getD (lastD d.normT))
    (res := g.lagRes.getD (findMinDiff d.normT)) hlo hlo' hres hle m
  rw [hg.2] at this
  simp at this

/-- **C45** (any rounding): with natural selection the call then writes outside its buffers. -/
theorem C45_overflow (d : DS (XF R)) (hd : Constructed d) (g : LagArgs (XF R))
    (wt : String) (hw : KnownWeight wt) (c0 : Corr (XF R)) (hc : Corr.new d = .ok c0)
    (hlo : (g.minLag.getD c0.minLag).IsDouble) (hlo' : g.minLag.getD c0.minLag ≠ .pinf)
    (hres : Arith.le (g.lagRes.getD c0.lagRes) (.fin 0) = true)
    (hle : Arith.le (g.minLag.getD c0.minLag) (g.maxLag.getD c0.maxLag) = true) :
    autocorrelation .fabs d g "natural" wt = .ub := by
  rw [C21_safe_iff_partial d hd g wt hw c0 hc]
  rintro ⟨m, hg, _⟩
  have := grid_nonpos hlo hlo' hres hle m
  rw [hg.2] at this
  simp at this

example : ((mkFlat (q [0, 1, 3]) (q [1, 2, 4])).bind fun d =>
    (autocorrelation .fabs d { lagRes := some (.fin 0) }).bind fun r => .ok r.lags) = .ub := by
  decide +kernel

end rounded

end Sacf
