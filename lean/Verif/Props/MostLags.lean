import Verif.Props.LagCount
import Verif.Props.OrderNoticed
import Verif.Props.Error64

/-!
# The most lags a call can return (C121)
-/

set_option linter.unusedSectionVars false

namespace Sacf

section lawfree
variable {F : Type} [Arith F]

theorem lagList_length {lo res : F} {m : ℕ} {l : List F} (h : IsLagList lo res m l) : l.length = lagTotal lo res m := by
  classical
  unfold lagTotal
  rcases h with ⟨hs, rfl⟩ | ⟨i, hi, h1, h2, _, rfl⟩
  · rw [if_neg hs]
    simp
  · rw [if_pos ⟨i, hi, h1, h2⟩]
    simp
    omega

/-- natural selection with lags that fit: the call returns, with as many lags as are due -/
theorem natural_of_fit {d : DS F} (hd : Constructed d) {g : LagArgs F} {wt : String} (hw : KnownWeight wt) {c0 : Corr F} (hc : Corr.new d = .ok c0) {m : ℕ}
    (hm : GridCount (g.minLag.getD c0.minLag) (g.maxLag.getD c0.maxLag) (g.lagRes.getD c0.lagRes) m) (hm0 : 0 < m)
    (hfit : lagTotal (g.minLag.getD c0.minLag) (g.lagRes.getD c0.lagRes) m ≤ c0.lagTimeseries.length) :
    ∃ r, autocorrelation .fabs d g "natural" wt = .ok r ∧ r.lags.length = lagTotal (g.minLag.getD c0.minLag) (g.lagRes.getD c0.lagRes) m := by
  obtain ⟨r, hr⟩ : ∃ r, autocorrelation .fabs d g "natural" wt = .ok r := by
    obtain ⟨n, hn, rfl, _⟩ := corrNew_good hd.wf hc
    obtain ⟨c', _, he⟩ := autocorrelation_eq .fabs hd.wf g "natural" wt
    simp only [Corr.fresh, Corr.lagTimeseries, List.length_replicate] at hm hfit
    rw [he, acPlan, hn]
    simp only [Res.ok_bind]
    have hle := lags_fit_iff.2 ⟨m, hm, hfit⟩
    rcases planRun_natural hd.wf.ne hw (g.alpha.getD d.tMedian) (g.minLag.getD (Arith.neg (lastD d.normT))) (g.maxLag.getD (lastD d.normT))
      (g.lagRes.getD (findMinDiff d.normT)) n with ⟨_, L, hL, hLm⟩ | ⟨hgt, _⟩
    · rw [hL]
      have hne : L ≠ [] := by
        rintro rfl
        have h0 : Arith.le (g.minLag.getD (Arith.neg (lastD d.normT))) (g.maxLag.getD (lastD d.normT)) = true := hm.1 0 hm0
        rw [lagsUpTo, if_pos h0] at hLm
        split at hLm
        · simp at hLm
        · split at hLm <;> simp at hLm
      have hN : 0 < d.N := by
        obtain ⟨_, _, _, N, hN, hb⟩ := hd.built
        rw [hb.hN]; exact hN
      simp only [Res.ok_bind]
      rw [if_neg (by simp [hne])]
      simp only [Res.ok_bind]
      unfold corrOut
      split
      · exact ⟨_, rfl⟩
      · cases hr : (List.range d.N).map (d.acRow L) with
        | nil =>
          have := congrArg List.length hr
          simp at this; omega
        | cons row rows => exact ⟨_, rfl⟩
    · omega
  refine ⟨r, hr, ?_⟩
  obtain ⟨m', hg', hl⟩ := result_lags hd.wf hr
  have hov := C15_overrides .fabs d hd g "natural" wt r hr c0 hc
  rw [hov.1, hov.2.1, hov.2.2.1] at hg'
  rw [hov.2.1, hov.2.2.1] at hl
  have := hg'.unique hm
  subst this
  exact lagList_length hl

end lawfree

section exact
variable {K : Type} [Field K] [LinearOrder K] [IsStrictOrderedRing K] [FloorRing K] {dm : K} {f32 ex : K → K}

/-- **C121** (exact arithmetic): whatever its arguments, no call returns more than `⌊2S/δ⌋ + 3` lags, `S` the span of the times and `δ` their smallest gap. -/
theorem C121_bound (a : AbsFn) (d : DS (Exact dm f32 ex)) (hd : Constructed d) (M : ℕ) (t : ℕ → K) (ht : d.timeseries = samples M t) (hM : 2 ≤ M)
    (hinc : Increasing M t) (hspan : t (M - 1) - t 0 ≤ dm) (δ : K) (hδ : IsMinGap M t δ) (g : LagArgs (Exact dm f32 ex)) (sel wt : String)
    (r : AcResult (Exact dm f32 ex)) (hr : autocorrelation a d g sel wt = .ok r) : (r.lags.length : ℤ) ≤ ⌊2 * (t (M - 1) - t 0) / δ⌋ + 3 := by
  obtain ⟨n, hs, hn⟩ := lags_le_slots hd.wf hr
  obtain ⟨c, hc⟩ : ∃ c, Corr.new d = .ok c := by
    unfold autocorrelation at hr
    obtain ⟨c, hc, _⟩ := Res.bind_eq_ok.1 hr
    exact ⟨c, hc⟩
  have h16 := C16_increasing_partial d hd M t ht hM hinc hspan δ hδ
  obtain ⟨c', hc', hlen⟩ := h16.1 (by
    by_contra hcon
    have := h16.2 (not_lt.1 hcon)
    rw [hc] at this
    cases this)
  obtain ⟨n', hs', rfl, _⟩ := corrNew_good hd.wf hc'
  rw [hs] at hs'
  cases hs'
  simp only [Corr.fresh, Corr.lagTimeseries, List.length_replicate] at hlen
  omega

/-- the grid of `q + 2` points between `-S` and `S` that misses zero -/
theorem quarter_grid {S : K} (hS : 0 < S) (q : ℕ) :
    GridCount (.fin (-S) : Exact dm f32 ex) (.fin S) (.fin (2 * S / (q + 3 / 2))) (q + 2) ∧
    lagTotal (.fin (-S) : Exact dm f32 ex) (.fin (2 * S / (q + 3 / 2))) (q + 2) = q + 3 := by
  have hq : (0 : K) < (q : K) + 3 / 2 := by positivity
  have hres : 0 < 2 * S / ((q : K) + 3 / 2) := by positivity
  constructor
  · have h := gridCount_floor (dm := dm) (f32 := f32) (ex := ex) (lo := -S) (hi := S) hres
    have e : ⌊(S - -S) / (2 * S / ((q : K) + 3 / 2))⌋ = q + 1 := by
      have : (S - -S) / (2 * S / ((q : K) + 3 / 2)) = q + 3 / 2 := by field_simp; ring
      rw [this, Int.floor_eq_iff]
      push_cast
      constructor <;> linarith
    rw [e] at h
    exact h
  · classical
    unfold lagTotal
    rw [if_pos]
    refine ⟨q + 1, by omega, ?_, ?_⟩
    · rw [gridPt_exact]
      refine decide_eq_true ?_
      have h1 : ((q + 1 : ℕ) : K) * (2 * S / (q + 3 / 2)) = S * ((2 * q + 2) / (q + 3 / 2)) := by push_cast; field_simp
      have h2 : 1 < (2 * (q : K) + 2) / (q + 3 / 2) := by
        rw [lt_div_iff₀ hq]
        have : (0 : K) ≤ q := Nat.cast_nonneg q
        linarith
      rw [h1]
      nlinarith
    · intro i _
      rw [gridPt_exact]
      refine decide_eq_false fun h => ?_
      have h1 : (i : K) * (2 * S / (q + 3 / 2)) = S := by linarith
      have h2 : (i : K) * 2 = q + 3 / 2 := by
        field_simp at h1
        linarith
      have h3 : (4 * i : K) = 2 * q + 3 := by linarith
      have h4 : 4 * i = 2 * q + 3 := by exact_mod_cast h3
      omega

/-- **C121** (exact arithmetic): the bound is attained for all increasing times, by the default range and a resolution a little finer than the default; with one that is
finer still the call writes outside the memory allocated. -/
theorem C121_attained (d : DS (Exact dm f32 ex)) (hd : Constructed d) (M : ℕ) (t : ℕ → K) (ht : d.timeseries = samples M t) (hM : 2 ≤ M)
    (hinc : Increasing M t) (hspan : t (M - 1) - t 0 ≤ dm) (δ : K) (hδ : IsMinGap M t δ) (q : ℕ) (hq : ⌊2 * (t (M - 1) - t 0) / δ⌋ = q) (hint : q + 3 < 2 ^ 31)
    (alpha : Option (Exact dm f32 ex)) (wt : String) (hw : KnownWeight wt) :
    (∃ r, autocorrelation .fabs d ⟨none, none, some (.fin (2 * (t (M - 1) - t 0) / (q + 3 / 2))), alpha⟩ "natural" wt = .ok r ∧ r.lags.length = q + 3) ∧
    autocorrelation .fabs d ⟨none, none, some (.fin (2 * (t (M - 1) - t 0) / (q + 5 / 2))), alpha⟩ "natural" wt = .ub := by
  have hS : 0 < t (M - 1) - t 0 := by
    have := hinc 0 (M - 1) (by omega) (by omega)
    linarith
  obtain ⟨c, hc, hlen⟩ := (C16_increasing_partial d hd M t ht hM hinc hspan δ hδ).1 (by rw [hq]; exact_mod_cast hint)
  rw [hq] at hlen
  have hlen : c.lagTimeseries.length = q + 3 := by exact_mod_cast hlen
  obtain ⟨hmax, hmin, _⟩ := C15_defaults d hd M t ht hM hinc hspan c hc
  constructor
  · obtain ⟨h1, h2⟩ := quarter_grid (dm := dm) (f32 := f32) (ex := ex) hS q
    obtain ⟨r, hr, hl⟩ := natural_of_fit hd (g := ⟨none, none, some (.fin (2 * (t (M - 1) - t 0) / (q + 3 / 2))), alpha⟩) hw hc (m := q + 2)
      (by simp only [Option.getD_none, Option.getD_some, hmax, hmin]; exact h1) (by omega)
      (by simp only [Option.getD_none, Option.getD_some, hmin, hlen]; rw [h2])
    refine ⟨r, hr, hl.trans ?_⟩
    simp only [Option.getD_none, Option.getD_some, hmin]
    exact h2
  · obtain ⟨h1, h2⟩ := quarter_grid (dm := dm) (f32 := f32) (ex := ex) hS (q + 1)
    have e : ((q + 1 : ℕ) : K) + 3 / 2 = q + 5 / 2 := by push_cast; ring
    rw [e] at h1 h2
    rw [C21_safe_iff_partial d hd _ wt hw c hc]
    simp only [Option.getD_none, Option.getD_some, hmax, hmin, hlen]
    rintro ⟨m, hm, hle⟩
    have := hm.unique h1
    subst this
    rw [h2] at hle
    omega

end exact

/-- **C121 in binary64**, for time stamps that are multiples of a power of two: the bound is the same. -/
theorem C121_binary64 {ex : ℚ → ℚ} {fu : Bool} {M : ℕ} {τ : ℕ → ℤ} {e : ℤ} {d : DS (D64 ex fu)} (ht : Times64 d M τ e) (hM : 2 ≤ M) (δ : ℤ)
    (hδ : IsMinGapZ M τ δ) (hB : τ (M - 1) - τ 0 < 2 ^ 52) (a : AbsFn) (g : LagArgs (D64 ex fu)) (sel wt : String) (r : AcResult (D64 ex fu))
    (hr : autocorrelation a d g sel wt = .ok r) : (r.lags.length : ℤ) ≤ 2 * (τ (M - 1) - τ 0) / δ + 3 := by
  have h := exactUnit64 (ex := ex) (fu := fu) e ht.emin ht.emax
  have hle : ∀ i < M, 0 ≤ τ i - τ 0 ∧ τ i - τ 0 ≤ τ (M - 1) - τ 0 := fun i hi => by
    have a1 := ht.inc.le (Nat.zero_le i) hi
    have a2 := ht.inc.le (show i ≤ M - 1 by omega) (by omega)
    omega
  obtain ⟨hM0, hnt⟩ := ticks_normT h ht.built ht.times (fun i hi => by
    have := hle i hi
    rw [abs_of_nonneg this.1]; omega)
  have hu : IncreasingZ M fun i => τ i - τ 0 := fun i j hij hj => by have := ht.inc i j hij hj; simp only; omega
  have hgap : IsMinGapZ M (fun i => τ i - τ 0) δ := by
    obtain ⟨⟨i, j, hij, hj, he⟩, h2⟩ := hδ
    exact ⟨⟨i, j, hij, hj, by simp only; omega⟩, fun i j hij hj => by have := h2 i j hij hj; simp only; omega⟩
  have hmin : findMinDiff d.normT = .fin (δ * pow2 e) := by
    rw [hnt]
    exact findMinDiff_ticks h hM hu (by omega) hgap
  have hδ0 : 0 < δ := by
    obtain ⟨⟨i, j, hij, hj, he⟩, _⟩ := hδ
    have := ht.inc i j hij hj; omega
  have hδT : δ ≤ τ (M - 1) - τ 0 := hδ.2 0 (M - 1) (by omega) (by omega)
  have hlast : lastD d.normT = .fin (((τ (M - 1) - τ 0 : ℤ) : ℚ) * pow2 e) := by rw [hnt, samples_last hM0]
  generalize hT : τ (M - 1) - τ 0 = T at *
  obtain ⟨n, hs, hn⟩ := lags_le_slots ht.built.wf hr
  have hneg : Arith.neg (lastD d.normT) = .fin (((-T : ℤ) : ℚ) * pow2 e) := by rw [hlast, xf_neg]; push_cast; rw [neg_mul]
  unfold slotsOf at hs
  rw [hneg, hlast, hmin] at hs
  unfold lagSlots at hs
  have hsub : Arith.sub (.fin (T * pow2 e) : D64 ex fu) (.fin (((-T : ℤ) : ℚ) * pow2 e)) = .fin (((2 * T : ℤ) : ℚ) * pow2 e) := by
    rw [tick_sub h (by rw [abs_le]; constructor <;> omega)]
    congr 3; ring
  have hg : pow2 e ≠ 0 := (pow2_pos e).ne'
  have hδK : (0 : ℚ) < δ := by exact_mod_cast hδ0
  have hδ1 : (1 : ℚ) ≤ δ := by exact_mod_cast hδ0
  have hδT' : (δ : ℚ) ≤ T := by exact_mod_cast hδT
  have hT1 : (T : ℚ) + 1 ≤ 2 ^ 52 := by exact_mod_cast hB
  have hx0 : (0 : ℚ) ≤ 2 * T / δ := div_nonneg (by linarith) hδK.le
  have hx1 : (2 : ℚ) * T / δ ≤ 2 ^ 53 := by
    rw [div_le_iff₀ hδK]
    nlinarith
  have hbig : (2 : ℚ) ^ 53 ≤ Sacf.big := by
    unfold Sacf.big
    have : (2 : ℚ) ≤ pow2 971 := by
      have h2 : pow2 1 = 2 := by decide +kernel
      rw [← h2]; exact pow2_mono (by norm_num)
    nlinarith
  obtain ⟨z, hz, hze⟩ := (accurate64 (ex := ex) (fu := fu)).round (2 * T / δ) (by rw [abs_of_nonneg hx0]; linarith)
  have hdiv : Arith.div (.fin (((2 * T : ℤ) : ℚ) * pow2 e) : D64 ex fu) (.fin (δ * pow2 e)) = .fin z := by
    show (if (δ : ℚ) * pow2 e = 0 then _ else XF.round _) = _
    rw [if_neg (mul_ne_zero hδK.ne' hg), ← hz]
    congr 1
    push_cast
    field_simp
  rw [hsub, hdiv, toInt_floor64] at hs
  simp only at hs
  have hzq : ⌊z⌋ ≤ 2 * T / δ := by
    rw [← Int.lt_add_one_iff, Int.floor_lt]
    have h1 : 2 * T + 1 ≤ (2 * T / δ + 1) * δ := by
      have := Int.lt_ediv_add_one_mul_self (2 * T) hδ0
      omega
    have h1 : (2 * T + 1 : ℚ) ≤ ((2 * T / δ + 1 : ℤ) : ℚ) * δ := by exact_mod_cast h1
    rw [abs_of_nonneg hx0] at hze
    have h2 := (abs_le.1 hze).2
    have h3 : z * δ ≤ 2 * T + pow2 (-53) * (2 * T) + pow2 (-1075) * δ := by
      have := mul_le_mul_of_nonneg_right h2 hδK.le
      have e1 : (2 * (T : ℚ) / δ) * δ = 2 * T := div_mul_cancel₀ _ hδK.ne'
      have e2 : (z - 2 * T / δ) * δ = z * δ - 2 * T := by rw [sub_mul, e1]
      have e3 : (pow2 (-53) * (2 * T / δ) + pow2 (-1075)) * δ = pow2 (-53) * (2 * T) + pow2 (-1075) * δ := by rw [add_mul, mul_assoc, e1]
      linarith
    have h4 : pow2 (-1075) * δ ≤ pow2 (-110) * 2 ^ 52 :=
      mul_le_mul (pow2_mono (by norm_num)) (by linarith) hδK.le (pow2_pos _).le
    have h5 : pow2 (-53) * (2 * T) ≤ pow2 (-53) * (2 ^ 53 - 2) := mul_le_mul_of_nonneg_left (by linarith) (pow2_pos _).le
    have h6 : pow2 (-53) * (2 ^ 53 - 2) + pow2 (-110) * 2 ^ 52 < 1 := by decide +kernel
    have h7 : z * δ < ((2 * T / δ + 1 : ℤ) : ℚ) * δ := by linarith
    exact lt_of_mul_lt_mul_right h7 hδK.le
  split at hs
  · split at hs
    · cases hs
      omega
    · cases hs
  · cases hs

end Sacf
