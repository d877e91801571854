import Verif.Lemmas.Exact
import Verif.Spec.Rational

/-!
# Statistics and default parameters (C04–C07, C15, C16)
-/

set_option linter.unusedSectionVars false
set_option linter.unusedSimpArgs false

namespace Sacf

open Finset

variable {K : Type} [Field K] [LinearOrder K] [IsStrictOrderedRing K] [FloorRing K]
variable {dm : K} {f32 ex : K → K}

/-! ## C04 -/

/-- **C04** (exact arithmetic), for a data structure built in any way whose times are the finite numbers
`t 0, …, t (M-1)`: the normalised times start at 0 and keep all differences. -/
theorem C04_normalised_times (d : DS (Exact dm f32 ex)) (hd : Constructed d) (M : ℕ) (t : ℕ → K)
    (ht : d.timeseries = samples M t) :
    ∃ u, d.normalisedTimeseries = samples M u ∧ u 0 = 0 ∧ (∀ i j, u j - u i = t j - t i) ∧
      (Increasing M t → Increasing M u) := by
  obtain ⟨_, h, _⟩ := built_times hd ht
  refine ⟨fun i => t i - t 0, h, by simp, fun i j => by ring, fun h => h.sub_const _⟩

/-- **C04** (exact arithmetic): shifting the time origin changes neither the normalised times nor the median. -/
theorem C04_shift (d d' : DS (Exact dm f32 ex)) (hd : Constructed d) (hd' : Constructed d') (M : ℕ)
    (t : ℕ → K) (c : K) (ht : d.timeseries = samples M t) (ht' : d'.timeseries = samples M fun i => t i + c) :
    d'.normalisedTimeseries = d.normalisedTimeseries ∧ d'.medianTime = d.medianTime := by
  obtain ⟨_, h, _⟩ := built_times hd ht
  obtain ⟨_, h', _⟩ := built_times hd' ht'
  have e : d'.normT = d.normT := by rw [h, h']; simp
  refine ⟨e, ?_⟩
  obtain ⟨_, _, _, _, _, hb⟩ := hd.built
  obtain ⟨_, _, _, _, _, hb'⟩ := hd'.built
  have m := hb.med
  have m' := hb'.med
  rw [e, m] at m'
  simp at m'
  exact m'.symm

/-- **C04** (any rounding, in particular binary64): the first normalised time is 0, the length is kept, and
non-decreasing times stay non-decreasing. -/
theorem C04_rounded {R : Rnd K} (d : DS (XF R)) (hd : Constructed d) (M : ℕ) (t : ℕ → K)
    (ht : d.timeseries = samples M t) :
    d.normalisedTimeseries.length = d.timeseries.length ∧
    d.normalisedTimeseries[0]? = some (.fin 0) ∧
    ((∀ i j, i ≤ j → j < M → t i ≤ t j) →
      d.normalisedTimeseries.Pairwise fun a b => Arith.le a b = true) := by
  obtain ⟨t', data, err, N, hN, hb⟩ := hd.built
  have e : t' = samples M t := by rw [← hb.ht]; exact ht
  subst e
  have hM : 0 < M := by
    have := List.length_pos_iff.2 hb.tne
    simpa using this
  have hn : d.normT = (List.range M).map fun i => (XF.round (t i - t 0) : XF R) := by
    rw [hb.normT, samples_head]
    unfold samples
    rw [List.map_map]
    apply List.map_congr_left
    intro i _
    show XF.round (t i + -t 0) = _
    rw [sub_eq_add_neg]
  unfold DS.normalisedTimeseries
  rw [hn]
  refine ⟨by simp [ht], by simp [hM, round_zero], fun hmono => ?_⟩
  rw [List.pairwise_map]
  have := List.pairwise_lt_range (n := M)
  refine List.Pairwise.imp_of_mem ?_ this
  intro i j hi hj hij
  apply round_mono
  have := hmono i j hij.le (List.mem_range.1 hj)
  linarith

example : ((mkFlat (q [5, 7, 9]) (q [1, 1, 2])).bind fun d => .ok (d.timeseries, d.normalisedTimeseries))
    = .ok (samples 3 (fun i : ℕ => (2 * i + 5 : ℚ)), q [0, 2, 4]) := by decide +kernel

/-! ## C05 -/

theorem obs_length {R : Rnd K} (M : ℕ) (x : ℕ → Option K) : (obs M x : List (XF R)).length = M := by simp [obs]

/-- number of values present -/
def present (M : ℕ) (x : ℕ → Option K) : ℕ := ((range M).filter fun i => (x i).isSome).card

theorem meanOf_obs (M : ℕ) (x : ℕ → Option K) (h : present M x ≠ 0) :
    meanOf (obs M x : List (Exact dm f32 ex)) = .fin ((∑ i ∈ range M, (x i).getD 0) / present M x) := by
  have key : ((obs M x : List (Exact dm f32 ex)).filter fun d => !Arith.isNaN d).length = present M x ∧
      ((obs M x : List (Exact dm f32 ex)).filter fun d => !Arith.isNaN d).foldl Arith.add (.fin 0)
        = .fin (∑ i ∈ range M, (x i).getD 0) := by
    clear h
    induction M with
    | zero => simp [obs, present]
    | succ M ih =>
      have hp : present (M + 1) x = present M x + if (x M).isSome then 1 else 0 := by
        unfold present
        rw [Finset.range_add_one, Finset.filter_insert]
        split
        · rw [Finset.card_insert_of_notMem (by simp)]
        · simp
      unfold obs at *
      rw [List.range_succ, List.map_append, List.filter_append, List.length_append, List.foldl_append,
        ih.1, ih.2, hp, Finset.sum_range_succ]
      cases hx : x M with
      | none => simp [hx]
      | some v => simp [hx]
  unfold meanOf
  simp only [xf_zero, key.1, key.2, ex_ofInt]
  rw [ex_div]
  · simp
  · have : (present M x : K) ≠ 0 := by exact_mod_cast h
    simpa using this

/-- **C05** (exact arithmetic), for a data structure built in any way, with missing (NaN) values: the mean of
row `j` is that of its non-NaN values; the normalised row is the row minus the mean, NaN where the value is
missing; its non-NaN entries sum to 0. -/
theorem C05_means (d : DS (Exact dm f32 ex)) (hd : Constructed d) (M : ℕ) (x : ℕ → Option K) (j : ℕ)
    (hrow : d.HasRow j (obs M x)) (hp : present M x ≠ 0) :
    ∃ (μ : K) (y : ℕ → Option K) (rows : List (List (Exact dm f32 ex))),
      d.meanData[j]? = some (.fin μ) ∧
      μ * present M x = ∑ i ∈ range M, (x i).getD 0 ∧
      d.normData2d = .ok rows ∧ rows[j]? = some (obs M y) ∧
      (∀ i < M, y i = (x i).map fun v => v - μ) ∧
      ∑ i ∈ range M, (y i).getD 0 = 0 := by
  obtain ⟨t, data, err, N, _, hb⟩ := hd.built
  obtain ⟨hj, hrow⟩ := hb.row hrow
  have hp' : (present M x : K) ≠ 0 := by exact_mod_cast hp
  set μ : K := (∑ i ∈ range M, (x i).getD 0) / present M x with hμ
  have hmean : meanOf (rowOf data t.length j) = (.fin μ : Exact dm f32 ex) := by
    rw [hrow, meanOf_obs _ _ hp]
  have hμs : μ * present M x = ∑ i ∈ range M, (x i).getD 0 := by
    rw [hμ]; field_simp
  refine ⟨μ, fun i => (x i).map fun v => v - μ, _, ?_, hμs, unflatten_ok hd.wf.norm_len, ?_, fun _ _ => rfl, ?_⟩
  · show d.dataMean[j]? = _
    rw [hb.mean]
    simp only [List.getElem?_map, List.getElem?_range hj, Option.map_some]
    rw [hmean]
  · simp only [List.getElem?_map, hb.hN, List.getElem?_range hj, Option.map_some]
    have := hb.nrow hj
    unfold DS.nrow at this
    rw [this, hmean, hrow]
    unfold obs
    rw [List.map_map]
    congr 1
    apply List.map_congr_left
    intro i _
    simp only [Function.comp]
    cases x i with
    | none => rfl
    | some v => simp
  · have : ∀ i ∈ range M, ((x i).map fun v => v - μ).getD 0
        = (x i).getD 0 - (if (x i).isSome then μ else 0) := by
      intro i _
      cases x i <;> simp
    rw [Finset.sum_congr rfl this, Finset.sum_sub_distrib, ← hμs]
    have : ∑ i ∈ range M, (if (x i).isSome then μ else 0) = μ * present M x := by
      rw [← Finset.sum_filter, Finset.sum_const]
      unfold present
      rw [nsmul_eq_mul]; ring
    rw [this]; ring

/-- **C05**: a row of NaNs only has mean NaN. -/
theorem C05_all_missing (d : DS (Exact dm f32 ex)) (hd : Constructed d) (M j : ℕ)
    (hrow : d.HasRow j (List.replicate M .nan)) : d.meanData[j]? = some .nan := by
  obtain ⟨t, data, err, N, _, hb⟩ := hd.built
  obtain ⟨hj, hrow⟩ := hb.row hrow
  show d.dataMean[j]? = _
  rw [hb.mean]
  simp only [List.getElem?_map, List.getElem?_range hj, Option.map_some]
  rw [hrow]
  unfold meanOf
  have : (List.replicate M (.nan : Exact dm f32 ex)).filter (fun d => !Arith.isNaN d) = [] := by
    rw [List.filter_eq_nil_iff]
    intro a ha
    rw [List.eq_of_mem_replicate ha]; simp
  rw [this]
  show some (XF.div (.fin 0) (.fin ((0 : ℤ) : K))) = _
  simp [XF.div, XF.infSign]

example : ((mkTable (q [0, 1, 3]) [[.fin 1, .nan, .fin 4], q [4, 0, 5]]).bind fun d =>
    .ok (d.meanData, d.normData2d)) = .ok (q [5/2, 3], .ok [[.fin (-3/2), .nan, .fin (3/2)], q [1, -3, 2]]) := by
  decide +kernel

/-! ## C06 -/

/-- **C06** (exact arithmetic): `median_time` is a median of the normalised times, and lies between 0 and the
time span; it is positive as soon as there are two times. -/
theorem C06_median (d : DS (Exact dm f32 ex)) (hd : Constructed d) (M : ℕ) (t : ℕ → K)
    (ht : d.timeseries = samples M t) (hinc : Increasing M t) :
    ∃ m u, d.medianTime = .fin m ∧ d.normalisedTimeseries = samples M u ∧
      M ≤ 2 * ((range M).filter fun i => u i ≤ m).card ∧
      M ≤ 2 * ((range M).filter fun i => m ≤ u i).card ∧
      0 ≤ m ∧ m ≤ t (M - 1) - t 0 ∧ (2 ≤ M → 0 < m) := by
  obtain ⟨hM, hn, _⟩ := built_times hd ht
  obtain ⟨_, _, _, _, _, hb⟩ := hd.built
  have hmed := hb.med
  rw [hn] at hmed
  set u : ℕ → K := fun i => t i - t 0 with hu
  have hui : Increasing M u := hinc.sub_const _
  have hu0 : u 0 = 0 := by simp [hu]
  have lower : ∀ (m : K) (a : ℕ), a ≤ M → (∀ i < a, u i ≤ m) → a ≤ ((range M).filter fun i => u i ≤ m).card := by
    intro m a ha h
    calc a = (range a).card := by simp
      _ ≤ _ := Finset.card_le_card (by
        intro i hi
        simp at hi ⊢
        exact ⟨by omega, h i hi⟩)
  have upper : ∀ (m : K) (a : ℕ), a ≤ M → (∀ i, a ≤ i → i < M → m ≤ u i) →
      M - a ≤ ((range M).filter fun i => m ≤ u i).card := by
    intro m a ha h
    calc M - a = ((range M) \ (range a)).card := by
            rw [Finset.card_sdiff_of_subset (by simpa using ha)]; simp
      _ ≤ _ := Finset.card_le_card (by
        intro i hi
        simp at hi ⊢
        exact ⟨by omega, h i hi.2 hi.1⟩)
  unfold settMedian at hmed
  simp only [samples_length] at hmed
  by_cases hev : M % 2 = 0
  · rw [if_pos hev] at hmed
    have hr : ∀ i < M, rawGet (samples M u : List (Exact dm f32 ex)) i = .ok (.fin (u i)) := by
      intro i hi; rw [rawGet_eq_ok, samples_getElem? hi]
    rw [hr _ (by omega), hr _ (by omega)] at hmed
    simp only [Res.ok_bind, ex_add, xf_two] at hmed
    rw [ex_div two_ne_zero] at hmed
    simp only [Res.ok.injEq] at hmed
    have hlt := hui (M / 2 - 1) (M / 2) (by omega) (by omega)
    have h0 := hui.le (Nat.zero_le (M / 2 - 1)) (by omega)
    have h1 := hui.le (show M / 2 ≤ M - 1 by omega) (by omega)
    have hu1 : u (M - 1) = t (M - 1) - t 0 := rfl
    set A : K := u (M / 2 - 1) with hA
    set B : K := u (M / 2) with hB
    have hlo : A ≤ (A + B) / 2 := by linarith
    have hhi : (A + B) / 2 ≤ B := by linarith
    refine ⟨(A + B) / 2, u, hmed.symm, hn, ?_, ?_, by linarith, by linarith, fun _ => by linarith⟩
    · have := lower ((A + B) / 2) (M / 2) (by omega) (fun i hi => by
        have := hui.le (show i ≤ M / 2 - 1 by omega) (by omega); linarith)
      omega
    · have := upper ((A + B) / 2) (M / 2) (by omega) (fun i hi hiM => by
        have := hui.le hi hiM; linarith)
      omega
  · rw [if_neg hev, rawGet_eq_ok, samples_getElem? (by omega)] at hmed
    simp only [Option.some.injEq] at hmed
    have h0 := hui.le (Nat.zero_le (M / 2)) (by omega)
    have h1 := hui.le (show M / 2 ≤ M - 1 by omega) (by omega)
    have hu1 : u (M - 1) = t (M - 1) - t 0 := rfl
    refine ⟨u (M / 2), u, hmed.symm, hn, ?_, ?_, by linarith, by linarith, fun h2 => ?_⟩
    · have := lower (u (M / 2)) (M / 2 + 1) (by omega) (fun i hi => hui.le (by omega) (by omega))
      omega
    · have := upper (u (M / 2)) (M / 2) (by omega) (fun i hi hiM => hui.le hi hiM)
      omega
    · have := hui 0 (M / 2) (by omega) (by omega)
      linarith

example : ((mkFlat (q [10, 11, 14, 20]) (q [1, 2, 4, 4])).bind fun d => .ok d.medianTime) = .ok (.fin (5/2)) := by
  decide +kernel

/-! ## C07 -/

/-- **C07** (any rounding): for non-decreasing times `max_time` is one of the times and none exceeds it. -/
theorem C07_max_time {R : Rnd K} (d : DS (XF R)) (hd : Constructed d) (M : ℕ) (t : ℕ → K)
    (ht : d.timeseries = samples M t) (hmono : ∀ i j, i ≤ j → j < M → t i ≤ t j) :
    d.maxTime ∈ d.timeseries ∧ ∀ x ∈ d.timeseries, Arith.le x d.maxTime = true := by
  obtain ⟨t', data, err, N, hN, hb⟩ := hd.built
  have e : t' = samples M t := by rw [← hb.ht]; exact ht
  subst e
  have hM : 0 < M := by
    have := List.length_pos_iff.2 hb.tne
    simpa using this
  have hl := hb.tMax
  rw [List.getLast?_eq_getElem?, samples_length, samples_getElem? (by omega)] at hl
  simp only [Option.some.injEq] at hl
  have hmax : d.maxTime = .fin (t (M - 1)) := hl.symm
  rw [ht, hmax]
  refine ⟨samples_mem.2 ⟨M - 1, by omega, rfl⟩, ?_⟩
  intro x hx
  obtain ⟨i, hi, rfl⟩ := samples_mem.1 hx
  simpa using hmono i (M - 1) (by omega) (by omega)

/-- **C07** (any arithmetic): in every case `max_time` is the last entry, whatever the order. -/
theorem C07_last {F : Type} [Arith F] (d : DS F) (hd : Constructed d) :
    d.timeseries.getLast? = some d.maxTime := by
  obtain ⟨t', data, err, N, hN, hb⟩ := hd.built
  have := hb.tMax
  unfold DS.timeseries DS.maxTime
  rw [hb.ht]; exact this

/-- unordered times: not the maximum -/
example : ((mkFlat (q [5, 9, 7]) (q [1, 2, 3])).bind fun d => .ok d.maxTime) = .ok (.fin 7) := by decide +kernel

/-! ## C15 -/

/-- **C15** (exact arithmetic): the default lag parameters of a new correlator. -/
theorem C15_defaults (d : DS (Exact dm f32 ex)) (hd : Constructed d) (M : ℕ) (t : ℕ → K)
    (ht : d.timeseries = samples M t) (hM : 2 ≤ M) (hinc : Increasing M t) (hspan : t (M - 1) - t 0 ≤ dm)
    (c : Corr (Exact dm f32 ex)) (hc : Corr.new d = .ok c) :
    c.maxLag = .fin (t (M - 1) - t 0) ∧ c.minLag = .fin (-(t (M - 1) - t 0)) ∧
    c.alpha = d.medianTime ∧ ∃ δ, c.lagRes = .fin δ ∧ IsMinGap M t δ := by
  obtain ⟨hM0, hn, _⟩ := built_times hd ht
  obtain ⟨n, _, rfl, _⟩ := corrNew_good hd.wf hc
  obtain ⟨δ, h1, h2, _⟩ := findMinDiff_gap (dm := dm) (f32 := f32) (ex := ex) hM (hinc.sub_const (t 0)) (by
    simpa using hspan)
  have hlast : lastD d.normT = .fin (t (M - 1) - t 0) := by rw [hn, samples_last hM0]
  refine ⟨hlast, ?_, rfl, δ, ?_, ?_⟩
  · simp [Corr.fresh, hlast]
  · simp [Corr.fresh, hn, h1]
  · obtain ⟨⟨i, j, hij, hj, he⟩, h3⟩ := h2
    refine ⟨⟨i, j, hij, hj, by linarith⟩, fun i j hij hj => ?_⟩
    have := h3 i j hij hj; linarith

/-- **C15** (any arithmetic): a parameter that is not given keeps its default, a given one replaces exactly
that parameter; in particular the default of one does not depend on the value given for another. -/
theorem C15_overrides {F : Type} [Arith F] (a : AbsFn) (d : DS F) (hd : Constructed d) (g : LagArgs F)
    (sel wt : String) (r : AcResult F) (hr : autocorrelation a d g sel wt = .ok r) (c0 : Corr F)
    (h0 : Corr.new d = .ok c0) :
    r.corr.maxLag = g.maxLag.getD c0.maxLag ∧ r.corr.minLag = g.minLag.getD c0.minLag ∧
    r.corr.lagRes = g.lagRes.getD c0.lagRes ∧ r.corr.alpha = g.alpha.getD c0.alpha := by
  obtain ⟨n', _, rfl, _⟩ := corrNew_good hd.wf h0
  obtain ⟨n, L, _, _, _, hc⟩ := autocorrelation_ok hd.wf hr
  rw [hc, setUp_fields]
  simp [Corr.store, Corr.fresh]

/-- giving `max_lag` alone leaves the range asymmetric -/
example : ((mkFlat (q [0, 1, 3]) (q [1, 2, 4])).bind fun d =>
    (autocorrelation .fabs d { maxLag := some (.fin 1) }).bind fun r => .ok r.lags)
      = .ok (q [-3, -2, -1, 0, 1]) := by decide +kernel

/-! ## C16 -/

/-- **C16** (exact arithmetic), for increasing times: the constructor allocates `⌊2·span/gap⌋ + 3` lag slots, and
is undefined exactly when that number does not fit into an `int`. -/
theorem C16_increasing_partial (d : DS (Exact dm f32 ex)) (hd : Constructed d) (M : ℕ) (t : ℕ → K)
    (ht : d.timeseries = samples M t) (hM : 2 ≤ M) (hinc : Increasing M t) (hspan : t (M - 1) - t 0 ≤ dm)
    (δ : K) (hδ : IsMinGap M t δ) :
    (⌊2 * (t (M - 1) - t 0) / δ⌋ + 3 < 2 ^ 31 →
      ∃ c, Corr.new d = .ok c ∧ (c.lagTimeseries.length : ℤ) = ⌊2 * (t (M - 1) - t 0) / δ⌋ + 3) ∧
    (2 ^ 31 ≤ ⌊2 * (t (M - 1) - t 0) / δ⌋ + 3 → Corr.new d = .ub) := by
  obtain ⟨hM0, hn, _⟩ := built_times hd ht
  obtain ⟨δ', h1, h2, hpos⟩ := findMinDiff_gap (dm := dm) (f32 := f32) (ex := ex) hM (hinc.sub_const (t 0)) (by
    simpa using hspan)
  have h2' : IsMinGap M t δ' := by
    obtain ⟨⟨i, j, hij, hj, he⟩, h3⟩ := h2
    refine ⟨⟨i, j, hij, hj, by linarith⟩, fun i j hij hj => ?_⟩
    have := h3 i j hij hj; linarith
  have := hδ.unique h2'
  subst this
  have hlast : lastD d.normT = .fin (t (M - 1) - t 0) := by rw [hn, samples_last hM0]
  have hT : 0 ≤ t (M - 1) - t 0 := by have := hinc.le (Nat.zero_le (M - 1)) (by omega); linarith
  have hfl : 0 ≤ ⌊2 * (t (M - 1) - t 0) / δ⌋ := Int.floor_nonneg.2 (by positivity)
  have hs : slotsOf d.normT = lagSlots (.fin (t (M - 1) - t 0) : Exact dm f32 ex) (.fin (-(t (M - 1) - t 0))) (.fin δ) := by
    unfold slotsOf
    rw [hlast, hn, h1]; rfl
  rw [slots_exact hpos.ne'] at hs
  rw [corrNew_eq hd.wf]
  constructor
  · intro hlt
    rw [if_pos ⟨by omega, by simpa using hlt⟩, if_pos (by omega)] at hs
    rw [hs]
    refine ⟨_, rfl, ?_⟩
    simp only [Corr.lagTimeseries, Corr.fresh, List.length_replicate]
    omega
  · intro hge
    rw [if_neg (by rintro ⟨_, h⟩; norm_num at hge; omega)] at hs
    rw [hs]; rfl

/-- **C16** (exact arithmetic): a single timestamp gives three slots. -/
theorem C16_single_partial (d : DS (Exact dm f32 ex)) (hd : Constructed d) (t0 : K) (ht : d.timeseries = [.fin t0])
    (hdm : dm ≠ 0) : ∃ c, Corr.new d = .ok c ∧ c.lagTimeseries.length = 3 := by
  obtain ⟨hM0, hn, _⟩ := built_times (M := 1) (t := fun _ => t0) hd (by rw [ht]; rfl)
  have hlast : lastD d.normT = .fin 0 := by rw [hn, samples_last hM0]; simp
  have hs : slotsOf d.normT = lagSlots (.fin 0 : Exact dm f32 ex) (.fin (-0)) (.fin dm) := by
    unfold slotsOf
    rw [hlast, hn]
    rfl
  rw [slots_exact hdm] at hs
  simp at hs
  rw [corrNew_eq hd.wf, hs]
  exact ⟨_, rfl, by simp [Corr.lagTimeseries, Corr.fresh]⟩

/-- **C16 is false of the code**: a repeated timestamp makes the constructor undefined (exact arithmetic, sorted
times, any values). -/
theorem C16_repeated_time (d : DS (Exact dm f32 ex)) (hd : Constructed d) (M : ℕ) (t : ℕ → K)
    (ht : d.timeseries = samples M t) (hmono : ∀ i j, i ≤ j → j < M → t i ≤ t j) (hdm : 0 ≤ dm)
    (i : ℕ) (hi : i + 1 < M) (heq : t i = t (i + 1)) : Corr.new d = .ub := by
  obtain ⟨hM0, hn, _⟩ := built_times hd ht
  obtain ⟨b, h1, h2, h3, h4⟩ := findMinDiff_samples (dm := dm) (f32 := f32) (ex := ex) M (fun i => t i - t 0)
  have hb0 : b = 0 := by
    have hle := h3 i hi
    have hge : 0 ≤ b := by
      rcases h4 with h4 | ⟨i', hi', h4⟩
      · rw [h4]; exact hdm
      · have := hmono i' (i' + 1) (by omega) hi'
        rw [h4]; linarith
    linarith
  subst hb0
  have hlast : lastD d.normT = .fin (t (M - 1) - t 0) := by rw [hn, samples_last hM0]
  rw [corrNew_eq hd.wf]
  unfold slotsOf
  rw [hlast, hn, h1]
  unfold lagSlots
  rw [xf_neg, ex_sub]
  have : ∀ x : K, Arith.toInt (Arith.floor (Arith.div (.fin x : Exact dm f32 ex) (.fin 0))) = none := by
    intro x
    show XF.toInt (XF.floor (XF.div _ _)) = none
    simp only [XF.div, if_true, XF.infSign]
    split
    · rfl
    · split <;> rfl
  rw [this]; rfl

/-- a witness for C16's failure -/
theorem C16_false : ∃ d : DS Q, Constructed d ∧ d.timeseries = q [0, 1, 1, 2] ∧ Corr.new d = .ub :=
  ⟨_, .flat (t := q [0, 1, 1, 2]) (v := q [1, 2, 4, 3]) rfl, by decide +kernel, by decide +kernel⟩

end Sacf
