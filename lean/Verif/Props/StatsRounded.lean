import Verif.Props.LagRounded
import Verif.Props.Rounded
import Verif.Props.Selection

/-!
# Statistics, default parameters and extreme lags in rounded arithmetic (C06, C15, C16, C52)
-/

set_option linter.unusedSectionVars false
set_option linter.unusedSimpArgs false

namespace Sacf

section rounded
variable {K : Type} [Field K] [LinearOrder K] [IsStrictOrderedRing K] [FloorRing K] {R : Rnd K}

theorem lastD_rounded {M : ℕ} (hM : 0 < M) (f : ℕ → XF R) : lastD ((List.range M).map f) = f (M - 1) := by
  unfold lastD
  rw [List.getLastD_eq_getLast?, List.getLast?_eq_getElem?]
  simp [show M - 1 < M by omega]

/-! ## C15 -/

/-- the running minimum is the starting value or one of the differences -/
theorem findMinDiff_go_mem (l : List (XF R)) (acc : XF R) :
    findMinDiff.go acc l = acc ∨
      ∃ i, ∃ (hi : i + 1 < l.length), findMinDiff.go acc l = Arith.sub l[i + 1] l[i] := by
  induction l generalizing acc with
  | nil => exact Or.inl rfl
  | cons x l ih =>
    cases l with
    | nil => exact Or.inl rfl
    | cons y l =>
      rw [findMinDiff.go]
      rcases ih (if Arith.lt (Arith.sub y x) acc then Arith.sub y x else acc) with h | ⟨i, hi, h⟩
      · by_cases hc : Arith.lt (Arith.sub y x) acc = true
        · simp only [hc, if_true] at h ⊢
          exact Or.inr ⟨0, by simp, by simpa using h⟩
        · simp only [hc, Bool.false_eq_true, if_false] at h ⊢
          exact Or.inl h
      · exact Or.inr ⟨i + 1, by simpa using hi, by simpa using h⟩

/-- the running minimum is at most every difference -/
theorem findMinDiff_go_le_all (l : List (XF R)) (acc : XF R) (hacc : acc ≠ .nan) (i : ℕ) (hi : i + 1 < l.length)
    (hn : Arith.sub l[i + 1] l[i] ≠ .nan) : Arith.le (findMinDiff.go acc l) (Arith.sub l[i + 1] l[i]) = true := by
  induction l generalizing acc i with
  | nil => simp at hi
  | cons x l ih =>
    cases l with
    | nil => simp at hi
    | cons y l =>
      rw [findMinDiff.go]
      by_cases hc : Arith.lt (Arith.sub y x) acc = true
      · rw [if_pos hc]
        have hd : Arith.sub y x ≠ .nan := by
          intro e; rw [e] at hc; exact absurd hc (by cases acc <;> exact Bool.false_ne_true)
        cases i with
        | zero => exact findMinDiff_go_le _ _ hd
        | succ i => exact ih _ hd i (by simpa using hi) (by simpa using hn)
      · rw [if_neg hc]
        cases i with
        | zero =>
          refine xf_le_trans (findMinDiff_go_le _ _ hacc) ?_
          have hn : Arith.sub y x ≠ .nan := by simpa using hn
          show Arith.le acc (Arith.sub y x) = true
          simp only [Bool.not_eq_true] at hc
          exact le_of_not_lt hn hacc hc
        | succ i => exact ih _ hacc i (by simpa using hi) (by simpa using hn)

/-- **C15** (any rounding): the defaults of a new correlator on times in order.  The resolution is the smallest computed
difference of adjacent normalised times. -/
theorem C15_rounded (d : DS (XF R)) (hd : Constructed d) (M : ℕ) (t : ℕ → K) (ht : d.timeseries = samples M t)
    (hM : 2 ≤ M) (hinc : ∀ i j, i ≤ j → j < M → t i ≤ t j) (c : Corr (XF R)) (hc : Corr.new d = .ok c)
    (hspan : Arith.le (XF.round (t (M - 1) - t 0)) (.fin R.dblMax : XF R) = true) :
    c.maxLag = XF.round (t (M - 1) - t 0) ∧ c.minLag = XF.neg (XF.round (t (M - 1) - t 0)) ∧
    c.alpha = d.medianTime ∧
    (∃ i, i + 1 < M ∧ c.lagRes = Arith.sub (XF.round (t (i + 1) - t 0)) (XF.round (t i - t 0))) ∧
    ∀ i, i + 1 < M → Arith.le c.lagRes (Arith.sub (XF.round (t (i + 1) - t 0)) (XF.round (t i - t 0))) = true := by
  obtain ⟨hM0, hn⟩ := normT_rounded hd ht
  obtain ⟨n, hs, rfl, _⟩ := corrNew_good hd.wf hc
  have hlast : lastD d.normT = XF.round (t (M - 1) - t 0) := by rw [hn, lastD_rounded hM0]
  have hT : ∃ T, (XF.round (t (M - 1) - t 0) : XF R) = .fin T := by
    have := (lagSlots_ok (R := R) hs).1
    rwa [hlast] at this
  obtain ⟨T, hT⟩ := hT
  have hfin : ∀ i, i < M → ∃ u : K, (XF.round (t i - t 0) : XF R) = .fin u ∧ 0 ≤ u ∧ u ≤ T := by
    intro i hi
    have h1 := round_nonneg (R := R) (show 0 ≤ t i - t 0 by
      have := hinc 0 i (by omega) hi; linarith)
    have h2 := round_mono (R := R) (show t i - t 0 ≤ t (M - 1) - t 0 by
      have := hinc i (M - 1) (by omega) (by omega); linarith)
    rw [hT] at h2
    cases h : (XF.round (t i - t 0) : XF R) with
    | nan => exact absurd h (round_ne_nan _)
    | ninf => rw [h] at h1; exact absurd h1 Bool.false_ne_true
    | pinf => rw [h] at h2; exact absurd h2 Bool.false_ne_true
    | fin u =>
      rw [h] at h2 h1
      exact ⟨u, rfl, by simpa using h1, by simpa [XF.le] using h2⟩
  have hnn : ∀ i, i + 1 < M → (Arith.sub (XF.round (t (i + 1) - t 0)) (XF.round (t i - t 0)) : XF R) ≠ .nan := by
    intro i hi
    obtain ⟨u, hu, _⟩ := hfin i (by omega)
    obtain ⟨v, hv, _⟩ := hfin (i + 1) hi
    rw [hu, hv]
    exact round_ne_nan _
  have hlen : d.normT.length = M := by rw [hn]; simp
  have hget : ∀ i (h : i < d.normT.length), d.normT[i] = XF.round (t i - t 0) := by
    intro i h
    simp [hn]
  have hdm : (Arith.dblMax : XF R) ≠ .nan := by show (.fin R.dblMax : XF R) ≠ _; simp
  have hall : ∀ i, i + 1 < M →
      Arith.le (findMinDiff d.normT) (Arith.sub (XF.round (t (i + 1) - t 0)) (XF.round (t i - t 0))) = true := by
    intro i hi
    have := findMinDiff_go_le_all d.normT Arith.dblMax hdm i (by omega) (by rw [hget, hget]; exact hnn i hi)
    rwa [hget, hget] at this
  refine ⟨hlast, by show Arith.neg (lastD d.normT) = _; rw [hlast]; rfl, rfl, ?_, hall⟩
  rcases findMinDiff_go_mem d.normT Arith.dblMax with h | ⟨i, hi, h⟩
  · -- the starting value: then the first difference equals it
    obtain ⟨v, hv, hv0, hvT⟩ := hfin 1 (by omega)
    have h0 : (XF.round (t 0 - t 0) : XF R) = .fin 0 := by rw [sub_self]; exact round_zero
    have hvd : (XF.round v : XF R) = .fin v := by
      have := round_isDouble (R := R) (t 1 - t 0)
      rw [hv] at this
      exact this
    have hsub : (Arith.sub (XF.round (t (0 + 1) - t 0)) (XF.round (t 0 - t 0)) : XF R) = .fin v := by
      rw [zero_add, hv, h0]
      show XF.round (v + -0) = _
      rw [neg_zero, add_zero, hvd]
    refine ⟨0, by omega, ?_⟩
    show findMinDiff d.normT = _
    have h1 := hall 0 (by omega)
    rw [hsub] at h1 ⊢
    have h2 : findMinDiff d.normT = .fin R.dblMax := h
    rw [h2] at h1 ⊢
    have h3 : R.dblMax ≤ v := by simpa using h1
    have h4 : T ≤ R.dblMax := by
      rw [hT] at hspan
      simpa using hspan
    rw [show v = R.dblMax by linarith]
  · rw [hget, hget] at h
    exact ⟨i, by omega, h⟩

/-! ## C16 -/

/-- **C16** (any rounding): if two adjacent times coincide after subtraction of the first time – because a time is
repeated, or because rounding makes them equal – the constructor is undefined. -/
theorem C16_rounded (hdm : 0 ≤ R.dblMax) (d : DS (XF R)) (hd : Constructed d) (M : ℕ) (t : ℕ → K)
    (ht : d.timeseries = samples M t) (hinc : ∀ i j, i ≤ j → j < M → t i ≤ t j) (i : ℕ) (hi : i + 1 < M)
    (heq : (XF.round (t i - t 0) : XF R) = XF.round (t (i + 1) - t 0)) : Corr.new d = .ub := by
  obtain ⟨hM0, hn⟩ := normT_rounded hd ht
  have hlast : lastD d.normT = XF.round (t (M - 1) - t 0) := by rw [hn, lastD_rounded hM0]
  have key : ∀ n, slotsOf d.normT ≠ .ok n := by
    intro n hs
    obtain ⟨⟨T, hT⟩, hres⟩ := lagSlots_ok (R := R) hs
    rw [hlast] at hT
    have hfin : ∀ i, i < M → ∃ u : K, (XF.round (t i - t 0) : XF R) = .fin u := by
      intro i hi
      have h1 := round_nonneg (R := R) (show 0 ≤ t i - t 0 by
        have := hinc 0 i (by omega) hi; linarith)
      have h2 := round_mono (R := R) (show t i - t 0 ≤ t (M - 1) - t 0 by
        have := hinc i (M - 1) (by omega) (by omega); linarith)
      rw [hT] at h2
      cases h : (XF.round (t i - t 0) : XF R) with
      | nan => exact absurd h (round_ne_nan _)
      | ninf => rw [h] at h1; exact absurd h1 Bool.false_ne_true
      | pinf => rw [h] at h2; exact absurd h2 Bool.false_ne_true
      | fin u => exact ⟨u, rfl⟩
    have hsub : ∀ i, i + 1 < M →
        Arith.le (.fin 0) (Arith.sub (XF.round (t (i + 1) - t 0)) (XF.round (t i - t 0)) : XF R) = true := by
      intro i hi
      obtain ⟨u, hu1⟩ := hfin i (by omega)
      obtain ⟨v, hv1⟩ := hfin (i + 1) hi
      have h2 := round_mono (R := R) (show t i - t 0 ≤ t (i + 1) - t 0 by
        have := hinc i (i + 1) (by omega) hi; linarith)
      rw [hu1, hv1] at h2
      rw [hu1, hv1]
      have h3 : u ≤ v := by simpa [XF.le] using h2
      exact round_nonneg (show 0 ≤ v + -u by linarith)
    have hge : Arith.le (.fin 0) (findMinDiff d.normT) = true := by
      apply findMinDiff_go_ge
      · show XF.le (.fin 0) (.fin R.dblMax) = true
        simpa [XF.le] using hdm
      · intro i hi
        simp only [hn, List.length_map, List.length_range] at hi
        simp only [hn, List.getElem_map, List.getElem_range]
        exact hsub i hi
    obtain ⟨u, hu⟩ := hfin i (by omega)
    have hz : (Arith.sub (.fin u) (.fin u) : XF R) = .fin 0 := by
      show XF.round (u + -u) = _
      rw [add_neg_cancel]; exact round_zero
    have hlen : d.normT.length = M := by rw [hn]; simp
    have hget : ∀ i (h : i < d.normT.length), d.normT[i] = XF.round (t i - t 0) := by
      intro i h
      simp [hn]
    have hle := findMinDiff_go_le_all d.normT Arith.dblMax
      (by show (.fin R.dblMax : XF R) ≠ _; simp) i (by omega) (by
        rw [hget, hget, ← heq, hu, hz]; simp)
    rw [hget, hget, ← heq, hu, hz] at hle
    exact hres (xf_le_antisymm hle hge)
  rw [corrNew_eq hd.wf]
  have h2 : ∀ x : Res ℕ, x = slotsOf d.normT → x = .ub := by
    intro x hx
    have : (∃ n, slotsOf d.normT = .ok n) ∨ slotsOf d.normT = .ub := by
      unfold slotsOf lagSlots
      split
      · exact Or.inr rfl
      · split
        · split
          · exact Or.inl ⟨_, rfl⟩
          · exact Or.inr rfl
        · exact Or.inr rfl
    rcases this with ⟨n, h⟩ | h
    · exact absurd h (key n)
    · rw [hx, h]
  rw [h2 _ rfl]; rfl

/-! ## C52 -/

/-- **C52** (any rounding): at a lag longer than the computed span no pair of samples remains: the correlation is zero, or
NaN; it is zero if any correlation of the row is finite. -/
theorem C52_rounded (d : DS (XF R)) (hd : Constructed d) (M : ℕ) (t : ℕ → K) (ht : d.timeseries = samples M t)
    (g : LagArgs (XF R)) (wt : String) (hw : KnownWeight wt) (r : AcResult (XF R))
    (hr : autocorrelation .fabs d g "natural" wt = .ok r) (j : ℕ) (row : List (XF R)) (hrow : d.HasRow j row) (n : ℕ)
    (k : K) (hkd : (.fin k : XF R).IsDouble) (hk : Arith.lt (XF.round (t (M - 1) - t 0)) (.fin k : XF R) = true)
    (v : XF R) (h : r.At j n (.fin k) v) :
    (v = .fin 0 ∨ v = .nan) ∧ ((∃ n' k' x, r.At j n' k' (.fin x)) → v = .fin 0) := by
  obtain ⟨hM0, hn⟩ := normT_rounded hd ht
  have hlast : lastD d.normT = XF.round (t (M - 1) - t 0) := by rw [hn, lastD_rounded hM0]
  obtain ⟨w, hw'⟩ := planWt_known (F := XF R) hw
  have hval : ∀ {n' k' v'}, r.At j n' k' v' → ∃ ps, lagPlan .fabs "natural" wt d.normT r.corr.alpha k' = .ok ps ∧
      v' = corrValue (row.map fun x => Arith.sub x (meanOf row)) (normOfRow row (meanOf row)) ps := by
    intro n' k' v' h
    obtain ⟨ps, h1, h2⟩ := result_at hd hr hrow h.1
    refine ⟨ps, h1, ?_⟩
    obtain ⟨_, row1, e1, e2⟩ := h
    obtain ⟨_, row2, e3, e4⟩ := h2
    rw [e1, Option.some.injEq] at e3
    subst e3
    rw [e2, Option.some.injEq] at e4
    exact e4
  obtain ⟨ps, h1, h2⟩ := hval h
  have hps : ps = [] := by
    obtain ⟨s, _, e2, _, e4⟩ := lagPlan_natural (nt := d.normT) (by
      rw [hn]; simpa using hM0.ne') hw' r.corr.alpha (.fin k)
    have hsh : shiftedNat d.normT (.fin k) = [] := by
      unfold shiftedNat
      rw [hlast, hn]
      obtain ⟨M', rfl⟩ : ∃ M', M = M' + 1 := ⟨M - 1, by omega⟩
      rw [List.range_succ_eq_map]
      simp only [List.map_cons, sub_self, round_zero]
      have : Arith.add (.fin 0) (.fin k : XF R) = .fin k := by
        show XF.round (0 + k) = _
        rw [zero_add]; exact hkd
      rw [List.takeWhile_cons, this, hk]
      simp
    rw [hsh] at e2
    have hs : s = [] := by simpa using e2
    rw [h1, hsh, hs] at e4
    simpa using e4
  have hv : v = Arith.mul (.fin 0) (Arith.div Arith.one (normOfRow row (meanOf row))) := by
    rw [h2, hps]; rfl
  have hmul : ∀ y : XF R, Arith.mul (.fin 0) y = .fin 0 ∨ Arith.mul (.fin 0) y = .nan := by
    intro y
    cases y with
    | nan => right; rfl
    | ninf => right; show XF.infSign (-0) = _; simp [XF.infSign]
    | pinf => right; show XF.infSign 0 = _; simp [XF.infSign]
    | fin y => left; show XF.round (0 * y) = _; rw [zero_mul]; exact round_zero
  refine ⟨by rw [hv]; exact hmul _, ?_⟩
  rintro ⟨n', k', x, h'⟩
  obtain ⟨ps', _, h3⟩ := hval h'
  unfold corrValue at h3
  rw [hv]
  cases hq : (Arith.div Arith.one (normOfRow row (meanOf row)) : XF R) with
  | fin y => show XF.round (0 * y) = _; rw [zero_mul]; exact round_zero
  | nan => rw [hq, mul_nan_right] at h3; cases h3
  | pinf =>
    rw [hq] at h3
    have : ∀ s : XF R, Arith.mul s .pinf ≠ .fin x := by
      intro s
      cases s with
      | fin s => show (XF.infSign s : XF R) ≠ _; unfold XF.infSign; split <;> [simp; (split <;> simp)]
      | _ => intro e; cases e
    exact absurd h3.symm (this _)
  | ninf =>
    rw [hq] at h3
    have : ∀ s : XF R, Arith.mul s .ninf ≠ .fin x := by
      intro s
      cases s with
      | fin s => show (XF.infSign (-s) : XF R) ≠ _; unfold XF.infSign; split <;> [simp; (split <;> simp)]
      | _ => intro e; cases e
    exact absurd h3.symm (this _)

end rounded

/-! ## C06 -/

section binary64
variable {ex : ℚ → ℚ} {fu : Bool}

/-- **C06** in binary64: for times in order whose span is at most half the largest double, `median_time` is a median of
the normalised times and lies between 0 and the largest of them. -/
theorem C06_binary64 (d : DS (D64 ex fu)) (hd : Constructed d) (M : ℕ) (t : ℕ → ℚ) (ht : d.timeseries = samples M t)
    (hinc : ∀ i j, i ≤ j → j < M → t i ≤ t j) (hspan : 2 * (t (M - 1) - t 0) ≤ (Rnd.binary64 ex fu).dblMax) :
    ∃ m u, d.medianTime = .fin m ∧ d.normalisedTimeseries = samples M u ∧
      M ≤ 2 * ((Finset.range M).filter fun i => u i ≤ m).card ∧
      M ≤ 2 * ((Finset.range M).filter fun i => m ≤ u i).card ∧ 0 ≤ m ∧ m ≤ u (M - 1) := by
  have hspan' : 2 * (t (M - 1) - t 0) ≤ big := hspan
  have hS : ∀ i < M, 0 ≤ t i - t 0 ∧ t i - t 0 ≤ t (M - 1) - t 0 := fun i hi =>
    ⟨by have := hinc 0 i (by omega) hi; linarith, by have := hinc i (M - 1) (by omega) (by omega); linarith⟩
  have hbig := big_pos
  obtain ⟨hM, hn⟩ := built_times64 hd ht fun i hi => by
    have := hS i hi
    rw [abs_of_nonneg this.1]; linarith
  obtain ⟨_, _, _, _, _, hb⟩ := hd.built
  have hmed := hb.med
  rw [hn] at hmed
  set u : ℕ → ℚ := fun i => b64 (t i - t 0) with hu
  have hui : ∀ i j, i ≤ j → j < M → u i ≤ u j := fun i j hij hj =>
    b64_mono (by have := hinc i j hij hj; linarith)
  have hu0 : u 0 = 0 := by
    simp only [hu, sub_self]
    simpa using b64_int (n := 0) (by norm_num)
  have hub : ∀ i, b64 (u i) = u i := fun i => roundTo_idem (by norm_num) _
  have hu2 : ∀ i < M, 2 * u i ≤ big := by
    intro i hi
    have h1 : u i ≤ b64 (big / 2) := b64_mono (by have := hS i hi; linarith)
    rw [b64_half_big] at h1
    linarith
  have hupos : ∀ i < M, 0 ≤ u i := fun i hi => by rw [← hu0]; exact hui 0 i (by omega) hi
  have lower : ∀ (m : ℚ) (a : ℕ), a ≤ M → (∀ i < a, u i ≤ m) →
      a ≤ ((Finset.range M).filter fun i => u i ≤ m).card := by
    intro m a ha h
    calc a = (Finset.range a).card := by simp
      _ ≤ _ := Finset.card_le_card (by
        intro i hi
        simp at hi ⊢
        exact ⟨by omega, h i hi⟩)
  have upper : ∀ (m : ℚ) (a : ℕ), a ≤ M → (∀ i, a ≤ i → i < M → m ≤ u i) →
      M - a ≤ ((Finset.range M).filter fun i => m ≤ u i).card := by
    intro m a ha h
    calc M - a = ((Finset.range M) \ (Finset.range a)).card := by
            rw [Finset.card_sdiff_of_subset (by simpa using ha)]; simp
      _ ≤ _ := Finset.card_le_card (by
        intro i hi
        simp at hi ⊢
        exact ⟨by omega, h i hi.2 hi.1⟩)
  have hr : ∀ i < M, rawGet (samples M u : List (D64 ex fu)) i = .ok (.fin (u i)) := by
    intro i hi; rw [rawGet_eq_ok, samples_getElem? hi]
  unfold settMedian at hmed
  simp only [samples_length] at hmed
  by_cases hev : M % 2 = 0
  · rw [if_pos hev, hr _ (by omega), hr _ (by omega)] at hmed
    have hA0 := hupos (M / 2 - 1) (by omega)
    have hAB := hui (M / 2 - 1) (M / 2) (by omega) (by omega)
    have hB2 := hu2 (M / 2) (by omega)
    have hA := hub (M / 2 - 1)
    have hB := hub (M / 2)
    have hlast := hui (M / 2) (M - 1) (by omega) (by omega)
    generalize hAe : u (M / 2 - 1) = A at *
    generalize hBe : u (M / 2) = B' at *
    have habs : |A + B'| ≤ big := by rw [abs_of_nonneg (by linarith)]; linarith
    have h1 : 2 * A ≤ b64 (A + B') := by rw [← b64_two_mul hA]; exact b64_mono (by linarith)
    have h2 : b64 (A + B') ≤ 2 * B' := by rw [← b64_two_mul hB]; exact b64_mono (by linarith)
    have h3 : A ≤ b64 (b64 (A + B') / 2) := by rw [← hA]; exact b64_mono (by rw [hA]; linarith)
    have h4 : b64 (b64 (A + B') / 2) ≤ B' := by
      conv_rhs => rw [← hB]
      exact b64_mono (by linarith)
    have habs2 : |b64 (A + B') / 2| ≤ big := by
      rw [abs_of_nonneg (by linarith)]; linarith
    have e2 : (Arith.two : D64 ex fu) = .fin 2 := rfl
    simp only [Res.ok_bind, d64_add habs, e2] at hmed
    rw [d64_div two_ne_zero habs2] at hmed
    simp only [Res.ok.injEq] at hmed
    refine ⟨b64 (b64 (A + B') / 2), u, hmed.symm, hn, ?_, ?_, by linarith, by linarith⟩
    · have := lower (b64 (b64 (A + B') / 2)) (M / 2) (by omega) (fun i hi => by
        have := hui i (M / 2 - 1) (by omega) (by omega); linarith)
      omega
    · have := upper (b64 (b64 (A + B') / 2)) (M / 2) (by omega) (fun i hi hiM => by
        have := hui (M / 2) i hi hiM; linarith)
      omega
  · rw [if_neg hev, hr _ (by omega)] at hmed
    simp only [Res.ok.injEq] at hmed
    refine ⟨u (M / 2), u, hmed.symm, hn, ?_, ?_, hupos _ (by omega), hui _ _ (by omega) (by omega)⟩
    · have := lower (u (M / 2)) (M / 2 + 1) (by omega) (fun i hi => hui _ _ (by omega) (by omega))
      omega
    · have := upper (u (M / 2)) (M / 2) (by omega) (fun i hi hiM => hui _ _ hi hiM)
      omega

end binary64

set_option exponentiation.threshold 3000 in
/-- two different times that coincide once the first time is subtracted: `-2^53, 1, 2` (the computed differences to the
first time are both `2^53 + 2`) -/
example : ((mkFlat (b [-2 ^ 53, 1, 2]) (b [1, 2, 4])).bind fun d => (Corr.new d).bind fun _ => .ok d.normT) = .ub := by
  decide +kernel

set_option exponentiation.threshold 3000 in
/-- decimal times: the resolution is the smallest computed difference, less than the double next to `1/10` -/
example : ((mkFlat (b [1/10, 2/10, 3/10, 4/10]) (b [1, 2, 4, 3])).bind fun d => (Corr.new d).bind fun c =>
    .ok (c.lagRes == .fin (b64 (1/10)), Arith.lt c.lagRes (.fin (b64 (1/10))), d.medianTime))
      = .ok (false, true, .fin (b64 (15/100))) := by
  decide +kernel

end Sacf
