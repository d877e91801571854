import Verif.Lemmas.Reach
import Verif.Spec.Rational

/-!
# The two drivers and the correlator object (C21, C22, C23, C24, C37–C43)

All theorems of this file hold in every arithmetic, in particular for IEEE doubles.
-/

set_option linter.unusedSectionVars false
set_option linter.unusedSimpArgs false

namespace Sacf

open Arith

variable {F : Type} [Arith F]

/-! ## C21 (exact condition) -/

/-- **C21**, exact condition: with natural selection, a floating-point `abs` and any of the weight functions,
the call writes outside its buffers exactly when the number of lags that are due is not at most the number
of slots the constructor allocated. -/
theorem C21_safe_iff_partial (d : DS F) (hd : Constructed d) (g : LagArgs F) (wt : String) (hw : KnownWeight wt)
    (c0 : Corr F) (hc : Corr.new d = .ok c0) :
    (autocorrelation .fabs d g "natural" wt = .ub ↔
      ¬ ∃ m, GridCount (g.minLag.getD c0.minLag) (g.maxLag.getD c0.maxLag) (g.lagRes.getD c0.lagRes) m ∧
        lagTotal (g.minLag.getD c0.minLag) (g.lagRes.getD c0.lagRes) m ≤ c0.lagTimeseries.length) := by
  obtain ⟨n, hn, rfl, _⟩ := corrNew_good hd.wf hc
  obtain ⟨c', _, he⟩ := autocorrelation_eq .fabs hd.wf g "natural" wt
  rw [he, acPlan, hn]
  simp only [Res.ok_bind, Corr.fresh, Corr.lagTimeseries, List.length_replicate]
  have hfit := @lags_fit_iff F _ (g.minLag.getD (neg (lastD d.normT))) (g.maxLag.getD (lastD d.normT))
    (g.lagRes.getD (findMinDiff d.normT)) n
  rw [← hfit]
  rcases planRun_natural hd.wf.ne hw (g.alpha.getD d.tMedian) (g.minLag.getD (neg (lastD d.normT)))
    (g.maxLag.getD (lastD d.normT)) (g.lagRes.getD (findMinDiff d.normT)) n with ⟨hle, L, hL, _⟩ | ⟨hgt, hL⟩
  · rw [hL]
    simp only [Res.ok_bind, hle, not_true, iff_false]
    split
    · simp
    · simp only [Res.ok_bind]
      unfold corrOut
      split
      · simp
      · cases hr : (List.range d.N).map (d.acRow L) <;> simp
  · rw [hL]
    simp; omega

/-- the default call fits: 7 lags in 9 slots; half the default resolution does not: 13 lags -/
example : ((mkFlat (q [0, 1, 3]) (q [1, 2, 4])).bind fun d => (Corr.new d).bind fun c =>
    (autocorrelation .fabs d).bind fun r => .ok (c.lagTimeseries.length, r.lags.length)) = .ok (9, 7) := by
  decide +kernel
example : ((mkFlat (q [0, 1, 3]) (q [1, 2, 4])).bind fun d =>
    (autocorrelation .fabs d { lagRes := some (.fin (1/2)) }).bind fun r => .ok r.lags.length) = .ub := by
  decide +kernel

/-! ## C22 -/

/-- **C22**: shape of a result. -/
theorem C22_shape (a : AbsFn) (d : DS F) (hd : Constructed d) (g : LagArgs F) (sel wt : String)
    (r : AcResult F) (h : autocorrelation a d g sel wt = .ok r) :
    (d.N = 1 → ∃ row, r.corrs = .flat row ∧ row.length = r.lags.length) ∧
    (d.N ≠ 1 → ∃ rows, r.corrs = .table rows ∧ rows.length = d.N ∧
      ∀ row ∈ rows, row.length = r.lags.length) ∧
    r.corr.lagTimeseries.length = r.lags.length := by
  obtain ⟨c', hc', he⟩ := autocorrelation_eq a hd.wf g sel wt
  rw [he, Res.bind_eq_ok] at h
  obtain ⟨L, _, h⟩ := h
  rw [Res.bind_eq_ok] at h
  obtain ⟨out, ho, h⟩ := h
  simp only [Res.ok.injEq] at h
  subst h
  have hpos := hd.wf.npos
  refine ⟨fun h1 => ?_, fun h1 => ?_, ?_⟩
  · rw [h1] at ho
    simp [corrOut] at ho
    exact ⟨_, ho.symm, by simp [DS.acRow]⟩
  · unfold corrOut at ho
    rw [if_pos (by simp; omega)] at ho
    simp at ho
    refine ⟨_, ho.symm, by simp, ?_⟩
    intro row hrow
    obtain ⟨j, _, rfl⟩ := List.mem_map.1 hrow
    simp [DS.acRow]
  · have := (hc' L).2.1.ts_len
    simp only [Corr.lagTimeseries]
    rw [this, (hc' L).2.2.1]; simp

example : ((mkTable (q [0, 1, 3]) [q [1, 2, 4], q [4, 0, 5]]).bind fun d =>
    (autocorrelation .fabs d).bind fun r => .ok (r.lags.length, r.corrs.rows.map (·.length)))
      = .ok (7, [7, 7]) := by decide +kernel

/-! ## C23 -/

/-- **C23**: row `j` of a run over several datasets is the result of the run on dataset `j` alone, including
when and how it fails. -/
theorem C23_independent (a : AbsFn) (t : List F) (rows : List (List F))
    (hrect : ∀ r ∈ rows, r.length = t.length) (d : DS F) (hd : mkTable t rows = .ok d)
    (j : Nat) (row : List F) (hj : rows[j]? = some row) (g : LagArgs F) (sel wt : String) :
    ∃ dj, mkTable t [row] = .ok dj ∧
      (autocorrelation a d g sel wt).bind (fun r => .ok (r.lags, r.corrs.rows[j]?))
        = (autocorrelation a dj g sel wt).bind (fun r => .ok (r.lags, r.corrs.rows[0]?)) := by
  have hb := setUp_built hd
  have hlt : j < rows.length := by rw [List.getElem?_eq_some_iff] at hj; exact hj.1
  have hmem : row ∈ rows := List.mem_iff_getElem?.2 ⟨j, hj⟩
  have hrl := hrect row hmem
  have hpos := List.length_pos_iff.2 hb.tne
  obtain ⟨dj, hdj, hbj⟩ := setUp_ok (t := t) (data := [row].flatten) (err := []) (N := 1) hb.tne
    (by intro h0; simp at h0; rw [h0] at hrl; simp at hrl; omega) (by simp [hrl]) (by simp [hrl])
  refine ⟨dj, hdj, ?_⟩
  have hw := (Constructed.table hd).wf
  have hwj := (Constructed.table (rows := [row]) hdj).wf
  obtain ⟨c1, _, h1⟩ := autocorrelation_eq a hw g sel wt
  obtain ⟨c2, _, h2⟩ := autocorrelation_eq a hwj g sel wt
  have hnt : dj.normT = d.normT := by rw [hb.normT, hbj.normT]
  have hmed : dj.tMedian = d.tMedian := by
    have h1 := hbj.med; have h2 := hb.med
    rw [hnt, h2] at h1; simpa using h1.symm
  rw [h1, h2, hnt, hmed, Res.bind_assoc, Res.bind_assoc]
  apply Res.bind_congr
  intro L _
  have hout : ∀ rs : List (List F), 0 < rs.length → ∃ out, corrOut rs = .ok out ∧ out.rows = rs := by
    intro rs hrs
    unfold corrOut
    split
    · exact ⟨_, rfl, rfl⟩
    · rename_i hgt
      rcases rs with _ | ⟨r, _ | ⟨r', rs⟩⟩
      · simp at hrs
      · exact ⟨_, rfl, rfl⟩
      · simp at hgt
  obtain ⟨o1, ho1, hr1⟩ := hout ((List.range d.N).map (d.acRow L)) (by simp [hb.hN]; omega)
  obtain ⟨o2, ho2, hr2⟩ := hout ((List.range dj.N).map (dj.acRow L)) (by simp [hbj.hN])
  rw [ho1, ho2]
  simp only [Res.ok_bind, hr1, hr2]
  have e1 : rowOf rows.flatten t.length j = row := rowOf_flatten_get hrect hj
  have e2 : rowOf [row].flatten t.length 0 = row := by simp [rowOf, ← hrl]
  rw [hb.hN, hbj.hN]
  simp only [List.getElem?_map, List.getElem?_range hlt, List.getElem?_range Nat.zero_lt_one,
    Option.map_some]
  rw [hb.acRow hlt, hbj.acRow Nat.zero_lt_one, e1, e2]

/-- two datasets with different correlations, the second one also alone -/
example : ((mkTable (q [0, 1, 3]) [q [1, 2, 4], q [4, 0, 5]]).bind fun d =>
    (mkTable (q [0, 1, 3]) [q [4, 0, 5]]).bind fun dj =>
    (autocorrelation .fabs d).bind fun r => (autocorrelation .fabs dj).bind fun rj =>
    .ok (decide (r.corrs.rows[1]? = rj.corrs.rows[0]?), decide (r.corrs.rows[0]? = r.corrs.rows[1]?)))
      = .ok (true, false) := by decide +kernel

/-- **C23**, consequence: permuting (or repeating, or dropping) datasets does the same to the rows. -/
theorem C23_select (a : AbsFn) (t : List F) (rows : List (List F))
    (hrect : ∀ r ∈ rows, r.length = t.length) (d : DS F) (hd : mkTable t rows = .ok d)
    (rows' : List (List F)) (hsub : ∀ r ∈ rows', r ∈ rows) (d' : DS F) (hd' : mkTable t rows' = .ok d')
    (i j : Nat) (row : List F) (hi : rows[i]? = some row) (hj : rows'[j]? = some row)
    (g : LagArgs F) (sel wt : String) :
    (autocorrelation a d g sel wt).bind (fun r => .ok (r.lags, r.corrs.rows[i]?))
      = (autocorrelation a d' g sel wt).bind (fun r => .ok (r.lags, r.corrs.rows[j]?)) := by
  obtain ⟨d1, h1, e1⟩ := C23_independent a t rows hrect d hd i row hi g sel wt
  obtain ⟨d2, h2, e2⟩ := C23_independent a t rows' (fun r hr => hrect r (hsub r hr)) d' hd' j row hj g sel wt
  rw [h1] at h2
  simp at h2
  rw [e1, e2, h2]

/-! ## C24 -/

/-- **C24**: on every correlator state with a lag due, `find_correlation(corr)` and
`calculateStandardCorrelation` have the same outcome and leave the same state. -/
theorem C24_drivers_agree (a : AbsFn) (c : Corr F) (hlag : le c.minLag c.maxLag = true) :
    pyFindCorrelation a c "natural" "fractional" = Corr.calculateStandardCorrelation a c := by
  unfold pyFindCorrelation Corr.calculateStandardCorrelation
  rw [standardLoop_eq_pyLoop]
  apply Res.bind_congr
  intro p hp
  rw [if_neg]
  have mono : ∀ (ks : List F) (s s' : Corr F × Nat),
      Res.foldL (stepPair a "natural" "fractional") s ks = .ok s' → s'.2 = s.2 + ks.length := by
    intro ks
    induction ks with
    | nil => intro s s' h; simp at h; simp [h]
    | cons k ks ih =>
      intro s s' h
      rw [Res.foldL_cons, Res.bind_eq_ok] at h
      obtain ⟨s1, h1, h2⟩ := h
      unfold stepPair at h1
      rw [Res.bind_eq_ok] at h1
      obtain ⟨c1, _, h1⟩ := h1
      simp at h1
      have := ih s1 s' h2
      rw [← h1] at this
      simp at this ⊢; omega
  rw [pyLoop_eq_fold, Res.bind_eq_ok] at hp
  obtain ⟨s, hs, hp⟩ := hp
  split at hp
  · simp at hp; subst hp
    rw [mono _ _ _ hs]
    unfold lagsUpTo
    rw [if_pos hlag]
    generalize (if eq c.minLag zero then true else false) = qq
    split <;> simp
  · simp at hp

/-- the hypothesis of C24 holds for every correlator made from at least one time in increasing order; a
concrete one: -/
example : ((mkFlat (q [0, 1, 3]) (q [1, 2, 4])).bind fun d => (Corr.new d).bind fun c =>
    (pyFindCorrelation .fabs c).bind fun c' => .ok (le c.minLag c.maxLag, c'.lagTimeseries.length))
      = .ok (true, 7) := by decide +kernel

/-! ## C37 -/

/-- **C37**: an unknown selection name raises `KeyError` as soon as a lag is due. -/
theorem C37_unknown_selection (a : AbsFn) (d : DS F) (hd : Constructed d) (g : LagArgs F) (sel wt : String)
    (h1 : sel ≠ "fast") (h2 : sel ≠ "natural") (c0 : Corr F) (hc : Corr.new d = .ok c0)
    (hlag : le (g.minLag.getD c0.minLag) (g.maxLag.getD c0.maxLag) = true) :
    autocorrelation a d g sel wt = .exn (.keyError sel) := by
  obtain ⟨n, hn, rfl, _⟩ := corrNew_good hd.wf hc
  obtain ⟨c', _, he⟩ := autocorrelation_eq a hd.wf g sel wt
  simp only [Corr.fresh] at hlag
  rw [he, acPlan, hn]
  simp only [Res.ok_bind, planRun]
  have hplan : ∀ k, lagPlan' a sel wt d.normT (g.alpha.getD d.tMedian) k = .exn (.keyError sel) := by
    intro k
    unfold lagPlan' lagPlan planSel
    rw [if_neg h1, if_neg h2]; rfl
  have : ∃ k ks, lagsUpTo (g.maxLag.getD (lastD d.normT)) (g.lagRes.getD (findMinDiff d.normT)) (n + 1)
      (g.minLag.getD (neg (lastD d.normT))) false = k :: ks := by
    unfold lagsUpTo
    rw [if_pos hlag]
    generalize (if eq (g.minLag.getD (neg (lastD d.normT))) zero then true else false) = qq
    split
    · exact ⟨_, _, rfl⟩
    · exact ⟨_, _, rfl⟩
  obtain ⟨k, ks, hks⟩ := this
  rw [hks, List.take_succ_cons, Res.mapL_cons, hplan]
  rfl

/-- **C37**: with natural selection and a floating-point `abs`, an unknown weight name raises `KeyError` as soon
as a lag is due. -/
theorem C37_unknown_weight (d : DS F) (hd : Constructed d) (g : LagArgs F) (wt : String)
    (h1 : ¬ KnownWeight wt) (c0 : Corr F) (hc : Corr.new d = .ok c0)
    (hlag : le (g.minLag.getD c0.minLag) (g.maxLag.getD c0.maxLag) = true) :
    autocorrelation .fabs d g "natural" wt = .exn (.keyError wt) := by
  obtain ⟨n, hn, rfl, _⟩ := corrNew_good hd.wf hc
  obtain ⟨c', _, he⟩ := autocorrelation_eq .fabs hd.wf g "natural" wt
  simp only [Corr.fresh] at hlag
  rw [he, acPlan, hn]
  simp only [Res.ok_bind, planRun]
  have hplan : ∀ k, lagPlan' .fabs "natural" wt d.normT (g.alpha.getD d.tMedian) k = .exn (.keyError wt) := by
    intro k
    unfold lagPlan' lagPlan planSel
    rw [if_neg (by decide), if_pos rfl]
    obtain ⟨s, hs, _, hb⟩ := planNat_fabs hd.wf.ne k
    rw [hs]
    simp only [Res.ok_bind]
    rw [planDelta_fabs hb, planWt_unknown h1]
    rfl
  have : ∃ k ks, lagsUpTo (g.maxLag.getD (lastD d.normT)) (g.lagRes.getD (findMinDiff d.normT)) (n + 1)
      (g.minLag.getD (neg (lastD d.normT))) false = k :: ks := by
    unfold lagsUpTo
    rw [if_pos hlag]
    generalize (if eq (g.minLag.getD (neg (lastD d.normT))) zero then true else false) = qq
    split
    · exact ⟨_, _, rfl⟩
    · exact ⟨_, _, rfl⟩
  obtain ⟨k, ks, hks⟩ := this
  rw [hks, List.take_succ_cons, Res.mapL_cons, hplan]
  rfl

theorem mapL_exn_mem {α β : Type} {f : α → Res β} {l : List α} {e : Exc} (h : Res.mapL f l = .exn e) :
    ∃ x ∈ l, f x = .exn e := by
  induction l with
  | nil => simp at h
  | cons x xs ih =>
    rw [Res.mapL_cons] at h
    cases hx : f x with
    | ok y =>
      rw [hx] at h
      simp only [Res.ok_bind] at h
      cases hm : Res.mapL f xs with
      | ok ys => rw [hm] at h; simp at h
      | exn e' => rw [hm] at h; simp at h; subst h; obtain ⟨z, hz, hf⟩ := ih hm; exact ⟨z, by simp [hz], hf⟩
      | ub => rw [hm] at h; simp at h
      | diverge => rw [hm] at h; simp at h
    | exn e' => rw [hx] at h; simp at h; subst h; exact ⟨x, by simp, hx⟩
    | ub => rw [hx] at h; simp at h
    | diverge => rw [hx] at h; simp at h

theorem bind_exn {α β : Type} {x : Res α} {f : α → Res β} {e : Exc} (h : x.bind f = .exn e) :
    x = .exn e ∨ ∃ a, x = .ok a ∧ f a = .exn e := by
  cases x <;> simp_all

theorem app_not_exn (a : AbsFn) (x : F) (e : Exc) : a.app x ≠ .exn e := by
  unfold AbsFn.app
  cases a with
  | fabs => simp
  | intAbs =>
    simp only
    split
    · simp
    · split <;> simp

theorem lowerBound_not_exn (v : List F) (x : F) (e : Exc) : lowerBound v x ≠ .exn e := by
  obtain ⟨r, h, _⟩ := lowerBound_spec v x
  rw [h]; simp

/-- the only exceptions of one lag with known names are `IndexError`s -/
theorem lagPlan_exn {a : AbsFn} {sel wt : String} (hs : sel = "fast" ∨ sel = "natural")
    (hw : KnownWeight wt) {nt : List F} {alpha k : F} {e : Exc}
    (h : lagPlan a sel wt nt alpha k = .exn e) : e = .indexError := by
  have hat : ∀ (v : List F) i e, atGet v i = .exn e → e = .indexError := by
    intro v i e h
    unfold atGet at h
    split at h <;> simp at h
    exact h.symm
  have hnat : ∀ s e, Corr.selectNat a nt s = .exn e → e = .indexError := by
    intro s e h
    unfold Corr.selectNat at h
    rcases bind_exn h with h | ⟨_, _, h⟩
    · exact absurd h (lowerBound_not_exn _ _ _)
    split at h
    · rcases bind_exn h with h | ⟨_, _, h⟩
      · exact hat _ _ _ h
      rcases bind_exn h with h | ⟨_, _, h⟩
      · exact absurd h (app_not_exn _ _ _)
      rcases bind_exn h with h | ⟨_, _, h⟩
      · exact hat _ _ _ h
      rcases bind_exn h with h | ⟨_, _, h⟩
      · exact absurd h (app_not_exn _ _ _)
      simp at h
    · simp at h
  have hsel : ∀ e, planSel a sel nt k = .exn e → e = .indexError := by
    intro e h
    unfold planSel at h
    rcases hs with rfl | rfl
    · rw [if_pos rfl] at h
      rcases bind_exn h with h | ⟨_, _, h⟩
      · unfold planFast at h
        split at h
        · simp at h
        · rcases bind_exn h with h | ⟨_, _, h⟩
          · unfold fastFirst at h
            rcases bind_exn h with h | ⟨_, _, h⟩
            · exact absurd h (lowerBound_not_exn _ _ _)
            rcases bind_exn h with h | ⟨_, _, h⟩
            · exact hat _ _ _ h
            rcases bind_exn h with h | ⟨_, _, h⟩
            · exact absurd h (app_not_exn _ _ _)
            rcases bind_exn h with h | ⟨_, _, h⟩
            · exact hat _ _ _ h
            rcases bind_exn h with h | ⟨_, _, h⟩
            · exact absurd h (app_not_exn _ _ _)
            simp at h
          · simp at h
      · simp at h
    · rw [if_neg (by decide), if_pos rfl] at h
      rcases bind_exn h with h | ⟨_, _, h⟩
      · obtain ⟨s, _, h⟩ := mapL_exn_mem h
        exact hnat _ _ h
      · simp at h
  unfold lagPlan at h
  rcases bind_exn h with h | ⟨p, _, h⟩
  · exact hsel _ h
  rcases bind_exn h with h | ⟨p, _, h⟩
  · obtain ⟨s, _, h⟩ := mapL_exn_mem h
    rcases bind_exn h with h | ⟨_, _, h⟩
    · exact hat _ _ _ h
    · exact absurd h (app_not_exn _ _ _)
  obtain ⟨w, hw⟩ := planWt_known (F := F) hw
  rw [hw] at h
  simp at h

/-- **C37**: with the documented names no `KeyError` is ever raised; the only possible exceptions are
`IndexError` and `UnboundLocalError`. -/
theorem C37_known_names (a : AbsFn) (d : DS F) (hd : Constructed d) (g : LagArgs F) (sel wt : String)
    (hs : sel = "fast" ∨ sel = "natural") (hw : KnownWeight wt) (e : Exc)
    (h : autocorrelation a d g sel wt = .exn e) : e = .indexError ∨ e = .unboundLocal := by
  obtain ⟨c', _, he⟩ := autocorrelation_eq a hd.wf g sel wt
  rw [he] at h
  rcases bind_exn h with h | ⟨L, _, h⟩
  · unfold acPlan at h
    rcases bind_exn h with h | ⟨n, _, h⟩
    · unfold slotsOf lagSlots at h
      split at h
      · simp at h
      · split at h
        · split at h <;> simp at h
        · simp at h
    · rcases bind_exn h with h | ⟨L, _, h⟩
      · unfold planRun at h
        rcases bind_exn h with h | ⟨L, _, h⟩
        · obtain ⟨k, _, h⟩ := mapL_exn_mem h
          unfold lagPlan' at h
          rcases bind_exn h with h | ⟨_, _, h⟩
          · exact Or.inl (lagPlan_exn hs hw h)
          · simp at h
        · split at h <;> simp at h
      · split at h
        · simp at h; exact Or.inr h.symm
        · simp at h
  · rcases bind_exn h with h | ⟨o, _, h⟩
    · unfold corrOut at h
      split at h
      · simp at h
      · have hpos := hd.wf.npos
        cases hr : (List.range d.N).map (d.acRow L) with
        | nil => simp at hr; omega
        | cons r rs => rw [hr] at h; simp at h
    · simp at h

/-- the readme's `weight_function='fast'` is not a known weight -/
example : ¬ KnownWeight "fast" := by unfold KnownWeight; decide
example : ∃ d, mkFlat (q [0, 1, 3]) (q [1, 2, 4]) = .ok d ∧
    autocorrelation .fabs d {} "natural" "fast" = .exn (.keyError "fast") := ⟨_, rfl, by decide +kernel⟩

/-! ## C38 -/

/-- **C38**: with an empty lag range the C++ path returns an empty result and every Python path raises
`UnboundLocalError` (also with unknown function names). -/
theorem C38_empty_range_partial (a : AbsFn) (d : DS F) (hd : Constructed d) (g : LagArgs F) (sel wt : String)
    (c0 : Corr F) (hc : Corr.new d = .ok c0)
    (hlag : le (g.minLag.getD c0.minLag) (g.maxLag.getD c0.maxLag) = false) :
    (sel = "natural" ∧ wt = "fractional" →
      ∃ r, autocorrelation a d g sel wt = .ok r ∧ r.lags = [] ∧
        r.corrs.rows = List.replicate d.N []) ∧
    (¬ (sel = "natural" ∧ wt = "fractional") →
      autocorrelation a d g sel wt = .exn .unboundLocal) := by
  obtain ⟨n, hn, rfl, _⟩ := corrNew_good hd.wf hc
  obtain ⟨c', _, he⟩ := autocorrelation_eq a hd.wf g sel wt
  simp only [Corr.fresh] at hlag
  have hnil : lagsUpTo (g.maxLag.getD (lastD d.normT)) (g.lagRes.getD (findMinDiff d.normT)) (n + 1)
      (g.minLag.getD (neg (lastD d.normT))) false = [] := by
    unfold lagsUpTo; rw [if_neg (by simp [hlag])]
  have hplan : acPlan a d.normT d.tMedian g sel wt
      = if !(sel == "natural" && wt == "fractional") then .exn .unboundLocal else .ok [] := by
    unfold acPlan planRun
    rw [hn]
    simp [hnil]
  refine ⟨?_, ?_⟩
  · rintro ⟨rfl, rfl⟩
    rw [he, hplan]
    simp only [beq_self_eq_true, Bool.and_self, Bool.not_true, Bool.false_eq_true, if_false, Res.ok_bind]
    have hrep : (List.range d.N).map (d.acRow []) = List.replicate d.N [] := by
      apply List.ext_getElem
      · simp
      · intro i h1 h2; simp [DS.acRow]
    rw [hrep]
    have hpos := hd.wf.npos
    unfold corrOut
    split
    · exact ⟨_, rfl, rfl, rfl⟩
    · rename_i hgt
      have : d.N = 1 := by simp at hgt; omega
      rw [this]
      exact ⟨_, rfl, rfl, rfl⟩
  · intro hne
    rw [he, hplan, if_pos]
    · rfl
    · simpa [imp_iff_not_or] using hne

example : ∃ d, mkFlat (q [0, 1, 3]) (q [1, 2, 4]) = .ok d ∧
    (autocorrelation .fabs d { minLag := some (.fin 2), maxLag := some (.fin 1) }).bind
      (fun r => .ok (r.lags, r.corrs)) = .ok ([], .flat []) ∧
    autocorrelation .fabs d { minLag := some (.fin 2), maxLag := some (.fin 1) } "natural" "gaussian"
      = .exn .unboundLocal := ⟨_, rfl, by decide +kernel, by decide +kernel⟩

/-! ## C39 -/

theorem deltaT_fabs_ok (c : Corr F) (it : CorrIt F) (s : List Nat) (sh : List F)
    (hl : s.length = sh.length) (hb : ∀ j ∈ s, j < c.ds.normT.length) :
    ∃ it', Corr.deltaT .fabs c { it with selection := s, shifted := ⟨[], sh⟩ } = .ok it' ∧
      it'.deltaT.length = it.deltaT.length + s.length := by
  unfold Corr.deltaT
  obtain ⟨ys, hys, _⟩ := Res.mapL_ok_of_forall (P := fun _ => True)
    (f := fun (p : Nat × Nat) => (atGet c.ds.normT p.1).bind fun t =>
      (Vec.raw (⟨[], sh⟩ : Vec F) p.2).bind fun x => AbsFn.app .fabs (sub t x)) (l := s.zipIdx) (by
      rintro ⟨j, i⟩ hp
      obtain ⟨h1, h2⟩ := List.mem_zipIdx' hp
      have hj : j < c.ds.normT.length := hb j (by rw [h2]; exact List.getElem_mem _)
      refine ⟨Arith.fabs (sub c.ds.normT[j] (sh[i]'(by omega))), ?_, trivial⟩
      simp only [Vec.raw, List.nil_append]
      rw [atGet_of_lt hj, rawGet_of_lt (show i < sh.length by omega)]
      rfl)
  have hlen := Res.mapL_length hys
  simp only at hys ⊢
  rw [hys]
  exact ⟨_, rfl, by simp [hlen]⟩

/-- **C39**: natural selection (with a floating-point `abs`) never raises and never leaves the data, whatever the
times and the lag; every selected index is a sample; the following `deltaT` succeeds as well. -/
theorem C39_natural_total (d : DS F) (hd : Constructed d) (c : Corr F) (hc : c.ds = d) (k : F) (n : Nat) :
    ∃ it it', Corr.naturalSelection .fabs c (CorrIt.new k n) = .ok it ∧
      (∀ j ∈ it.selection, j < d.M) ∧ it.selection.length ≤ d.M ∧
      Corr.deltaT .fabs c it = .ok it' ∧ it'.deltaT.length = it.selection.length := by
  subst hc
  have hw := hd.wf
  rw [naturalSelection_eq .fabs c hw.ne]
  obtain ⟨s, hs, hl, hb⟩ := planNat_fabs hw.ne k
  rw [hs]
  simp only [Res.ok_bind]
  obtain ⟨it', hit, hlen⟩ : ∃ it', Corr.deltaT .fabs c
      { CorrIt.new k n with selection := s, shifted := ⟨[], shiftedNat c.ds.normT k⟩ } = .ok it' ∧
        it'.deltaT.length = s.length := by
    obtain ⟨it', h⟩ := deltaT_fabs_ok c (CorrIt.new k n) s (shiftedNat c.ds.normT k) hl hb
    exact ⟨it', h.1, by rw [h.2]; simp [CorrIt.new]⟩
  refine ⟨_, it', rfl, ?_, ?_, hit, hlen⟩
  · simpa [hw.M_eq] using hb
  · have hle := shiftedNat_length_le c.ds.normT k
    simp only [hw.M_eq]; omega

/-- also for unordered times with a NaN in them -/
example : ((mkFlat ([.fin 3, .fin 1, .nan, .fin 2] : List Q) (q [1, 2, 3, 4])).bind fun d =>
    (Corr.naturalSelection .fabs (Corr.fresh d 1) (CorrIt.new (.fin (-1)) 1)).bind fun it =>
    .ok it.selection) = .ok [2, 0, 0, 0] := by decide +kernel

/-! ## C40 -/

theorem lagsUpTo_short {lo hi res : F} {n : Nat} {p : Bool}
    (h : (lagsUpTo hi res (n + 1) lo p).length ≤ n) :
    lagsUpTo hi res ((lagsUpTo hi res (n + 1) lo p).length + 1) lo p = lagsUpTo hi res (n + 1) lo p := by
  classical
  obtain ⟨m, hm, hc⟩ := lagsDone_iff.1 (lagsDone_of_length (Nat.lt_succ_of_le h))
  have hlen := lagsUpTo_length hc p hm
  have hm2 : m < (lagsUpTo hi res (n + 1) lo p).length + 1 := by rw [hlen]; omega
  have hd : lagsDone hi res (m + 1) lo = true := lagsDone_iff.2 ⟨m, by omega, hc⟩
  rw [(lagsUpTo_of_done (p := p) hd (Nat.succ_le_of_lt hm2)).1,
    (lagsUpTo_of_done (p := p) hd (Nat.succ_le_of_lt hm)).1]

theorem calculate_twice {a : AbsFn} {c c' : Corr F} (hg : c.Good)
    (h : c.calculateStandardCorrelation a = .ok c') : c'.calculateStandardCorrelation a = .ok c' := by
  rw [calculateStandard_eq a hg, Res.bind_eq_ok] at h
  obtain ⟨L, hL, h⟩ := h
  simp at h
  subst h
  rw [calculateStandard_eq a (hg.store L)]
  obtain ⟨hk, hle, _⟩ := planRun_lags hL
  have hks : (lagsUpTo c.maxLag c.lagRes (c.numLagSteps + 1) c.minLag false).length = L.length := by
    rw [← hk]; simp
  have hsame := lagsUpTo_short (lo := c.minLag) (hi := c.maxLag) (res := c.lagRes) (n := c.numLagSteps)
    (p := false) (by omega)
  rw [hks] at hsame
  have hplan : planRun a "natural" "fractional" c.ds.normT c.alpha c.minLag c.maxLag c.lagRes L.length
      = .ok L := by
    unfold planRun at hL ⊢
    rw [hsame]
    rw [List.take_of_length_le (by omega)] at hL
    rw [List.take_of_length_le (by omega)]
    rw [Res.bind_eq_ok] at hL ⊢
    obtain ⟨L', h1, h2⟩ := hL
    refine ⟨L', h1, ?_⟩
    rw [if_pos (by omega)] at h2
    rw [if_pos (by omega)]
    exact h2
  have : planRun a "natural" "fractional" (c.store L).ds.normT (c.store L).alpha (c.store L).minLag
      (c.store L).maxLag (c.store L).lagRes (c.store L).numLagSteps = .ok L := hplan
  rw [this]
  rfl

/-- **C40**: after any history of calls (without `clearCorrelation`), once `calculateStandardCorrelation` has
returned, further calls of it change nothing. -/
theorem C40_idempotent (a : AbsFn) (d : DS F) (hd : Constructed d) (c0 c c' : Corr F)
    (h0 : Corr.new d = .ok c0) (hist : List (CorrCall F)) (hcl : ∀ x ∈ hist, x ≠ .clear)
    (h1 : runCalls a c0 hist = .ok c) (h2 : c.calculateStandardCorrelation a = .ok c') (n : Nat) :
    runCalls a c' (List.replicate n .calculate) = .ok c' := by
  obtain ⟨_, _, _, hg0⟩ := corrNew_good hd.wf h0
  obtain ⟨hg, _⟩ := good_runCalls hg0 hcl h1
  have h3 := calculate_twice hg h2
  induction n with
  | zero => rfl
  | succ n ih =>
    rw [List.replicate_succ]
    unfold runCalls at ih ⊢
    rw [Res.foldL_cons]
    simp only [CorrCall.run, h3, Res.ok_bind]
    exact ih

/-- the first call does change the state -/
example : ((mkFlat (q [0, 1, 3]) (q [1, 2, 4])).bind fun d => (Corr.new d).bind fun c0 =>
    (runCalls .fabs c0 [.setMaxLag (.fin 1)]).bind fun c =>
    (c.calculateStandardCorrelation .fabs).bind fun c' =>
    .ok (c.lagTimeseries.length, c'.lagTimeseries.length)) = .ok (9, 5) := by decide +kernel

/-! ## C41 -/

/-- **C41**: over every history of public calls without `clearCorrelation` the buffers stay consistent,
`correlations()` is in bounds and rectangular, and the data structure is unchanged. -/
theorem C41_history (a : AbsFn) (d : DS F) (hd : Constructed d) (c0 c : Corr F)
    (h0 : Corr.new d = .ok c0) (hist : List (CorrCall F)) (hcl : ∀ x ∈ hist, x ≠ .clear)
    (h1 : runCalls a c0 hist = .ok c) :
    c.lagTimeseries.length = c.numLagSteps ∧
    (∃ rows, c.correlations = .ok rows ∧ rows.length = d.N ∧
      ∀ row ∈ rows, row.length = c.lagTimeseries.length) ∧
    c.ds = d := by
  obtain ⟨n, _, rfl, hg0⟩ := corrNew_good hd.wf h0
  obtain ⟨hg, hds, _⟩ := good_runCalls hg0 hcl h1
  have hds : c.ds = d := hds
  obtain ⟨rows, hr1, hr2, hr3⟩ := correlations_good hg
  refine ⟨hg.ts_len, ⟨rows, hr1, by rw [hr2, hds], ?_⟩, hds⟩
  intro row hrow
  rw [hr3 row hrow]; exact hg.ts_len.symm

/-- **C41**: after `clearCorrelation` the lag count is stale: as long as it is not zero, `correlations()` reads out
of bounds. -/
theorem C41_clear_breaks (a : AbsFn) (d : DS F) (hd : Constructed d) (c0 c : Corr F)
    (h0 : Corr.new d = .ok c0) (hist : List (CorrCall F)) (hcl : ∀ x ∈ hist, x ≠ .clear)
    (h1 : runCalls a c0 hist = .ok c) (hn : c.lagTimeseries ≠ []) :
    c.clearCorrelation.lagTimeseries = [] ∧ c.clearCorrelation.correlations = .ub := by
  obtain ⟨n, _, rfl, hg0⟩ := corrNew_good hd.wf h0
  obtain ⟨hg, hds, _⟩ := good_runCalls hg0 hcl h1
  refine ⟨rfl, ?_⟩
  have hpos : 0 < c.numLagSteps := by
    rw [← hg.ts_len]; exact List.length_pos_iff.2 hn
  have hN := hg.wf.npos
  have := unflatten_ub (v := ([] : List F)) (N := c.ds.N) (M := c.numLagSteps)
    (by simp; exact ⟨hN, hpos⟩)
  unfold unflatten vecIdx at this
  exact this

/-- **C41**: recomputing after `clearCorrelation` (with a lag due and a floating-point `abs`) writes outside the
emptied buffers. -/
theorem C41_clear_then_compute (d : DS F) (hd : Constructed d) (c0 c : Corr F)
    (h0 : Corr.new d = .ok c0) (hist : List (CorrCall F)) (hcl : ∀ x ∈ hist, x ≠ .clear)
    (h1 : runCalls .fabs c0 hist = .ok c) (hlag : le c.minLag c.maxLag = true) :
    c.clearCorrelation.calculateStandardCorrelation .fabs = .ub := by
  obtain ⟨n, _, rfl, hg0⟩ := corrNew_good hd.wf h0
  obtain ⟨hg, hds, _⟩ := good_runCalls hg0 hcl h1
  have step : ∀ k, pyStep .fabs "natural" "fractional" c.clearCorrelation k 0 = .ub := by
    intro k
    rw [pyStep_eq .fabs "natural" "fractional" (c := c.clearCorrelation) hg.wf hg.norm_len]
    obtain ⟨s, _, _, _, h⟩ := lagPlan_natural (nt := c.clearCorrelation.ds.normT) hg.wf.ne
      (show planWt "fractional" = .ok Corr.fractionWeight from rfl) c.clearCorrelation.alpha k
    rw [h]
    rfl
  unfold Corr.calculateStandardCorrelation
  rw [standardLoop_eq_pyLoop]
  have hlen : c.clearCorrelation.tsBuf.length + 1 = 0 + 1 := rfl
  rw [hlen]
  unfold pyLoop
  rw [if_pos (show le c.clearCorrelation.minLag c.clearCorrelation.maxLag = true from hlag)]
  simp only [step, Res.ub_bind]
  split <;> (split <;> rfl)

example : ((mkFlat (q [0, 1, 3]) (q [1, 2, 4])).bind fun d => (Corr.new d).bind fun c0 =>
    (runCalls .fabs c0 [.calculate, .setMaxLag (.fin 1), .calculate, .clean 3]).bind fun c =>
    .ok (c.lagTimeseries.length)) = .ok 3 := by decide +kernel

/-! ## C42 -/

/-- the arguments of one `autocorrelation` call -/
structure AcCall (F : Type) where
  args : LagArgs F
  sel : String
  wt : String

/-- A session on one `SACF` object: the calls are made one after the other; each one works on the data
structure as the previous call left it (the correlator of a successful call points to it). -/
def session (a : AbsFn) (d : DS F) : List (AcCall F) → List (Res (AcResult F))
  | [] => []
  | x :: xs =>
    let r := autocorrelation a d x.args x.sel x.wt
    r :: session a (match r with | .ok y => y.corr.ds | _ => d) xs

/-- **C42**: every call in a session returns what it returns on a fresh object. -/
theorem C42_repeatable (a : AbsFn) (d : DS F) (hd : Constructed d) (calls : List (AcCall F)) :
    session a d calls = calls.map fun x => autocorrelation a d x.args x.sel x.wt := by
  induction calls with
  | nil => rfl
  | cons x xs ih =>
    have hds : ∀ y, autocorrelation a d x.args x.sel x.wt = .ok y → y.corr.ds = d := by
      intro y hy
      obtain ⟨c', hc', he⟩ := autocorrelation_eq a hd.wf x.args x.sel x.wt
      rw [he, Res.bind_eq_ok] at hy
      obtain ⟨L, _, hy⟩ := hy
      rw [Res.bind_eq_ok] at hy
      obtain ⟨o, _, hy⟩ := hy
      simp only [Res.ok.injEq] at hy
      rw [← hy]
      exact (hc' L).1
    simp only [session, List.map_cons]
    cases hr : autocorrelation a d x.args x.sel x.wt with
    | ok y => simp only [hds y hr, ih]
    | exn e => simp only [ih]
    | ub => simp only [ih]
    | diverge => simp only [ih]

/-- a session with a failing call in the middle -/
example : ((mkFlat (q [0, 1, 3]) (q [1, 2, 4])).bind fun d =>
    .ok ((session .fabs d [⟨{}, "natural", "fractional"⟩, ⟨{}, "nosuch", "fractional"⟩,
      ⟨{ maxLag := some (.fin 0) }, "natural", "fractional"⟩]).map fun r => r.bind fun x => .ok x.lags.length))
    = .ok [.ok 7, .exn (.keyError "nosuch"), .ok 4] := by decide +kernel

/-! ## C43 -/

/-- `deltaT` if reading a vector element at or beyond `size()` is undefined, as the C++ standard says. -/
def deltaTStrict (a : AbsFn) (c : Corr F) (it : CorrIt F) : Res (CorrIt F) :=
  (Res.mapL
    (fun (p : Nat × Nat) =>
      (atGet c.ds.normT p.1).bind fun t =>
      (rawGet it.shifted.elems p.2).bind fun s => a.app (sub t s))
    it.selection.zipIdx).bind fun ds =>
  .ok { it with deltaT := it.deltaT ++ ds, shifted := it.shifted.clear }

/-- **C43 is false of the code**: whenever natural selection has selected anything, the following `deltaT` reads
elements of a vector of size 0 (in the strict reading undefined behaviour); what it finds in the retained
storage is the shifted time of the same position. -/
theorem C43_reads_cleared_vector_partial (d : DS F) (hd : Constructed d) (c : Corr F) (hc : c.ds = d) (k : F)
    (n : Nat) (it : CorrIt F) (h : Corr.naturalSelection .fabs c (CorrIt.new k n) = .ok it) :
    it.shifted.elems = [] ∧
    (it.selection ≠ [] → deltaTStrict .fabs c it = .ub) ∧
    (∀ i < it.selection.length, ∃ x, d.normT[i]? = some x ∧ it.shifted.raw i = .ok (add x k)) := by
  subst hc
  have hw := hd.wf
  obtain ⟨s, hs, hl, hb⟩ := planNat_fabs hw.ne k
  rw [naturalSelection_eq .fabs c hw.ne, hs] at h
  simp only [Res.ok_bind, Res.ok.injEq] at h
  subst h
  refine ⟨rfl, ?_, ?_⟩
  · intro hne
    simp only at hne
    unfold deltaTStrict
    cases s with
    | nil => exact absurd rfl hne
    | cons x xs =>
      have hx := hb x (by simp)
      simp only [List.zipIdx_cons, Res.mapL_cons]
      rw [atGet_of_lt hx]
      simp [rawGet]
  · intro i hi
    simp only at hi
    have hle := shiftedNat_length_le c.ds.normT k
    have hlt : i < c.ds.normT.length := by omega
    refine ⟨c.ds.normT[i], by simp [hlt], ?_⟩
    simp only [Vec.raw, List.nil_append]
    rw [rawGet_eq_ok]
    have hpre : shiftedNat c.ds.normT k <+: c.ds.normT.map (fun t => add t k) := List.takeWhile_prefix _
    have hi' : i < (shiftedNat c.ds.normT k).length := by omega
    rw [List.getElem?_eq_getElem hi', hpre.getElem hi']
    simp

example : ((mkFlat (q [0, 1, 3]) (q [1, 2, 4])).bind fun d => (Corr.new d).bind fun c =>
    (c.naturalSelection .fabs (CorrIt.new (.fin 1) 1)).bind fun it => .ok it.selection)
      = .ok [1, 2] := by decide +kernel

end Sacf
