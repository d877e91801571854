import Verif.Lemmas.Scale
import Verif.Spec.Rational
import Mathlib.Algebra.BigOperators.Ring.List

/-!
# Changes of the data and of the time axis that must not matter (C27, C28, C29)

`acOut a d g sel wt` is the pair (lags, correlations) returned by `autocorrelation`, or the way it fails; the theorems
equate outcomes, so they also say that the failures are the same.
-/

set_option linter.unusedSectionVars false
set_option linter.unusedSimpArgs false

namespace Sacf

variable {K : Type} [Field K] [LinearOrder K] [IsStrictOrderedRing K] [FloorRing K]
variable {dm : K} {f32 ex : K → K}

/-! ## C28 -/

/-- **C28** (any arithmetic): lags and correlations are a function of `normalised_timeseries()` and `data()` alone; in
particular they do not depend on the errors. -/
theorem C28_depends_on_differences {F : Type} [Arith F] (a : AbsFn) {d d' : DS F} (hd : Constructed d)
    (hd' : Constructed d') (ht : d.normalisedTimeseries = d'.normalisedTimeseries) (hdat : d.data2d = d'.data2d)
    (g : LagArgs F) (sel wt : String) : acOut a d g sel wt = acOut a d' g sel wt :=
  acOut_congr a hd hd' ht hdat g sel wt

/-- **C28**: adding a constant to all times changes nothing, for any times (also unordered, infinite or NaN), any data,
any parameters, any selection and weight function, and either `abs`. -/
theorem C28_shift (a : AbsFn) {d d' : DS (Exact dm f32 ex)} (hd : Constructed d) (hd' : Constructed d') (c : K)
    (ht : d'.timeseries = d.timeseries.map fun x => Arith.add x (.fin c)) (hdat : d.data2d = d'.data2d)
    (g : LagArgs (Exact dm f32 ex)) (sel wt : String) : acOut a d g sel wt = acOut a d' g sel wt := by
  refine acOut_congr a hd hd' ?_ hdat g sel wt
  obtain ⟨t, data, err, N, hN, hb⟩ := hd.built
  obtain ⟨t', data', err', N', hN', hb'⟩ := hd'.built
  have e : t' = t.map fun x => Arith.add x (.fin c) := by
    have := ht
    unfold DS.timeseries at this
    rwa [hb.ht, hb'.ht] at this
  subst e
  rw [hb.normT, hb'.normT, List.map_map]
  apply List.map_congr_left
  intro x _
  simp only [Function.comp, List.head_map]
  generalize t.head hb.tne = t0
  cases x <;> cases t0 <;> try rfl
  rename_i x y
  rw [ex_add, ex_add, ex_sub, ex_sub]
  congr 1
  ring

example : ((mkFlat (q [5, 6, 8]) (q [1, 2, 6])).bind fun d => acOut .fabs d {} "fast" "gaussian")
    = ((mkFlat (q [0, 1, 3]) (q [1, 2, 6])).bind fun d => acOut .fabs d {} "fast" "gaussian") := by decide +kernel

example : ((mkFlat (q [5, 6, 8]) (q [1, 2, 6])).bind fun d =>
      acOut .intAbs d ⟨none, none, some (.fin (3/2)), none⟩ "natural" "fractional_squared")
    = .ok (q [-3, -3/2, 0, 3/2, 3], .flat (q [-13/35, 1/14, 1, -1/14, -3/7])) := by decide +kernel

/-! ## C29 -/

theorem scale_timeScale {c : K} (hc : 0 < c) : TimeScale (F := Exact dm f32 ex) (XF.scale c) where
  zero := by simp [XF.scale]
  add := by
    intro x y
    cases x <;> cases y <;> try rfl
    simp only [XF.scale, ex_add, mul_add]
  sub := by
    intro x y
    cases x <;> cases y <;> try rfl
    simp only [XF.scale, ex_sub, mul_sub]
  neg := by
    intro x
    cases x <;> try rfl
    simp only [XF.scale, xf_neg, mul_neg]
  fabs := by
    intro x
    cases x <;> try rfl
    simp only [XF.scale, xf_fabs, abs_mul, abs_of_pos hc]
  lt := by
    intro x y
    cases x <;> cases y <;> try rfl
    simp only [XF.scale, xf_lt, mul_lt_mul_iff_right₀ hc]
  le := by
    intro x y
    cases x <;> cases y <;> try rfl
    simp only [XF.scale, xf_le, mul_le_mul_iff_right₀ hc]
  eq := by
    intro x y
    cases x <;> cases y <;> try rfl
    simp only [XF.scale, xf_eq, mul_right_inj' hc.ne']
  div := by
    intro x y
    cases x <;> cases y <;> try rfl
    · rename_i y
      show XF.div _ _ = XF.div _ _
      simp only [XF.scale, XF.div, mul_neg_iff, hc, hc.le, not_lt.2 hc.le, true_and, false_and, or_false]
    · rename_i y
      show XF.div _ _ = XF.div _ _
      simp only [XF.scale, XF.div, mul_neg_iff, hc, hc.le, not_lt.2 hc.le, true_and, false_and, or_false]
    · rename_i x y
      show XF.div _ _ = XF.div _ _
      simp only [XF.scale, XF.div, mul_eq_zero, hc.ne', false_or]
      split
      · simp only [XF.infSign, mul_neg_iff, mul_pos_iff, hc, not_lt.2 hc.le, true_and, false_and, or_false]
      · rw [mul_div_mul_left _ _ hc.ne']
  half := by
    intro x
    cases x with
    | nan => rfl
    | ninf =>
      show XF.div _ _ = XF.scale c (XF.div _ _)
      simp only [XF.scale, XF.div, xf_two]
      split <;> rfl
    | pinf =>
      show XF.div _ _ = XF.scale c (XF.div _ _)
      simp only [XF.scale, XF.div, xf_two]
      split <;> rfl
    | fin x =>
      simp only [XF.scale, xf_two]
      rw [ex_div two_ne_zero, ex_div two_ne_zero, mul_div_assoc]
  gauss := by
    intro x y
    have hc2 : 0 < c * c := mul_pos hc hc
    have num : ∀ y : Exact dm f32 ex, Arith.neg (Arith.mul (XF.scale c y) (XF.scale c y))
        = XF.scale (c * c) (Arith.neg (Arith.mul y y)) := by
      intro y
      cases y <;> try rfl
      simp only [XF.scale, ex_mul, xf_neg]
      congr 1; ring
    have den : ∀ x : Exact dm f32 ex, Arith.mul (Arith.mul Arith.two (XF.scale c x)) (XF.scale c x)
        = XF.scale (c * c) (Arith.mul (Arith.mul Arith.two x) x) := by
      intro x
      have h2 : ¬ ((2 : K) < 0) := by norm_num
      cases x with
      | nan => rfl
      | ninf =>
        show XF.mul (XF.mul (.fin 2) .ninf) .ninf = XF.scale _ (XF.mul (XF.mul (.fin 2) .ninf) .ninf)
        simp [XF.scale, XF.mul, XF.infSign, h2]
      | pinf =>
        show XF.mul (XF.mul (.fin 2) .pinf) .pinf = XF.scale _ (XF.mul (XF.mul (.fin 2) .pinf) .pinf)
        simp [XF.scale, XF.mul, XF.infSign]
      | fin x =>
        simp only [XF.scale, ex_mul, xf_two]
        congr 1; ring
    unfold Corr.gaussianWeight
    rw [num, den]
    congr 1
    generalize Arith.neg (Arith.mul y y) = u
    generalize Arith.mul (Arith.mul Arith.two x) x = v
    cases u <;> cases v <;> try rfl
    · rename_i y
      show XF.div _ _ = XF.div _ _
      simp only [XF.scale, XF.div, mul_neg_iff, hc2, not_lt.2 hc2.le, true_and, false_and, or_false]
    · rename_i y
      show XF.div _ _ = XF.div _ _
      simp only [XF.scale, XF.div, mul_neg_iff, hc2, not_lt.2 hc2.le, true_and, false_and, or_false]
    · rename_i x y
      show XF.div _ _ = XF.div _ _
      simp only [XF.scale, XF.div, mul_eq_zero, hc.ne', false_or]
      split
      · simp only [XF.infSign, mul_neg_iff, mul_pos_iff, hc, not_lt.2 hc.le, true_and, false_and, or_false, hc2,
          not_lt.2 hc2.le]
      · rw [mul_div_mul_left _ _ hc2.ne']

/-- **C29**: multiplying all times and all given lag parameters by `c > 0` multiplies the lags by `c` and changes
nothing else.  The times need not be sorted; no distance of neighbouring times, before or after, may exceed
`DBL_MAX` (the start value of the search for the smallest one). -/
theorem C29_time_unit {d d' : DS (Exact dm f32 ex)} (hd : Constructed d) (hd' : Constructed d') {M : ℕ} {t : ℕ → K}
    {c : K} (hc : 0 < c) (hM : 2 ≤ M) (ht : d.timeseries = samples M t)
    (ht' : d'.timeseries = samples M fun i => c * t i) (hdat : d.data2d = d'.data2d)
    (hgap : ∀ i, i + 1 < M → t (i + 1) - t i ≤ dm ∧ c * (t (i + 1) - t i) ≤ dm)
    (g : LagArgs (Exact dm f32 ex)) (sel wt : String) :
    acOut .fabs d' (g.map (XF.scale c)) sel wt
      = (acOut .fabs d g sel wt).bind fun p => .ok (p.1.map (XF.scale c), p.2) := by
  have hσ : TimeScale (F := Exact dm f32 ex) (XF.scale c) := scale_timeScale hc
  obtain ⟨_, hn, _⟩ := built_times hd ht
  obtain ⟨_, hn', _⟩ := built_times hd' ht'
  have hnt : d'.normT = d.normT.map (XF.scale c) := by
    rw [hn, hn']
    unfold samples
    rw [List.map_map]
    apply List.map_congr_left
    intro i _
    simp only [Function.comp, XF.scale, mul_sub]
  have hmed : d'.tMedian = XF.scale c d.tMedian := by
    obtain ⟨_, _, _, _, _, hb⟩ := hd.built
    obtain ⟨_, _, _, _, _, hb'⟩ := hd'.built
    have h1 := hb'.med
    rw [hnt, settMedian_scale hσ, hb.med] at h1
    simpa using h1.symm
  have hmin : findMinDiff (d.normT.map (XF.scale c)) = XF.scale c (findMinDiff d.normT) := by
    rw [← hnt, hn, hn']
    obtain ⟨b, h1, h2, h3, h4⟩ := findMinDiff_samples (dm := dm) (f32 := f32) (ex := ex) M (fun i => t i - t 0)
    obtain ⟨b', h1', h2', h3', h4'⟩ := findMinDiff_samples (dm := dm) (f32 := f32) (ex := ex) M
      (fun i => c * t i - c * t 0)
    rw [h1, h1']
    simp only [XF.scale]
    congr 1
    have ha : ∃ i, i + 1 < M ∧ b = t (i + 1) - t i := by
      rcases h4 with h4 | ⟨i, hi, h4⟩
      · refine ⟨0, by omega, ?_⟩
        have a1 := h3 0 (by omega)
        have a2 := (hgap 0 (by omega)).1
        simp only [Nat.zero_add] at a1 a2 ⊢
        linarith
      · exact ⟨i, hi, by rw [h4]; ring⟩
    have ha' : ∃ i, i + 1 < M ∧ b' = c * (t (i + 1) - t i) := by
      rcases h4' with h4 | ⟨i, hi, h4⟩
      · refine ⟨0, by omega, ?_⟩
        have a1 := h3' 0 (by omega)
        have a2 := (hgap 0 (by omega)).2
        simp only [Nat.zero_add] at a1 a2 ⊢
        linarith
      · exact ⟨i, hi, by rw [h4]; ring⟩
    obtain ⟨i, hi, rfl⟩ := ha
    obtain ⟨i', hi', rfl⟩ := ha'
    have a1 := h3 i' hi'
    have a2 := h3' i hi
    have a3 : t (i + 1) - t i ≤ t (i' + 1) - t i' := by linarith
    have := mul_le_mul_of_nonneg_left a3 hc.le
    linarith
  obtain ⟨rows, hrows⟩ := data2d_ok hd
  rw [acOut_table _ hd hrows, acOut_table _ hd' (hdat ▸ hrows), hnt, hmed, acPlan_scale hσ _ _ _ _ _ hmin,
    Res.bind_assoc, Res.bind_assoc]
  apply Res.bind_congr
  intro L _
  simp only [Res.ok_bind, rowCorr_scale, Res.bind_assoc, List.map_map]
  rfl

example : ((mkFlat (q [0, 2/3, 2]) (q [1, 2, 6])).bind fun d =>
      acOut .fabs d ⟨none, none, some (.fin 1), none⟩ "natural" "fractional_squared")
    = .ok (q [-2, -1, 0, 1, 2], .flat (q [-13/35, 2/65, 1, -2/35, -3/7])) := by decide +kernel
example : ((mkFlat (q [0, 1, 3]) (q [1, 2, 6])).bind fun d =>
      acOut .fabs d ⟨none, none, some (.fin (3/2)), none⟩ "natural" "fractional_squared")
    = .ok (q [-3, -3/2, 0, 3/2, 3], .flat (q [-13/35, 2/65, 1, -2/35, -3/7])) := by decide +kernel

/-- **C29** fails when `abs` truncates to integers: halving the unit changes the correlations. -/
theorem C29_false_intAbs :
    ((mkFlat (q [0, 1, 3]) (q [1, 2, 6])).bind fun d => acOut .intAbs d {} "natural" "fractional")
      ≠ ((mkFlat (q [0, 1/4, 3/4]) (q [1, 2, 6])).bind fun d =>
        (acOut .intAbs d {} "natural" "fractional").bind fun p => .ok (p.1.map (XF.scale 4), p.2)) := by
  decide +kernel

/-! ## C27 -/

/-- `a * v + b` on a value that may be missing -/
def affine (a b : K) (o : Option K) : Option K := o.map fun v => a * v + b

local notation "E" => XF (Rnd.exact dm f32 ex)

/-- a value that may be missing, as a double -/
def optX {R : Rnd K} : Option K → XF R
  | some v => .fin v
  | none => .nan

theorem obs_eq {R : Rnd K} (M : ℕ) (x : ℕ → Option K) :
    (obs M x : List (XF R)) = ((List.range M).map x).map optX := by
  unfold obs
  rw [List.map_map]
  apply List.map_congr_left
  intro i _
  simp only [Function.comp]
  cases x i <;> rfl

theorem opt_filter (l : List (Option K)) :
    (l.map optX).filter (fun d : E => !Arith.isNaN d) = (l.filterMap id).map .fin := by
  induction l with
  | nil => rfl
  | cons o l ih =>
    cases o with
    | none => simpa [optX, List.filter_cons] using ih
    | some v => simpa [optX, List.filter_cons] using ih

theorem foldl_add_fin (l : List K) (a : K) : (l.map .fin).foldl Arith.add (.fin a : E) = .fin (a + l.sum) := by
  induction l generalizing a with
  | nil => simp
  | cons x l ih => rw [List.map_cons, List.foldl_cons, ex_add, ih, List.sum_cons, add_assoc]

theorem meanOf_opt (l : List (Option K)) :
    meanOf (l.map optX : List E) = if l.filterMap id = [] then .nan
      else .fin ((l.filterMap id).sum / ((l.filterMap id).length : K)) := by
  unfold meanOf
  simp only [opt_filter, xf_zero, foldl_add_fin, zero_add, ex_ofInt, List.length_map]
  split
  · rename_i h
    rw [h]
    show XF.div _ _ = _
    simp [XF.div, XF.infSign]
  · rename_i h
    have h0 : (((l.filterMap id).length : ℤ) : K) ≠ 0 := by
      have := List.length_pos_iff.2 h
      exact_mod_cast this.ne'
    rw [ex_div h0]
    congr 2
    push_cast; rfl

theorem normOfRow_opt (l : List (Option K)) (m acc : K) :
    (l.map optX).foldl (fun acc x => if Arith.isNaN (Arith.toFloat x) then acc
        else Arith.addMul acc (Arith.sub (Arith.toFloat x) (.fin m)) (Arith.sub (Arith.toFloat x) (.fin m)))
      (.fin acc : E) = .fin (acc + ((l.filterMap id).map fun v => (f32 v - m) * (f32 v - m)).sum) := by
  induction l generalizing acc with
  | nil => simp
  | cons o l ih =>
    cases o with
    | none =>
      rw [List.map_cons, List.foldl_cons]
      have e : (Arith.toFloat (optX none) : E) = .nan := rfl
      rw [e, xf_isNaN_nan, if_pos rfl, ih]
      simp
    | some v =>
      rw [List.map_cons, List.foldl_cons]
      have e : (Arith.toFloat (optX (some v)) : E) = .fin (f32 v) := rfl
      rw [e, xf_isNaN, if_neg (by simp), ex_sub, ex_addMul, ex_mul, ex_add, ih]
      simp [add_assoc]

theorem normOfRow_allNaN (l : List (Option K)) (h : l.filterMap id = []) (m acc : E) :
    (l.map optX).foldl (fun acc x => if Arith.isNaN (Arith.toFloat x) then acc
        else Arith.addMul acc (Arith.sub (Arith.toFloat x) m) (Arith.sub (Arith.toFloat x) m))
      acc = acc := by
  induction l generalizing acc with
  | nil => rfl
  | cons o l ih =>
    cases o with
    | none =>
      rw [List.map_cons, List.foldl_cons]
      have e : (Arith.toFloat (optX none) : E) = .nan := rfl
      rw [e, xf_isNaN_nan, if_pos rfl, ih (by simpa using h)]
    | some v => simp at h

/-- products scale with the square, also for an infinite or undefined weight -/
theorem mul_scale {a : K} (ha : a ≠ 0) (w : E) (x y : E) (hx : x = .nan ∨ ∃ v, x = .fin v)
    (hy : y = .nan ∨ ∃ v, y = .fin v) :
    Arith.mul (Arith.mul w (XF.scale a x)) (XF.scale a y) = XF.scale (a * a) (Arith.mul (Arith.mul w x) y) := by
  have hnan : ∀ z : E, Arith.mul z .nan = .nan := by intro z; cases z <;> rfl
  have hnan' : ∀ z : E, Arith.mul .nan z = .nan := by intro z; cases z <;> rfl
  have hs : ∀ c : K, XF.scale c (.nan : E) = .nan := fun _ => rfl
  rcases hx with rfl | ⟨x, rfl⟩
  · simp only [hs, hnan, hnan']
  · rcases hy with rfl | ⟨y, rfl⟩
    · simp only [hs, hnan, hnan']
    · cases w with
      | nan => simp only [hnan', hs]
      | fin w =>
        simp only [XF.scale, ex_mul]
        congr 1; ring
      | pinf =>
        show XF.mul (XF.infSign (a * x)) (.fin (a * y)) = XF.scale _ (XF.mul (XF.infSign x) (.fin y))
        rcases lt_trichotomy x 0 with hx | rfl | hx <;> rcases lt_trichotomy y 0 with hy | rfl | hy <;>
          rcases lt_or_gt_of_ne ha with h | h <;>
          simp [XF.infSign, XF.mul, XF.scale, mul_pos_iff, mul_neg_iff, *, lt_asymm, not_lt.2, le_of_lt]
      | ninf =>
        show XF.mul (XF.infSign (-(a * x))) (.fin (a * y)) = XF.scale _ (XF.mul (XF.infSign (-x)) (.fin y))
        rcases lt_trichotomy x 0 with hx | rfl | hx <;> rcases lt_trichotomy y 0 with hy | rfl | hy <;>
          rcases lt_or_gt_of_ne ha with h | h <;>
          simp [XF.infSign, XF.mul, XF.scale, mul_pos_iff, mul_neg_iff, *, lt_asymm, not_lt.2, le_of_lt]

theorem getD_scale (a : K) (l : List E) (i : ℕ) :
    (l.map (XF.scale a)).getD i Arith.zero = XF.scale a (l.getD i Arith.zero) := by
  rw [List.getD_eq_getElem?_getD, List.getD_eq_getElem?_getD, List.getElem?_map]
  cases l[i]? with
  | none => simp [XF.scale]
  | some x => rfl

/-- the correlation is the same for scaled deviations -/
theorem corrValue_scale {a : K} (ha : a ≠ 0) (l : List E) (hl : ∀ x ∈ l, x = .nan ∨ ∃ v, x = .fin v) (n : K)
    (ps : List (E × ℕ)) :
    corrValue (l.map (XF.scale a)) (.fin (a * a * n)) ps = corrValue l (.fin n) ps := by
  have hpos : 0 < a * a := mul_self_pos.2 ha
  have hget : ∀ i, l.getD i Arith.zero = (.nan : E) ∨ ∃ v, l.getD i Arith.zero = (.fin v : E) := by
    intro i
    rw [List.getD_eq_getElem?_getD]
    cases h : l[i]? with
    | none => exact Or.inr ⟨0, rfl⟩
    | some x => exact hl x (List.mem_iff_getElem?.2 ⟨i, h⟩)
  have hσ : TimeScale (F := E) (XF.scale (a * a)) := scale_timeScale hpos
  have hf : ∀ (qs : List ((E × ℕ) × ℕ)) (acc : E),
      qs.foldl (fun acc p => Arith.addMul acc (Arith.mul p.1.1 ((l.map (XF.scale a)).getD p.2 Arith.zero))
        ((l.map (XF.scale a)).getD p.1.2 Arith.zero)) (XF.scale (a * a) acc)
      = XF.scale (a * a) (qs.foldl (fun acc p => Arith.addMul acc (Arith.mul p.1.1 (l.getD p.2 Arith.zero))
        (l.getD p.1.2 Arith.zero)) acc) := by
    intro qs
    induction qs with
    | nil => intro acc; rfl
    | cons p qs ih =>
      intro acc
      rw [List.foldl_cons, List.foldl_cons, getD_scale, getD_scale, ex_addMul, ex_addMul, mul_scale ha _ _ _ (hget _) (hget _), hσ.add]
      exact ih _
  unfold corrValue
  have h0 := hf ps.zipIdx Arith.zero
  rw [hσ.zero] at h0
  rw [h0]
  generalize ps.zipIdx.foldl _ _ = acc
  have hdiv : ∀ m : K, (Arith.div Arith.one (.fin m) : E) = if m = 0 then .pinf else .fin (1 / m) := by
    intro m
    show XF.div _ _ = _
    simp [XF.div, XF.infSign]
  rw [hdiv, hdiv]
  by_cases hn : n = 0
  · rw [if_pos (by rw [hn, mul_zero]), if_pos hn]
    cases acc with
    | fin x =>
      show XF.infSign (a * a * x) = XF.infSign x
      unfold XF.infSign
      simp only [mul_neg_iff, mul_pos_iff, hpos, not_lt.2 hpos.le, true_and, false_and, or_false]
    | _ => rfl
  · rw [if_neg (mul_ne_zero hpos.ne' hn), if_neg hn]
    cases acc with
    | nan => rfl
    | fin x =>
      simp only [XF.scale, ex_mul]
      congr 1
      field_simp
    | pinf =>
      show XF.infSign (1 / (a * a * n)) = XF.infSign (1 / n)
      unfold XF.infSign
      simp only [one_div, inv_pos, mul_neg_iff, mul_pos_iff, hpos, not_lt.2 hpos.le, true_and, false_and,
        or_false, inv_lt_zero]
    | ninf =>
      show XF.infSign (-(1 / (a * a * n))) = XF.infSign (-(1 / n))
      unfold XF.infSign
      simp only [one_div, neg_pos, neg_lt_zero, inv_pos, inv_lt_zero, mul_neg_iff, mul_pos_iff, hpos,
        not_lt.2 hpos.le, true_and, false_and, or_false]

theorem filterMap_affine (a b : K) (l : List (Option K)) :
    (l.map (affine a b)).filterMap id = (l.filterMap id).map fun v => a * v + b := by
  induction l with
  | nil => rfl
  | cons o l ih =>
    cases o with
    | none => exact ih
    | some v => exact congrArg (List.cons (a * v + b)) ih

theorem sum_affine (a b : K) (l : List K) : (l.map fun v => a * v + b).sum = a * l.sum + b * l.length := by
  induction l with
  | nil => simp
  | cons v l ih =>
    simp only [List.map_cons, List.sum_cons, ih, List.length_cons]
    push_cast; ring

/-- the correlations of one row are those of its affine image -/
theorem rowCorr_affine {a b : K} (ha : a ≠ 0) (l : List (Option K))
    (hf : ∀ v, some v ∈ l → f32 v = v ∧ f32 (a * v + b) = a * v + b) (L : List (E × List (E × ℕ))) :
    rowCorr ((l.map (affine a b)).map optX) L = rowCorr (l.map optX) L := by
  unfold rowCorr
  apply List.map_congr_left
  intro p _
  by_cases hnil : l.filterMap id = []
  · have hnone : ∀ o ∈ l, o = none := by
      intro o ho
      cases o with
      | none => rfl
      | some v =>
        have : v ∈ l.filterMap id := List.mem_filterMap.2 ⟨some v, ho, rfl⟩
        rw [hnil] at this; simp at this
    have : l.map (affine a b) = l := by
      conv_rhs => rw [← List.map_id l]
      apply List.map_congr_left
      intro o ho
      rw [hnone o ho]; rfl
    rw [this]
  · have hnil' : (l.map (affine a b)).filterMap id ≠ [] := by
      rw [filterMap_affine]; simpa using hnil
    have hlen : ((l.filterMap id).length : K) ≠ 0 := by
      have := List.length_pos_iff.2 hnil
      exact_mod_cast this.ne'
    rw [meanOf_opt, meanOf_opt, if_neg hnil, if_neg hnil']
    have hmean : ((l.map (affine a b)).filterMap id).sum / (((l.map (affine a b)).filterMap id).length : K)
        = a * ((l.filterMap id).sum / ((l.filterMap id).length : K)) + b := by
      rw [filterMap_affine, sum_affine, List.length_map]
      field_simp
    rw [hmean]
    generalize (l.filterMap id).sum / ((l.filterMap id).length : K) = μ
    have hnorm : normOfRow ((l.map (affine a b)).map optX) (.fin (a * μ + b) : E)
        = .fin (a * a * ((l.filterMap id).map fun v => (f32 v - μ) * (f32 v - μ)).sum) := by
      unfold normOfRow
      rw [xf_zero, normOfRow_opt, filterMap_affine, List.map_map, zero_add, ← List.sum_map_mul_left]
      congr 2
      apply List.map_congr_left
      intro v hv
      obtain ⟨o, ho, hov⟩ := List.mem_filterMap.1 hv
      simp only [id] at hov
      subst hov
      obtain ⟨h1, h2⟩ := hf v ho
      simp only [Function.comp, h1, h2]
      ring
    have hnorm0 : normOfRow (l.map optX) (.fin μ : E)
        = .fin (((l.filterMap id).map fun v => (f32 v - μ) * (f32 v - μ)).sum) := by
      unfold normOfRow
      rw [xf_zero, normOfRow_opt, zero_add]
    have hdev : ((l.map (affine a b)).map optX).map (fun x => Arith.sub x (.fin (a * μ + b) : E))
        = ((l.map optX).map fun x => Arith.sub x (.fin μ : E)).map (XF.scale a) := by
      simp only [List.map_map]
      apply List.map_congr_left
      intro o _
      cases o with
      | none => rfl
      | some v =>
        simp only [Function.comp, affine, Option.map_some, optX, ex_sub, XF.scale]
        congr 1; ring
    rw [hdev, hnorm, hnorm0]
    apply corrValue_scale ha
    intro x hx
    simp only [List.mem_map] at hx
    obtain ⟨y, ⟨o, _, rfl⟩, rfl⟩ := hx
    cases o with
    | none => left; rfl
    | some v => right; exact ⟨_, ex_sub _ _⟩

/-- **C27**: replacing every value `v` of dataset `j` by `a j * v + b j` (`a j ≠ 0`) leaves lags and correlations
unchanged, for any times, parameters, selection and weight function; missing values (NaN) are allowed.  The values
and their images must be representable as `float`. -/
theorem C27_affine (abs : AbsFn) {d d' : DS (Exact dm f32 ex)} (hd : Constructed d) (hd' : Constructed d')
    (ht : d'.timeseries = d.timeseries) {N M : ℕ} {x : ℕ → ℕ → Option K} {a b : ℕ → K}
    (hx : d.data2d = .ok (obsTable N M x)) (hx' : d'.data2d = .ok (obsTable N M fun j i => affine (a j) (b j) (x j i)))
    (ha : ∀ j < N, a j ≠ 0)
    (hf : ∀ j < N, ∀ i < M, ∀ v, x j i = some v → f32 v = v ∧ f32 (a j * v + b j) = a j * v + b j)
    (g : LagArgs (Exact dm f32 ex)) (sel wt : String) : acOut abs d' g sel wt = acOut abs d g sel wt := by
  have hnt : d'.normT = d.normT := by
    obtain ⟨t, data, err, _, hN, hb⟩ := hd.built
    obtain ⟨t', data', err', _, hN', hb'⟩ := hd'.built
    have e : t' = t := by
      have := ht
      unfold DS.timeseries at this
      rwa [hb.ht, hb'.ht] at this
    subst e
    rw [hb.normT, hb'.normT]
  rw [acOut_table _ hd hx, acOut_table _ hd' hx', hnt, median_of_normT hd' hd hnt]
  apply Res.bind_congr
  intro L _
  have e : (obsTable N M fun j i => affine (a j) (b j) (x j i)).map (fun row => rowCorr row L)
      = (obsTable N M x).map fun row => rowCorr (row : List (Exact dm f32 ex)) L := by
    unfold obsTable
    rw [List.map_map, List.map_map]
    apply List.map_congr_left
    intro j hj
    have hj := List.mem_range.1 hj
    simp only [Function.comp]
    rw [obs_eq, obs_eq]
    have : (List.range M).map (fun i => affine (a j) (b j) (x j i)) = ((List.range M).map (x j)).map (affine (a j) (b j)) := by
      rw [List.map_map]; rfl
    rw [this]
    apply rowCorr_affine (ha j hj)
    intro v hv
    obtain ⟨i, hi, he⟩ := List.mem_map.1 hv
    exact hf j hj i (List.mem_range.1 hi) v he
  rw [e]

example : ((mkFlat (q [0, 1, 3]) (q [4, 2, -6])).bind fun d => acOut .fabs d {} "natural" "fractional")
    = ((mkFlat (q [0, 1, 3]) (q [1, 2, 6])).bind fun d => acOut .fabs d {} "natural" "fractional") := by decide +kernel

/-- **C27** needs `a ≠ 0`: constant data have no correlation. -/
theorem C27_zero_false : ((mkFlat (q [0, 1, 3]) (q [5, 5, 5])).bind fun d => acOut .fabs d {} "natural" "fractional")
    ≠ ((mkFlat (q [0, 1, 3]) (q [1, 2, 6])).bind fun d => acOut .fabs d {} "natural" "fractional") := by decide +kernel

end Sacf
