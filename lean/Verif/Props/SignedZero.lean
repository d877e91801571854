import Verif.Lemmas.SignedZero
import Verif.Props.Binary

/-!
# The sign of zero (C62)

The arithmetic `XF R` used in the other files has one zero.  Here the code is run over `SZ R`, which has `0` and `-0` with the
sign rules of IEEE 754, and it is shown that forgetting the signs of all zeros commutes with every constructor and with
`autocorrelation`.
-/

set_option linter.unusedSectionVars false
set_option linter.unusedSimpArgs false
set_option linter.unusedVariables false

namespace Sacf

section
variable {K : Type} [Field K] [LinearOrder K] [IsStrictOrderedRing K] [FloorRing K] {R : Rnd K}

theorem sz_mk'_val (v : XF R) (z : Bool) : (SZ.mk' v z).val = v := rfl

theorem sz_isNegZero_mk' (v : XF R) : (SZ.mk' v false).isNegZero = false := rfl

theorem sz_isNegZero (x : SZ R) (h : x.isNegZero = true) : x.val = .fin 0 ∧ x.nz = true := by
  unfold SZ.isNegZero at h
  simpa [and_comm] using h

/-- the sign of a square is plus -/
theorem sz_sgn_square (x : SZ R) : (SZ.mul x x).sgn = false := by
  unfold SZ.mul
  have hz : (x.sgn != x.sgn) = false := by simp
  rw [hz]
  unfold SZ.sgn SZ.mk'
  simp only [Bool.false_and]
  cases hx : x.val with
  | nan => rfl
  | ninf => rfl
  | pinf => rfl
  | fin v =>
    have h : Arith.le (.fin 0 : XF R) (XF.mul (.fin v) (.fin v)) = true := round_nonneg (mul_self_nonneg v)
    cases hm : (XF.mul (.fin v) (.fin v) : XF R) with
    | nan => rfl
    | ninf => rw [hm] at h; simp [Arith.le, XF.le] at h
    | pinf => rfl
    | fin w =>
      rw [hm] at h
      have h0 : (0 : K) ≤ w := of_decide_eq_true h
      simp only
      split
      · rfl
      · simp [h0]

/-- adding a square to a number that is not negative -/
theorem sz_addMul_sq {z d : SZ R} (hz : z.val.NotNeg) : (Arith.addMul z d d).isNegZero = false ∧ (Arith.addMul z d d).val.NotNeg := by
  refine ⟨?_, notNeg_addMul (R := R) hz d.val⟩
  have hs : SZ.addMulSgn z d d = false := by
    have h0 : (z.sgn && (d.sgn != d.sgn)) = false := by
      have : (d.sgn != d.sgn) = false := by cases d.sgn <;> rfl
      rw [this, Bool.and_false]
    unfold SZ.addMulSgn
    split
    · rename_i v x y hv hx hy
      split
      · rw [hx] at hy
        simp only [XF.fin.injEq] at hy
        subst hy
        rw [hv] at hz
        rcases hz with h | h
        · cases h
        · simp at h
          have := mul_self_nonneg x
          simp only [decide_eq_false_iff_not, not_lt]
          linarith
      · exact h0
    · exact h0
  show (SZ.mk' _ (SZ.addMulSgn z d d)).isNegZero = false
  rw [hs]
  rfl

/-- the computed normaliser is never `-0` -/
theorem sz_norm_pos (row : List (SZ R)) (m : SZ R) : (normOfRow row m).isNegZero = false := by
  have key : ∀ (l : List (SZ R)) (z : SZ R), (z.isNegZero = false ∧ z.val.NotNeg) →
      ((l.foldl (fun acc x => if Arith.isNaN (Arith.toFloat x) then acc
        else Arith.addMul acc (Arith.sub (Arith.toFloat x) m) (Arith.sub (Arith.toFloat x) m)) z).isNegZero = false ∧
       (l.foldl (fun acc x => if Arith.isNaN (Arith.toFloat x) then acc
        else Arith.addMul acc (Arith.sub (Arith.toFloat x) m) (Arith.sub (Arith.toFloat x) m)) z).val.NotNeg) := by
    intro l
    induction l with
    | nil => intro z hz; exact hz
    | cons x l ih =>
      intro z hz
      rw [List.foldl_cons]
      apply ih
      split
      · exact hz
      · exact sz_addMul_sq hz.2
  exact (key row _ ⟨rfl, Or.inr (by simp [Arith.zero, SZ.mk', Arith.le, XF.le])⟩).1

theorem sz_sgn_two_mul (α : SZ R) (h : α.val ≠ .nan) : (SZ.mul (Arith.two : SZ R) α).sgn = α.sgn := by
  have h2 : (Arith.two : SZ R).sgn = false := by
    show (if (2 : K) = 0 then _ else decide ((2 : K) < 0)) = false
    rw [if_neg two_ne_zero]
    exact decide_eq_false (not_lt.2 zero_le_two)
  unfold SZ.mul
  rw [h2]
  have hz : (false != α.sgn) = α.sgn := by cases α.sgn <;> rfl
  rw [hz]
  show (SZ.mk' (XF.mul (.fin 2) α.val) α.sgn).sgn = α.sgn
  cases hα : α.val with
  | nan => exact absurd hα h
  | ninf =>
    have : (XF.mul (.fin 2) .ninf : XF R) = .ninf := by
      show XF.infSign (-2) = _
      unfold XF.infSign
      rw [if_neg (by simp), if_pos (by simp)]
    rw [this]; unfold SZ.sgn SZ.mk'; rw [hα]
  | pinf =>
    have : (XF.mul (.fin 2) .pinf : XF R) = .pinf := by
      show XF.infSign 2 = _
      unfold XF.infSign
      rw [if_pos two_pos]
    rw [this]; unfold SZ.sgn SZ.mk'; rw [hα]
  | fin a =>
    show (SZ.mk' (XF.round (2 * a)) α.sgn).sgn = α.sgn
    have hs : α.sgn = if a = 0 then α.nz else decide (a < 0) := by unfold SZ.sgn; rw [hα]
    cases hr : (XF.round (2 * a) : XF R) with
    | nan => exact absurd hr (round_ne_nan _)
    | ninf =>
      have ha : a < 0 := by
        by_contra hc
        have := round_nonneg (R := R) (x := 2 * a) (by linarith)
        rw [hr] at this
        exact absurd this (by simp [Arith.le, XF.le])
      rw [hs, if_neg ha.ne]
      simp [SZ.sgn, SZ.mk', ha]
    | pinf =>
      have ha : 0 < a := by
        by_contra hc
        have := round_nonneg (R := R) (x := -(2 * a)) (by linarith)
        rw [round_neg, hr] at this
        exact absurd this (by simp [Arith.le, XF.le, XF.neg])
      rw [hs, if_neg ha.ne']
      simp [SZ.sgn, SZ.mk', ha.le]
    | fin y =>
      by_cases hy : y = 0
      · subst hy
        simp [SZ.sgn, SZ.mk']
      · have e : (SZ.mk' (.fin y : XF R) α.sgn).sgn = decide (y < 0) := by simp [SZ.sgn, SZ.mk', hy]
        rw [e, hs]
        rcases lt_trichotomy a 0 with ha | ha | ha
        · rw [if_neg ha.ne]
          have := round_nonneg (R := R) (x := -(2 * a)) (by linarith)
          rw [round_neg, hr] at this
          have h0 : (0 : K) ≤ -y := of_decide_eq_true this
          have : y < 0 := lt_of_le_of_ne (by linarith) hy
          simp [this, ha]
        · exfalso
          rw [ha, mul_zero, round_zero] at hr
          simp only [XF.fin.injEq] at hr
          exact hy hr.symm
        · rw [if_neg ha.ne']
          have := round_nonneg (R := R) (x := 2 * a) (by linarith)
          rw [hr] at this
          have h0 : (0 : K) ≤ y := of_decide_eq_true this
          simp [not_lt.2 h0, not_lt.2 ha.le]

theorem sz_gauss_den (α : SZ R) : (SZ.mul (SZ.mul (Arith.two : SZ R) α) α).isNegZero = false := by
  by_cases h : α.val = .nan
  · unfold SZ.isNegZero
    have : (SZ.mul (SZ.mul (Arith.two : SZ R) α) α).val = .nan := by
      show XF.mul (XF.mul _ α.val) α.val = .nan
      rw [h]
      rfl
    rw [this]; simp
  · have hs := sz_sgn_two_mul α h
    have e : ∀ x y : SZ R, x.sgn = y.sgn → (SZ.mul x y).isNegZero = false := by
      intro x y hxy
      unfold SZ.mul
      rw [hxy]
      have : (y.sgn != y.sgn) = false := by simp
      rw [this]
      rfl
    exact e _ _ hs

/-- dividing by a zero of either sign gives no finite number -/
theorem sz_div_zero (x : XF R) : XF.toInt (XF.floor (XF.neg (XF.div x (.fin 0)))) = none ∧
    XF.toInt (XF.floor (XF.div x (.fin 0))) = none := by
  have h0 : ¬ ((0 : K) < 0) := lt_irrefl 0
  cases x with
  | nan => exact ⟨rfl, rfl⟩
  | ninf => simp [XF.div, XF.neg, XF.floor, XF.toInt]
  | pinf => simp [XF.div, XF.neg, XF.floor, XF.toInt]
  | fin x =>
    simp only [XF.div, if_true]
    unfold XF.infSign
    split
    · exact ⟨rfl, rfl⟩
    · split
      · exact ⟨rfl, rfl⟩
      · exact ⟨rfl, rfl⟩

/-- what comes out of `abs` is NaN or at least zero -/
theorem app_nonneg {a : AbsFn} {x d : SZ R} (h : a.app x = .ok d) : d.val = .nan ∨ d.val = .pinf ∨ ∃ y, 0 ≤ y ∧ d.val = .fin y := by
  cases a with
  | fabs =>
    simp only [AbsFn.app, Res.ok.injEq] at h
    subst h
    show XF.fabs x.val = _ ∨ XF.fabs x.val = _ ∨ ∃ y, 0 ≤ y ∧ XF.fabs x.val = _
    cases x.val with
    | nan => exact Or.inl rfl
    | ninf => exact Or.inr (Or.inl rfl)
    | pinf => exact Or.inr (Or.inl rfl)
    | fin y => exact Or.inr (Or.inr ⟨_, abs_nonneg y, rfl⟩)
  | intAbs =>
    simp only [AbsFn.app] at h
    cases hx : Arith.toInt x with
    | none => rw [hx] at h; simp at h
    | some n =>
      rw [hx] at h
      simp only at h
      split at h
      · simp only [Res.ok.injEq] at h
        subst h
        have hn := round_nonneg (R := R) (x := ((n.natAbs : ℤ) : K)) (by positivity)
        show (XF.round ((n.natAbs : ℤ) : K) : XF R) = _ ∨ (XF.round ((n.natAbs : ℤ) : K) : XF R) = _ ∨
          ∃ y, 0 ≤ y ∧ (XF.round ((n.natAbs : ℤ) : K) : XF R) = _
        cases hr : (XF.round ((n.natAbs : ℤ) : K) : XF R) with
        | nan => exact Or.inl rfl
        | ninf => rw [hr] at hn; simp [Arith.le, XF.le] at hn
        | pinf => exact Or.inr (Or.inl rfl)
        | fin y =>
          rw [hr] at hn
          exact Or.inr (Or.inr ⟨y, of_decide_eq_true hn, rfl⟩)
      · simp at h

/-- `1 + x` is never `-0` -/
theorem sz_one_add (x : SZ R) : (SZ.add (Arith.one : SZ R) x).isNegZero = false := by
  have h1 : (Arith.one : SZ R).sgn = false := by
    show (if (1 : K) = 0 then _ else decide ((1 : K) < 0)) = false
    rw [if_neg one_ne_zero]
    exact decide_eq_false (not_lt.2 zero_le_one)
  unfold SZ.add
  rw [h1, Bool.false_and]
  rfl

theorem sz_div_val (x y : SZ R) (h : y.isNegZero = false) : (SZ.div x y).val = XF.div x.val y.val := by
  unfold SZ.div
  rw [sz_mk'_val, h]
  rfl

theorem sz_hom : ZHom (SZ.val : SZ R → XF R) where
  zero := rfl
  one := rfl
  dblMax := rfl
  add _ _ := rfl
  sub _ _ := rfl
  mul _ _ := rfl
  addMul _ _ _ := rfl
  neg _ := rfl
  fabs _ := rfl
  lt _ _ := rfl
  le _ _ := rfl
  eq _ _ := rfl
  isNaN _ := rfl
  toInt _ := rfl
  ofInt _ := rfl
  toFloat _ := rfl
  ofDec s m e := by
    show XF.ofDec s m e = ((XF.ofDec s m e).map fun v => SZ.mk' v s).map SZ.val
    rw [Option.map_map]
    cases (XF.ofDec s m e : Option (XF R)) <;> rfl
  divInt _ _ := rfl
  half _ := rfl
  slots x y := by
    show XF.toInt (XF.floor (XF.div x.val y.val)) = XF.toInt (XF.floor (SZ.div x y).val)
    unfold SZ.div
    rw [sz_mk'_val]
    cases h : y.isNegZero with
    | false => rfl
    | true =>
      obtain ⟨h0, _⟩ := sz_isNegZero y h
      rw [if_pos rfl, h0, (sz_div_zero x.val).1, (sz_div_zero x.val).2]
  frac a α x d h := by
    have e := sz_div_val (Arith.one : SZ R) _ (sz_one_add (SZ.div d α))
    refine Eq.trans ?_ e.symm
    show XF.div (.fin 1) (XF.add (.fin 1) (XF.div d.val α.val)) = XF.div (.fin 1) (XF.add (.fin 1) (SZ.div d α).val)
    unfold SZ.div
    rw [sz_mk'_val]
    cases hα : α.isNegZero with
    | false => rfl
    | true =>
      obtain ⟨h0, _⟩ := sz_isNegZero α hα
      rw [if_pos rfl, h0]
      rcases app_nonneg h with hd | hd | ⟨y, hy, hd⟩
      · rw [hd]; rfl
      · rw [hd]; simp [XF.div, XF.neg, XF.add]
      · rw [hd]
        rcases hy.lt_or_eq with hy | hy
        · simp [XF.div, XF.neg, XF.add, XF.infSign, hy]
        · subst hy
          simp [XF.div, XF.neg, XF.add, XF.infSign]
  frac2 a α x d h := by
    have e := sz_div_val (Arith.one : SZ R) _ (sz_addMul_sq (z := (Arith.one : SZ R)) (d := SZ.div d α)
      (Or.inr (by simp [Arith.one, SZ.mk', Arith.le, XF.le]))).1
    refine Eq.trans ?_ e.symm
    show XF.div (.fin 1) (XF.addMul (.fin 1) (XF.div d.val α.val) (XF.div d.val α.val))
      = XF.div (.fin 1) (XF.addMul (.fin 1) (SZ.div d α).val (SZ.div d α).val)
    unfold SZ.div
    rw [sz_mk'_val]
    cases hα : α.isNegZero with
    | false => rfl
    | true =>
      obtain ⟨h0, _⟩ := sz_isNegZero α hα
      rw [if_pos rfl, h0]
      rcases app_nonneg h with hd | hd | ⟨y, hy, hd⟩
      · rw [hd]; rfl
      · rw [hd]; cases hf : R.fused <;> simp [XF.div, XF.neg, XF.add, XF.mul, XF.addMul, XF.fma, hf]
      · rw [hd]
        rcases hy.lt_or_eq with hy | hy
        · cases hf : R.fused <;> simp [XF.div, XF.neg, XF.add, XF.infSign, XF.mul, XF.addMul, XF.fma, hf, hy]
        · subst hy
          cases hf : R.fused <;> simp [XF.div, XF.neg, XF.add, XF.infSign, XF.mul, XF.addMul, XF.fma, hf]
  gauss α d := by
    have hg := sz_gauss_den α
    show XF.exp (XF.div (XF.neg (XF.mul d.val d.val)) (SZ.mul (SZ.mul (Arith.two : SZ R) α) α).val)
      = XF.exp (SZ.div (SZ.neg (SZ.mul d d)) (SZ.mul (SZ.mul (Arith.two : SZ R) α) α)).val
    unfold SZ.div
    rw [sz_mk'_val, hg]
    rfl
  recip row m := by
    have hn := sz_norm_pos row m
    show XF.div (.fin 1) (normOfRow row m).val = (SZ.div _ (normOfRow row m)).val
    unfold SZ.div
    rw [sz_mk'_val, hn]
    rfl

/-! ## C62 -/

/-- **C62**: the five constructors. -/
theorem C62_flat (t v : List (SZ R)) :
    mkFlat (t.map SZ.val) (v.map SZ.val) = (mkFlat t v).bind fun d => .ok (d.mapTo SZ.val) := by
  have := setUp_hom sz_hom t v [] 1 t.length
  unfold mkFlat
  rw [List.length_map]
  exact this

theorem C62_flatErr (t v e : List (SZ R)) :
    mkFlatErr (t.map SZ.val) (v.map SZ.val) (e.map SZ.val) = (mkFlatErr t v e).bind fun d => .ok (d.mapTo SZ.val) := by
  unfold mkFlatErr
  rw [List.length_map]
  exact setUp_hom sz_hom t v e 1 t.length

theorem C62_table (t : List (SZ R)) (rows : List (List (SZ R))) :
    mkTable (t.map SZ.val) (rows.map (List.map SZ.val)) = (mkTable t rows).bind fun d => .ok (d.mapTo SZ.val) := by
  have := setUp_hom sz_hom t rows.flatten [] rows.length t.length
  unfold mkTable
  rw [List.length_map, List.length_map, ← List.map_flatten]
  exact this

theorem C62_tableErr (t : List (SZ R)) (rows errs : List (List (SZ R))) :
    mkTableErr (t.map SZ.val) (rows.map (List.map SZ.val)) (errs.map (List.map SZ.val))
      = (mkTableErr t rows errs).bind fun d => .ok (d.mapTo SZ.val) := by
  unfold mkTableErr
  rw [List.length_map, List.length_map, ← List.map_flatten, ← List.map_flatten]
  exact setUp_hom sz_hom t rows.flatten errs.flatten rows.length t.length

theorem C62_file (s : Option (List Char)) :
    (mkFile s : Res (DS (XF R))) = (mkFile s : Res (DS (SZ R))).bind fun d => .ok (d.mapTo SZ.val) := mkFile_hom sz_hom s

theorem sz_constructed {d : DS (SZ R)} (h : Constructed d) : Constructed (d.mapTo SZ.val) := by
  cases h with
  | @flat t v _ h => exact .flat (t := t.map SZ.val) (v := v.map SZ.val) (by rw [C62_flat, h]; rfl)
  | @flatErr t v e _ h =>
    exact .flatErr (t := t.map SZ.val) (v := v.map SZ.val) (e := e.map SZ.val) (by rw [C62_flatErr, h]; rfl)
  | @table t rows _ h => exact .table (t := t.map SZ.val) (rows := rows.map (List.map SZ.val)) (by rw [C62_table, h]; rfl)
  | @tableErr t rows errs _ h =>
    exact .tableErr (t := t.map SZ.val) (rows := rows.map (List.map SZ.val)) (errs := errs.map (List.map SZ.val))
      (by rw [C62_tableErr, h]; rfl)
  | @file s _ h => exact .file (s := s) (by rw [C62_file, h]; rfl)

/-- the correlations without the signs of zeros -/
def CorrOut.forget : CorrOut (SZ R) → CorrOut (XF R)
  | .flat row => .flat (row.map SZ.val)
  | .table rows => .table (rows.map (List.map SZ.val))

/-- a pair of lags and correlations without the signs of zeros -/
def forgetSigns (r : List (SZ R) × CorrOut (SZ R)) : List (XF R) × CorrOut (XF R) := (r.1.map SZ.val, r.2.forget)

/-- **C62** (any rounding): running the code with two zeros and then forgetting the signs of zeros is the same as running it
with one zero; outcomes other than a normal return coincide too. -/
theorem C62_autocorrelation (a : AbsFn) (d : DS (SZ R)) (hd : Constructed d) (g : LagArgs (SZ R)) (sel wt : String) :
    acOut a (d.mapTo SZ.val) (g.mapTo SZ.val) sel wt = (acOut a d g sel wt).bind fun r => .ok (forgetSigns r) := by
  obtain ⟨rows, hrows⟩ := data2d_ok hd
  have hrows' : (d.mapTo SZ.val).data2d = .ok (rows.map (List.map SZ.val)) := by
    have := unflatten_map SZ.val d.data d.N d.M
    unfold DS.data2d at hrows ⊢
    rw [hrows] at this
    exact this
  rw [acOut_table a hd hrows, acOut_table a (sz_constructed hd) hrows']
  have e : acPlan a (d.mapTo SZ.val).normT (d.mapTo SZ.val).tMedian (g.mapTo SZ.val) sel wt
      = (acPlan a d.normT d.tMedian g sel wt).bind fun L => .ok (planMap SZ.val L) := acPlan_hom sz_hom a _ _ g sel wt
  rw [e, Res.bind_assoc, Res.bind_assoc]
  apply Res.bind_congr
  intro L _
  simp only [Res.ok_bind, Res.bind_assoc]
  have hr : (rows.map (List.map SZ.val)).map (fun row => rowCorr row (planMap SZ.val L))
      = (rows.map fun row => rowCorr row L).map (List.map SZ.val) := by
    simp only [List.map_map]
    apply List.map_congr_left
    intro row _
    exact rowCorr_hom sz_hom row L
  rw [hr]
  generalize (rows.map fun row => rowCorr row L) = out
  have hl : (planMap SZ.val L).map Prod.fst = (L.map Prod.fst).map SZ.val := by
    unfold planMap
    simp only [List.map_map]
    rfl
  rw [hl]
  unfold corrOut
  rw [List.length_map]
  split
  · rfl
  · cases out with
    | nil => rfl
    | cons row out => rfl

/-- **C62**, as a user sees it: if two inputs differ in signs of zeros only – in the times, the values, the errors or the lag
arguments – both constructors succeed or both fail in the same way, and then both calls return, up to signs of zeros, the
same lags and correlations, or both fail in the same way. -/
theorem C62_inputs (t t' : List (SZ R)) (rows rows' : List (List (SZ R))) (ht : t.map SZ.val = t'.map SZ.val)
    (hr : rows.map (List.map SZ.val) = rows'.map (List.map SZ.val)) (g g' : LagArgs (SZ R))
    (hg : g.mapTo SZ.val = g'.mapTo SZ.val) (a : AbsFn) (sel wt : String) :
    (((mkTable t rows).bind fun d => acOut a d g sel wt).bind fun r => .ok (forgetSigns r))
      = (((mkTable t' rows').bind fun d => acOut a d g' sel wt).bind fun r => .ok (forgetSigns r)) := by
  have key : ∀ (t : List (SZ R)) (rows : List (List (SZ R))) (g : LagArgs (SZ R)),
      (((mkTable t rows).bind fun d => acOut a d g sel wt).bind fun r => .ok (forgetSigns r))
        = (mkTable (t.map SZ.val) (rows.map (List.map SZ.val))).bind fun d => acOut a d (g.mapTo SZ.val) sel wt := by
    intro t rows g
    rw [C62_table, Res.bind_assoc, Res.bind_assoc]
    apply Res.bind_congr
    intro d hd
    rw [Res.ok_bind, C62_autocorrelation a d (.table hd)]
  rw [key, key, ht, hr, hg]

end

/-! ### cases -/

/-- double precision with two zeros -/
abbrev BZ := SZ (Rnd.binary64 (fun x => 1 / (1 - x)) false)
/-- a list of doubles -/
def bz (l : List ℚ) : List BZ := (b l).map fun x => SZ.mk' x false
/-- `-0.0` -/
def nzero : BZ := SZ.mk' (.fin 0) true

/-- a single sample: the only lag reported is `-0.0` (`min_lag = -max_lag`) -/
example : ((mkFlat (bz [5]) (bz [3])).bind fun d => acOut .fabs d {} "natural" "fractional")
    = .ok ([nzero], .flat [SZ.mk' .nan false]) := by decide +kernel

/-- a row with `-0.0` where another has `0.0`, and `alpha = -0.0` -/
example : ((mkTable (bz [0, 1, 2]) [[nzero, SZ.mk' (.fin 1) false, SZ.mk' (.fin 3) false]]).bind fun d =>
      acOut .fabs d { alpha := some nzero } "natural" "fractional_squared")
    = ((mkTable (bz [0, 1, 2]) [bz [0, 1, 3]]).bind fun d =>
      acOut .fabs d { alpha := some (SZ.mk' (.fin 0) false) } "natural" "fractional_squared") := by decide +kernel

/-- a numeral with a minus sign is a negative zero -/
example : ((mkFile (some "-0 1\n1 2".toList) : Res (DS BZ)).bind fun d => .ok d.timeseries)
    = .ok (nzero :: bz [1]) := by decide +kernel

end Sacf
