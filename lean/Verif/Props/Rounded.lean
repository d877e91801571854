import Verif.Props.Acf
import Verif.Props.Binary
import Verif.Lemmas.Scale
import Verif.Lemmas.Round

/-!
# Properties that hold whatever the rounding (C53, C54, C55, C59)
-/

set_option linter.unusedSectionVars false
set_option linter.unusedSimpArgs false

namespace Sacf

section rounded
variable {K : Type} [Field K] [LinearOrder K] [IsStrictOrderedRing K] [FloorRing K] {R : Rnd K}

/-! ### sign rules -/

theorem neg_neg_xf (x : XF R) : Arith.neg (Arith.neg x) = x := by
  cases x <;> first | rfl | simp

theorem neg_add_xf (x y : XF R) : Arith.add (Arith.neg x) (Arith.neg y) = Arith.neg (Arith.add x y) := by
  cases x <;> cases y <;> try rfl
  rename_i x y
  show XF.round (-x + -y) = XF.neg (XF.round (x + y))
  rw [← round_neg]; congr 1; ring

theorem neg_sub_xf (x y : XF R) : Arith.sub (Arith.neg x) (Arith.neg y) = Arith.neg (Arith.sub x y) :=
  neg_add_xf x (Arith.neg y)

theorem infSign_neg (x : K) : (XF.infSign (-x) : XF R) = XF.neg (XF.infSign x) := by
  unfold XF.infSign
  rcases lt_trichotomy x 0 with h | rfl | h
  · simp [h, h.le, not_lt.2 h.le, XF.neg]
  · simp [XF.neg]
  · simp [h, h.le, not_lt.2 h.le, XF.neg]

theorem neg_mul_xf (x y : XF R) : Arith.mul (Arith.neg x) y = Arith.neg (Arith.mul x y) := by
  show XF.mul (XF.neg x) y = XF.neg (XF.mul x y)
  cases x <;> cases y <;> try rfl
  · simp only [XF.mul, XF.neg, infSign_neg]; rename_i y; cases (XF.infSign y : XF R) <;> simp [XF.neg]
  · simp only [XF.mul, XF.neg, infSign_neg]
  · rename_i x
    simp only [XF.mul, XF.neg, infSign_neg]
  · simp only [XF.mul, XF.neg, infSign_neg]
  · rename_i x y
    show XF.round (-x * y) = XF.neg (XF.round (x * y))
    rw [← round_neg]; congr 1; ring

theorem mul_comm_xf (x y : XF R) : Arith.mul x y = Arith.mul y x := by
  show XF.mul x y = XF.mul y x
  cases x <;> cases y <;> try rfl
  simp only [XF.mul, mul_comm]

theorem mul_neg_xf (x y : XF R) : Arith.mul x (Arith.neg y) = Arith.neg (Arith.mul x y) := by
  rw [mul_comm_xf, neg_mul_xf, mul_comm_xf]

theorem neg_div_xf (x y : XF R) : Arith.div (Arith.neg x) y = Arith.neg (Arith.div x y) := by
  show XF.div (XF.neg x) y = XF.neg (XF.div x y)
  cases x <;> cases y <;> try rfl
  · simp only [XF.div, XF.neg]; split <;> rfl
  · simp only [XF.div, XF.neg]; split <;> rfl
  · simp [XF.div, XF.neg]
  · simp [XF.div, XF.neg]
  · rename_i x y
    show (if y = 0 then XF.infSign (-x) else XF.round (-x / y)) = XF.neg (if y = 0 then _ else _)
    split
    · exact infSign_neg x
    · rw [← round_neg]; congr 1; ring

/-! ## C59 -/

/-- narrowing to `float` is symmetric -/
def Rnd.OddFloat (R : Rnd K) : Prop := (∀ x, R.f32 (-x) = -R.f32 x) ∧ ∀ c ∈ R.maxF32, 1 ≤ c

theorem toFloat_neg (h : R.OddFloat) (x : XF R) : Arith.toFloat (Arith.neg x) = Arith.neg (Arith.toFloat x) := by
  cases x <;> try rfl
  rename_i x
  show XF.clip R.maxF32 (R.f32 (-x)) = XF.neg (XF.clip R.maxF32 (R.f32 x))
  rw [h.1, clip_neg h.2]

theorem isNaN_neg (x : XF R) : Arith.isNaN (Arith.neg x) = Arith.isNaN x := by cases x <;> rfl

theorem meanOf_neg (row : List (XF R)) : meanOf (row.map Arith.neg) = Arith.neg (meanOf row) := by
  have hk : (row.map (Arith.neg : XF R → XF R)).filter (fun d => !Arith.isNaN d)
      = (row.filter fun d => !Arith.isNaN d).map Arith.neg := by
    rw [List.filter_map]
    congr 1
    apply List.filter_congr
    intro x _
    simp only [Function.comp, isNaN_neg]
  have hs : ∀ (l : List (XF R)) (z : XF R),
      (l.map Arith.neg).foldl Arith.add (Arith.neg z) = Arith.neg (l.foldl Arith.add z) := by
    intro l
    induction l with
    | nil => intro z; rfl
    | cons x l ih =>
      intro z
      rw [List.map_cons, List.foldl_cons, List.foldl_cons, neg_add_xf, ih]
  have hz : (Arith.zero : XF R) = Arith.neg Arith.zero := by
    show (.fin 0 : XF R) = .fin (-0)
    rw [neg_zero]
  unfold meanOf
  simp only
  rw [hk, List.length_map]
  conv_lhs => rw [hz, hs]
  exact neg_div_xf _ _

/-- both factors change sign -/
theorem addMul_neg_neg (c a b : XF R) : Arith.addMul c (Arith.neg a) (Arith.neg b) = Arith.addMul c a b := by
  cases hf : R.fused with
  | false => rw [addMul_false hf, addMul_false hf, neg_mul_xf, mul_neg_xf, neg_neg_xf]
  | true =>
    rw [addMul_true hf, addMul_true hf]
    have hm : Arith.mul (Arith.neg a) (Arith.neg b) = Arith.mul a b := by rw [neg_mul_xf, mul_neg_xf, neg_neg_xf]
    by_cases h : ∃ x y, a = .fin x ∧ b = .fin y
    · obtain ⟨x, y, rfl, rfl⟩ := h
      cases c with
      | fin z => show XF.round (z + -x * -y) = XF.round (z + x * y); rw [neg_mul_neg]
      | _ => rfl
    · rw [fma_eq (by
        rintro x y ⟨h1, h2⟩
        refine h ⟨-x, -y, ?_, ?_⟩
        · rw [← neg_neg_xf a, h1]; rfl
        · rw [← neg_neg_xf b, h2]; rfl), fma_eq (fun x y h' => h ⟨x, y, h'⟩)]
      exact congrArg (XF.add c) hm

theorem normOfRow_neg (h : R.OddFloat) (row : List (XF R)) (m : XF R) :
    normOfRow (row.map Arith.neg) (Arith.neg m) = normOfRow row m := by
  unfold normOfRow
  rw [List.foldl_map]
  congr 1
  funext acc x
  rw [toFloat_neg h, isNaN_neg, neg_sub_xf, addMul_neg_neg]

theorem getD_map_neg (ys : List (XF R)) (i : ℕ) :
    (ys.map Arith.neg).getD i Arith.zero = Arith.neg (ys.getD i Arith.zero) := by
  have hz : (Arith.zero : XF R) = Arith.neg Arith.zero := by
    show (.fin 0 : XF R) = .fin (-0)
    rw [neg_zero]
  rw [List.getD_eq_getElem?_getD, List.getD_eq_getElem?_getD, List.getElem?_map]
  cases ys[i]? with
  | none => exact hz
  | some y => rfl

theorem corrValue_neg (ys : List (XF R)) (nrm : XF R) (ps : List (XF R × ℕ)) :
    corrValue (ys.map Arith.neg) nrm ps = corrValue ys nrm ps := by
  unfold corrValue
  congr 2
  funext acc p
  rw [getD_map_neg, getD_map_neg, mul_neg_xf, addMul_neg_neg]

theorem rowCorr_neg (h : R.OddFloat) (row : List (XF R)) (L : List (XF R × List (XF R × ℕ))) :
    rowCorr (row.map Arith.neg) L = rowCorr row L := by
  unfold rowCorr
  rw [meanOf_neg]
  apply List.map_congr_left
  intro p _
  rw [normOfRow_neg h, List.map_map]
  have : ((fun x => Arith.sub x (Arith.neg (meanOf row))) ∘ Arith.neg : XF R → XF R)
      = Arith.neg ∘ fun x => Arith.sub x (meanOf row) := by
    funext x
    simp only [Function.comp, neg_sub_xf]
  rw [this, ← List.map_map, corrValue_neg]

/-- **C59** (any rounding): changing the sign of every value – also of infinite and missing ones – changes nothing,
not even a bit: for any times, parameters, selection and weight function. -/
theorem C59_negation (hR : R.OddFloat) (a : AbsFn) {d d' : DS (XF R)} (hd : Constructed d) (hd' : Constructed d')
    (ht : d.timeseries = d'.timeseries) (rows : List (List (XF R))) (h : d.data2d = .ok rows)
    (h' : d'.data2d = .ok (rows.map fun row => row.map Arith.neg)) (g : LagArgs (XF R)) (sel wt : String) :
    acOut a d' g sel wt = acOut a d g sel wt := by
  have hnt : d.normT = d'.normT := by
    obtain ⟨t, _, _, _, _, hb⟩ := hd.built
    obtain ⟨t', _, _, _, _, hb'⟩ := hd'.built
    have e : t = t' := by rw [← hb.ht, ← hb'.ht]; exact ht
    subst e
    rw [hb.normT, hb'.normT]
  rw [acOut_table a hd h, acOut_table a hd' h', hnt, median_of_normT hd hd' hnt]
  apply Res.bind_congr
  intro L _
  rw [List.map_map]
  congr 2
  apply List.map_congr_left
  intro row _
  exact rowCorr_neg hR row L

/-! ## C53 -/

/-- NaN or `+∞` -/
def XF.Huge (x : XF R) : Prop := x = .nan ∨ x = .pinf

theorem huge_add {x y : XF R} (hx : x.Huge) (hy : y.NotNeg) : (Arith.add x y).Huge := by
  rcases hx with rfl | rfl
  · left; exact add_nan_left _
  · rcases hy with rfl | hy
    · left; rfl
    · cases y with
      | nan => left; rfl
      | ninf => exact absurd hy (by simp [Arith.le, XF.le])
      | pinf => right; rfl
      | fin y => right; rfl

theorem add_huge {x y : XF R} (hx : x.NotNeg) (hy : y.Huge) : (Arith.add x y).Huge := by
  rcases hy with rfl | rfl
  · left; exact add_nan_right _
  · rcases hx with rfl | hx
    · left; rfl
    · cases x with
      | nan => left; rfl
      | ninf => exact absurd hx (by simp [Arith.le, XF.le])
      | pinf => right; rfl
      | fin y => right; rfl

theorem huge_addMul {x : XF R} (hx : x.Huge) (d : XF R) : (Arith.addMul x d d).Huge := by
  rcases addMul_cases x d d with h | ⟨z, _, _, rfl, _⟩ | ⟨_, _, _, _, _, h⟩
  · rw [h]; exact huge_add hx (notNeg_square _)
  · rcases hx with h | h <;> cases h
  · rw [h]; exact hx

theorem addMul_huge {x d : XF R} (hx : x.NotNeg) (hd : d = .nan ∨ d = .pinf ∨ d = .ninf) : (Arith.addMul x d d).Huge := by
  have hsq : (Arith.mul d d : XF R).Huge := by
    rcases hd with rfl | rfl | rfl
    · left; rfl
    · right; rfl
    · right; rfl
  rcases addMul_cases x d d with h | ⟨_, _, _, _, rfl, _⟩ | ⟨_, _, _, rfl, _⟩
  · rw [h]; exact add_huge hx hsq
  · rcases hd with h | h | h <;> cases h
  · rcases hd with h | h | h <;> cases h

theorem normOfRow_huge (row : List (XF R)) (m x : XF R) (hx : x ∈ row)
    (hinf : Arith.toFloat x = .pinf ∨ Arith.toFloat x = .ninf) : (normOfRow row m).Huge := by
  have hstep : ∀ (acc y : XF R), acc.NotNeg →
      (if Arith.isNaN (Arith.toFloat y) then acc
        else Arith.addMul acc (Arith.sub (Arith.toFloat y) m) (Arith.sub (Arith.toFloat y) m)).NotNeg := by
    intro acc y h
    split
    · exact h
    · exact notNeg_addMul h _
  have hkeep : ∀ (l : List (XF R)) (acc : XF R), acc.Huge →
      (l.foldl (fun acc x => if Arith.isNaN (Arith.toFloat x) then acc
        else Arith.addMul acc (Arith.sub (Arith.toFloat x) m) (Arith.sub (Arith.toFloat x) m)) acc).Huge := by
    intro l
    induction l with
    | nil => intro acc h; exact h
    | cons y l ih =>
      intro acc h
      rw [List.foldl_cons]
      apply ih
      split
      · exact h
      · exact huge_addMul h _
  have hmain : ∀ (l : List (XF R)) (acc : XF R), acc.NotNeg → x ∈ l →
      (l.foldl (fun acc x => if Arith.isNaN (Arith.toFloat x) then acc
        else Arith.addMul acc (Arith.sub (Arith.toFloat x) m) (Arith.sub (Arith.toFloat x) m)) acc).Huge := by
    intro l
    induction l with
    | nil => intro acc _ h; simp at h
    | cons y l ih =>
      intro acc hacc h
      rw [List.foldl_cons]
      rcases List.mem_cons.1 h with rfl | h
      · apply hkeep
        have : Arith.isNaN (Arith.toFloat x) = false := by rcases hinf with h | h <;> rw [h] <;> rfl
        rw [this, if_neg Bool.false_ne_true]
        apply addMul_huge hacc
        rcases hinf with h | h <;> rw [h] <;> cases m <;> first | (left; rfl) | (right; left; rfl) | (right; right; rfl)
      · exact ih _ (hstep _ _ hacc) h
  exact hmain row _ (Or.inr (by simp)) hx

/-- **C53** (any rounding): one value that becomes infinite when narrowed to `float` – a finite double beyond about
`3.4e38` – turns every correlation of its row into zero or NaN. -/
theorem C53_float_overflow (a : AbsFn) (d : DS (XF R)) (hd : Constructed d) (g : LagArgs (XF R)) (sel wt : String)
    (r : AcResult (XF R)) (hr : autocorrelation a d g sel wt = .ok r) (j : ℕ) (row : List (XF R))
    (hrow : d.HasRow j row) (x : XF R) (hx : x ∈ row)
    (hinf : Arith.toFloat x = .pinf ∨ Arith.toFloat x = .ninf) (n : ℕ) (k v : XF R) (h : r.At j n k v) :
    v = .fin 0 ∨ v = .nan := by
  obtain ⟨ps, _, h2⟩ := result_at hd hr hrow h.1
  have hv : v = corrValue (row.map fun x => Arith.sub x (meanOf row)) (normOfRow row (meanOf row)) ps := by
    obtain ⟨_, row1, e1, e2⟩ := h
    obtain ⟨_, row2, e3, e4⟩ := h2
    rw [e1, Option.some.injEq] at e3
    subst e3
    rw [e2, Option.some.injEq] at e4
    exact e4
  rw [hv]
  unfold corrValue
  generalize List.foldl _ _ _ = s
  rcases normOfRow_huge row (meanOf row) x hx hinf with h | h
  · right; rw [h]; exact mul_nan_right s
  · rw [h]
    have : (Arith.div Arith.one .pinf : XF R) = .fin 0 := rfl
    rw [this]
    cases s with
    | nan => right; rfl
    | ninf => right; show XF.infSign (-0) = _; simp [XF.infSign]
    | pinf => right; show XF.infSign 0 = _; simp [XF.infSign]
    | fin s => left; show XF.round (s * 0) = _; rw [mul_zero]; exact round_zero

/-! ## C55 -/

theorem div_neg_xf {x y : XF R} (hy : y ≠ .fin 0) : Arith.div x (Arith.neg y) = Arith.neg (Arith.div x y) := by
  show XF.div x (XF.neg y) = XF.neg (XF.div x y)
  cases x <;> cases y <;> first | rfl | skip
  · rename_i y
    have : y ≠ 0 := fun h => hy (by rw [h])
    rcases lt_or_gt_of_ne this with h | h
    · simp [XF.div, XF.neg, h, not_lt.2 h.le]
    · simp [XF.div, XF.neg, h, not_lt.2 h.le]
  · rename_i y
    have : y ≠ 0 := fun h => hy (by rw [h])
    rcases lt_or_gt_of_ne this with h | h
    · simp [XF.div, XF.neg, h, not_lt.2 h.le]
    · simp [XF.div, XF.neg, h, not_lt.2 h.le]
  · simp [XF.div, XF.neg]
  · simp [XF.div, XF.neg]
  · rename_i x y
    have : y ≠ 0 := fun h => hy (by rw [h])
    show (if -y = 0 then XF.infSign x else XF.round (x / -y)) = XF.neg (if y = 0 then _ else _)
    rw [if_neg (by simpa using this), if_neg this, ← round_neg]
    congr 1
    rw [div_neg]

theorem fractionSquared_neg (α δ : XF R) :
    Corr.fractionSquaredWeight (Arith.neg α) δ = Corr.fractionSquaredWeight α δ := by
  unfold Corr.fractionSquaredWeight
  by_cases h : α = .fin 0
  · subst h
    show Arith.div Arith.one (Arith.addMul _ (Arith.div δ (.fin (-0))) (Arith.div δ (.fin (-0)))) = _
    rw [neg_zero]
  · rw [div_neg_xf h, addMul_neg_neg]

theorem gaussian_neg (α δ : XF R) : Corr.gaussianWeight (Arith.neg α) δ = Corr.gaussianWeight α δ := by
  unfold Corr.gaussianWeight
  rw [mul_neg_xf, mul_neg_xf, neg_mul_xf, neg_neg_xf]

theorem acOut_alpha (a : AbsFn) {d : DS (XF R)} (hd : Constructed d) (g : LagArgs (XF R)) (sel wt : String)
    (α β : XF R) (h : ∀ w : XF R → XF R → XF R, planWt wt = .ok w → w α = w β) :
    acOut a d { g with alpha := some α } sel wt = acOut a d { g with alpha := some β } sel wt := by
  have hp : ∀ k, lagPlan a sel wt d.normT α k = lagPlan a sel wt d.normT β k := by
    intro k
    unfold lagPlan
    apply Res.bind_congr
    intro p _
    apply Res.bind_congr
    intro δ _
    apply Res.bind_congr
    intro w hw
    rw [h w hw]
  rw [acOut_eq a hd.wf, acOut_eq a hd.wf]
  have : acPlan a d.normT d.tMedian { g with alpha := some α } sel wt
      = acPlan a d.normT d.tMedian { g with alpha := some β } sel wt := by
    unfold acPlan planRun
    have : lagPlan' a sel wt d.normT α = lagPlan' a sel wt d.normT β := by
      funext k
      unfold lagPlan'
      rw [hp]
    simp only [Option.getD_some, this]
  rw [this]

/-- **C55** (any rounding): with the gaussian and the squared fractional weights the sign of `alpha` has no
influence. -/
theorem C55_alpha_sign (a : AbsFn) (d : DS (XF R)) (hd : Constructed d) (g : LagArgs (XF R)) (sel wt : String)
    (hw : wt = "gaussian" ∨ wt = "fractional_squared") (α : XF R) :
    acOut a d { g with alpha := some (Arith.neg α) } sel wt = acOut a d { g with alpha := some α } sel wt := by
  apply acOut_alpha a hd
  intro w h
  funext δ
  rcases hw with rfl | rfl
  · rw [planWt, if_pos rfl] at h
    simp only [Res.ok.injEq] at h
    subst h
    exact gaussian_neg α δ
  · rw [planWt, if_neg (by decide), if_neg (by decide), if_pos rfl] at h
    simp only [Res.ok.injEq] at h
    subst h
    exact fractionSquared_neg α δ

theorem corrValue_nan_weight (ys : List (XF R)) (nrm : XF R) (ps : List (XF R × ℕ)) (s : ℕ) (hp : (.nan, s) ∈ ps) :
    corrValue ys nrm ps = .nan := by
  have hfold : ∀ (l : List ((XF R × ℕ) × ℕ)) (acc : XF R), (acc = .nan ∨ ∃ q ∈ l, q.1.1 = .nan) →
      l.foldl (fun acc p => Arith.addMul acc (Arith.mul p.1.1 (ys.getD p.2 Arith.zero))
        (ys.getD p.1.2 Arith.zero)) acc = .nan := by
    intro l
    induction l with
    | nil => rintro acc (h | ⟨q, hq, _⟩)
             · exact h
             · simp at hq
    | cons q l ih =>
      rintro acc h
      rw [List.foldl_cons]
      apply ih
      rcases h with rfl | ⟨q', hq', h⟩
      · left; exact addMul_nan _ _ _ (Or.inl rfl)
      · rcases List.mem_cons.1 hq' with rfl | hq'
        · left; rw [h, mul_nan_left]; exact addMul_nan _ _ _ (Or.inr (Or.inl rfl))
        · right; exact ⟨q', hq', h⟩
  unfold corrValue
  obtain ⟨i, hi⟩ := List.mem_iff_getElem?.1 hp
  rw [hfold ps.zipIdx _ (Or.inr ⟨((.nan, s), i), by
    rw [List.mem_iff_getElem?]
    exact ⟨i, by simp [hi]⟩, rfl⟩), mul_nan_left]

/-- all weight functions give NaN at distance zero when `alpha` is zero -/
theorem weight_zero_zero {wt : String} {w : XF R → XF R → XF R} (h : planWt wt = .ok w) :
    w (.fin 0) (.fin 0) = .nan := by
  have h0 : (Arith.div (.fin 0) (.fin 0) : XF R) = .nan := by
    show (if (0 : K) = 0 then XF.infSign 0 else _) = _
    simp [XF.infSign]
  have hm : ∀ x : K, (Arith.mul (.fin x) (.fin 0) : XF R) = .fin 0 := by
    intro x
    show XF.round (x * 0) = _
    rw [mul_zero]; exact round_zero
  unfold planWt at h
  split at h
  · simp only [Res.ok.injEq] at h
    subst h
    unfold Corr.gaussianWeight
    have e2 : (Arith.two : XF R) = .fin 2 := rfl
    rw [hm, e2, hm, hm]
    show Arith.exp (Arith.div (.fin (-0) : XF R) _) = _
    rw [neg_zero, h0]; rfl
  · split at h
    · simp only [Res.ok.injEq] at h
      subst h
      unfold Corr.fractionWeight
      rw [h0, add_nan_right]; rfl
    · split at h
      · simp only [Res.ok.injEq] at h
        subst h
        unfold Corr.fractionSquaredWeight
        rw [h0, addMul_nan _ _ _ (Or.inr (Or.inl rfl))]; rfl
      · simp at h

/-! ## C54 -/

/-- **C54** (any rounding): a single sample.  A default call – with natural selection and any weight function – reports
the single lag zero and NaN for every dataset, because `alpha` is the median time zero. -/
theorem C54_single (hM : 0 < R.dblMax) (hR : (XF.round R.dblMax : XF R) = .fin R.dblMax) (d : DS (XF R))
    (hd : Constructed d) (t : K) (ht : d.timeseries = [.fin t]) (wt : String) (hw : KnownWeight wt)
    (rows : List (List (XF R))) (hrows : d.data2d = .ok rows) :
    acOut .fabs d {} "natural" wt
      = (corrOut (rows.map fun _ => [.nan])).bind fun out => .ok ([.fin 0], out) := by
  obtain ⟨w, hw'⟩ := planWt_known (F := XF R) hw
  have hnt : d.normT = [.fin 0] := by
    obtain ⟨t', _, _, _, _, hb⟩ := hd.built
    have e : t' = [.fin t] := by rw [← hb.ht]; exact ht
    subst e
    rw [hb.normT]
    show [XF.round (t + -t)] = _
    rw [add_neg_cancel]
    exact congrArg (fun x => [x]) round_zero
  have hmed : d.tMedian = .fin 0 := by
    obtain ⟨_, _, _, _, _, hb⟩ := hd.built
    have := hb.med
    rw [hnt] at this
    simpa [settMedian, rawGet] using this.symm
  have z : (Arith.neg (.fin 0) : XF R) = .fin 0 := by
    show (.fin (-0) : XF R) = _
    rw [neg_zero]
  have hadd : (Arith.add (.fin 0) (.fin 0) : XF R) = .fin 0 := by
    show XF.round (0 + 0) = _
    rw [add_zero]; exact round_zero
  have hmin : findMinDiff d.normT = .fin R.dblMax := by rw [hnt]; rfl
  have hslots : slotsOf d.normT = .ok 3 := by
    unfold slotsOf
    rw [hmin, hnt]
    show lagSlots (.fin 0 : XF R) (Arith.neg (.fin 0)) (.fin R.dblMax) = _
    rw [z]
    unfold lagSlots
    have e1 : (Arith.sub (.fin 0) (.fin 0) : XF R) = .fin 0 := by
      show Arith.add (.fin 0 : XF R) (Arith.neg (.fin 0)) = _
      rw [z, hadd]
    have e2 : (Arith.div (.fin 0) (.fin R.dblMax) : XF R) = .fin 0 := by
      show (if R.dblMax = 0 then _ else XF.round (0 / R.dblMax)) = _
      rw [if_neg hM.ne', zero_div]; exact round_zero
    rw [e1, e2]
    have e3 : Arith.toInt (Arith.floor (.fin 0 : XF R)) = some 0 := by
      show some _ = _
      simp
    rw [e3]; rfl
  have hlags : lagsUpTo (.fin 0 : XF R) (.fin R.dblMax) 4 (.fin 0) false = [.fin 0] := by
    have e1 : (Arith.add (.fin 0) (.fin R.dblMax) : XF R) = .fin R.dblMax := by
      show XF.round (0 + R.dblMax) = _
      rw [zero_add, hR]
    simp only [lagsUpTo, e1, xf_le, xf_lt, xf_eq, xf_zero, le_refl, lt_irrefl, decide_true, decide_false,
      Bool.false_and, if_true, Bool.false_eq_true, if_false, not_le.2 hM]
  have hplan : lagPlan .fabs "natural" wt d.normT (.fin 0) (.fin 0) = .ok [(.nan, 0)] := by
    obtain ⟨s, h1, h2, h3, h4⟩ := lagPlan_natural (nt := d.normT) (by rw [hnt]; simp) hw' (.fin 0) (.fin 0)
    have hsh : shiftedNat d.normT (.fin 0) = [.fin 0] := by
      rw [hnt]
      show List.takeWhile _ [Arith.add (.fin 0 : XF R) (.fin 0)] = _
      rw [hadd]
      simp [lastD]
    rw [hsh] at h2 h4
    have hs : s = [0] := by
      match s, h2 with
      | [i], _ =>
        have := h3 i (by simp)
        rw [hnt] at this
        simp at this
        rw [this]
    rw [h4, hs, hnt]
    have : (Arith.fabs (Arith.sub (.fin 0) (.fin 0)) : XF R) = .fin 0 := by
      rw [dist_round, sub_self, abs_zero]; exact round_zero
    simp only [List.zip_cons_cons, List.zip_nil_right, List.map_cons, List.map_nil, List.getD_cons_zero, this,
      weight_zero_zero hw']
  have hac : acPlan .fabs d.normT d.tMedian ({} : LagArgs (XF R)) "natural" wt = .ok [(.fin 0, [(.nan, 0)])] := by
    unfold acPlan
    rw [hslots, hmin, hmed]
    have hl : lastD d.normT = (.fin 0 : XF R) := by rw [hnt]; rfl
    simp only [Res.ok_bind, Option.getD_none, hl, z]
    unfold planRun
    rw [hlags]
    simp [lagPlan', hplan]
  rw [acOut_table .fabs hd hrows, hac]
  simp only [Res.ok_bind, List.map_cons, List.map_nil]
  congr 2
  refine List.map_congr_left fun row _ => ?_
  have hn : ∀ v : XF R, Arith.mul .nan v = (.nan : XF R) := fun _ => rfl
  simp only [rowCorr, corrValue, List.map_cons, List.map_nil, List.zipIdx_cons, List.zipIdx_nil, List.foldl_cons,
    List.foldl_nil, hn, addMul_nan _ _ _ (Or.inr (Or.inl rfl))]

end rounded

section exact
variable {K : Type} [Field K] [LinearOrder K] [IsStrictOrderedRing K] [FloorRing K] {dm : K} {f32 ex : K → K}

/-- **C55**: with `alpha = 0` the correlation at lag zero is NaN in every row, whatever the values; natural selection,
every weight function. -/
theorem C55_alpha_zero (d : DS (Exact dm f32 ex)) (hd : Constructed d) (g : LagArgs (Exact dm f32 ex)) (wt : String)
    (r : AcResult (Exact dm f32 ex)) (hr : autocorrelation .fabs d g "natural" wt = .ok r) (hw : KnownWeight wt)
    (M : ℕ) (t : ℕ → K) (ht : d.timeseries = samples M t) (hinc : Increasing M t) (ha : r.corr.alpha = .fin 0)
    (j : ℕ) (row : List (Exact dm f32 ex)) (hrow : d.HasRow j row) (n : ℕ) (hn : r.lags[n]? = some (.fin 0)) :
    r.At j n (.fin 0) .nan := by
  obtain ⟨hM, hnt, _⟩ := built_times hd ht
  obtain ⟨ps, h1, h2⟩ := result_at hd hr hrow hn
  obtain ⟨w, hw'⟩ := planWt_known (F := Exact dm f32 ex) hw
  obtain ⟨m, s, h3, h4, h5, h6, h7⟩ := planNat_nearest (dm := dm) (f32 := f32) (ex := ex) hM (hinc.sub_const (t 0)) 0
  obtain ⟨s', e1, _, _, e4⟩ := lagPlan_natural (nt := d.normT) (by rw [hnt]; simpa [samples] using hM.ne') hw'
    (.fin 0) (.fin 0)
  rw [ha, e4] at h1
  rw [hnt, h7] at e1
  simp only [Res.ok.injEq] at e1 h1
  subst e1
  rw [hnt, h6] at h1
  have h0 : 0 < m := by
    rw [h4 0 hM]
    have := hinc.le (Nat.zero_le (M - 1)) (by omega)
    linarith
  have hs0 : s 0 = 0 := by
    refine (h5 0 h0).unique ⟨hM, fun i hi => ?_⟩
    have := hinc.le (Nat.zero_le i) hi
    simp only [sub_self, zero_add, abs_zero]
    rcases Nat.eq_zero_or_pos i with rfl | hi0
    · right; simp
    · left
      have := hinc 0 i hi0 hi
      rw [abs_pos]
      linarith
  rw [corrValue_nan_weight _ _ _ 0] at h2
  · exact h2
  · rw [← h1, List.mem_iff_getElem?]
    refine ⟨0, ?_⟩
    have hg := samples_getD (R := Rnd.exact dm f32 ex) (f := fun i => t i - t 0) hM (Arith.zero)
    have he : (Arith.fabs (Arith.sub (.fin 0) (.fin 0)) : Exact dm f32 ex) = .fin 0 := by
      rw [dist_round, sub_self, abs_zero]; exact round_zero
    obtain ⟨m', rfl⟩ : ∃ m', m = m' + 1 := ⟨m - 1, by omega⟩
    rw [List.range_succ_eq_map]
    simp only [samples, List.range_succ_eq_map, List.map_cons, List.zip_cons_cons, List.getElem?_cons_zero,
      Option.some.injEq, Prod.mk.injEq, hs0, and_true]
    unfold samples at hg
    rw [hg]
    simp only [sub_self, zero_add, he]
    exact weight_zero_zero hw'

end exact

/-- `alpha = 0`: NaN wherever two samples coincide after the shift, zero elsewhere -/
example : ((mkFlat (q [0, 1, 3]) (q [1, 2, 6])).bind fun d =>
    acOut .fabs d ⟨some (.fin (-1/2)), some (.fin (1/2)), some (.fin (1/2)), some (.fin 0)⟩ "natural" "fractional")
      = .ok (q [-1/2, 0, 1/2], .flat [.fin 0, .nan, .fin 0]) := by decide +kernel

/-- negative `alpha` with fractional weights: a pole at distance `-alpha` -/
example : ((mkFlat (q [0, 1, 3]) (q [1, 2, 6])).bind fun d =>
    acOut .fabs d ⟨some (.fin (1)), some (.fin 1), none, some (.fin (-1))⟩ "natural" "fractional")
      = .ok (q [0, 1], .flat [.fin 1, .ninf]) := by decide +kernel

/-- the same with squared fractional weights: as with `alpha = 1` -/
example : ((mkFlat (q [0, 1, 3]) (q [1, 2, 6])).bind fun d =>
    acOut .fabs d ⟨some (.fin (1)), some (.fin 1), none, some (.fin (-1))⟩ "natural" "fractional_squared")
      = ((mkFlat (q [0, 1, 3]) (q [1, 2, 6])).bind fun d =>
    acOut .fabs d ⟨some (.fin (1)), some (.fin 1), none, some (.fin 1)⟩ "natural" "fractional_squared") := by
  decide +kernel

/-- two datasets of one sample -/
example : ((mkTable (q [5]) [q [2], q [3]]).bind fun d => acOut .fabs d {} "natural" "gaussian")
      = .ok (q [0], .table [[.nan], [.nan]]) := by decide +kernel

/-- changed signs, with a missing value -/
example : ((mkTable (q [0, 1, 3]) [q [1, 2, 6], [.fin 1, .nan, .fin 5]]).bind fun d => acOut .fabs d {} "natural" "fractional")
      = ((mkTable (q [0, 1, 3]) [q [-1, -2, -6], [.fin (-1), .nan, .fin (-5)]]).bind fun d =>
        acOut .fabs d {} "natural" "fractional") := by decide +kernel

set_option exponentiation.threshold 3000 in
/-- `1e39` fits a double but not a `float`: every correlation is zero, also at lag zero -/
example : ((mkFlat (b [0, 1, 2]) (b [0, 10 ^ 39, 0])).bind fun d => acOut .fabs d {} "natural" "fractional")
      = .ok (b [-2, -1, 0, 1, 2], .flat (b [0, 0, 0, 0, 0])) := by decide +kernel

theorem oddFloat64 (ex : ℚ → ℚ) (fu : Bool) : (Rnd.binary64 ex fu).OddFloat := by
  refine ⟨fun x => roundTo_neg x, ?_⟩
  intro c hc
  have hc : some ((2 ^ 24 - 1) * pow2 104) = some c := hc
  simp only [Option.some.injEq] at hc
  subst hc
  have : (1 : ℚ) ≤ pow2 104 := by rw [← pow2_zero]; exact pow2_mono (by norm_num)
  nlinarith

/-- **C59** in binary64. -/
theorem C59_binary64 {ex : ℚ → ℚ} {fu : Bool} (a : AbsFn) {d d' : DS (D64 ex fu)} (hd : Constructed d) (hd' : Constructed d')
    (ht : d.timeseries = d'.timeseries) (rows : List (List (D64 ex fu))) (h : d.data2d = .ok rows)
    (h' : d'.data2d = .ok (rows.map fun row => row.map Arith.neg)) (g : LagArgs (D64 ex fu)) (sel wt : String) :
    acOut a d' g sel wt = acOut a d g sel wt :=
  C59_negation (oddFloat64 ex fu) a hd hd' ht rows h h' g sel wt

set_option exponentiation.threshold 3000 in
/-- the hypotheses of `C54_single` hold for IEEE arithmetic -/
example : 0 < (Rnd.binary64 (fun x => 1 / (1 - x)) false).dblMax ∧
    (XF.round (Rnd.binary64 (fun x => 1 / (1 - x)) false).dblMax : B) = .fin (Rnd.binary64 (fun x => 1 / (1 - x)) false).dblMax := by
  decide +kernel

end Sacf
