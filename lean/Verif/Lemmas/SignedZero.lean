import Verif.Model.SignedZero
import Verif.Lemmas.Scale
import Verif.Lemmas.Round

/-! Maps that preserve everything but the sign of a zero. -/

set_option linter.unusedSectionVars false
set_option linter.unusedSimpArgs false
set_option linter.unusedVariables false

namespace Sacf

section lawfree
variable {F G : Type} [Arith F] [Arith G]

/-- what is needed of a map that forgets the sign of zero -/
structure ZHom (π : F → G) : Prop where
  zero : π Arith.zero = Arith.zero
  one : π Arith.one = Arith.one
  dblMax : π Arith.dblMax = Arith.dblMax
  add : ∀ x y, Arith.add (π x) (π y) = π (Arith.add x y)
  sub : ∀ x y, Arith.sub (π x) (π y) = π (Arith.sub x y)
  mul : ∀ x y, Arith.mul (π x) (π y) = π (Arith.mul x y)
  addMul : ∀ x y z, Arith.addMul (π x) (π y) (π z) = π (Arith.addMul x y z)
  neg : ∀ x, Arith.neg (π x) = π (Arith.neg x)
  fabs : ∀ x, Arith.fabs (π x) = π (Arith.fabs x)
  lt : ∀ x y, Arith.lt (π x) (π y) = Arith.lt x y
  le : ∀ x y, Arith.le (π x) (π y) = Arith.le x y
  eq : ∀ x y, Arith.eq (π x) (π y) = Arith.eq x y
  isNaN : ∀ x, Arith.isNaN (π x) = Arith.isNaN x
  toInt : ∀ x, Arith.toInt (π x) = Arith.toInt x
  ofInt : ∀ n, (Arith.ofInt n : G) = π (Arith.ofInt n)
  toFloat : ∀ x, Arith.toFloat (π x) = π (Arith.toFloat x)
  ofDec : ∀ s m e, (Arith.ofDec s m e : Option G) = (Arith.ofDec s m e).map π
  divInt : ∀ x n, Arith.div (π x) (Arith.ofInt n) = π (Arith.div x (Arith.ofInt n))
  half : ∀ x, Arith.div (π x) Arith.two = π (Arith.div x Arith.two)
  slots : ∀ x y, Arith.toInt (Arith.floor (Arith.div (π x) (π y))) = Arith.toInt (Arith.floor (Arith.div x y))
  frac : ∀ (a : AbsFn) (α x d : F), a.app x = .ok d → Corr.fractionWeight (π α) (π d) = π (Corr.fractionWeight α d)
  frac2 : ∀ (a : AbsFn) (α x d : F), a.app x = .ok d →
    Corr.fractionSquaredWeight (π α) (π d) = π (Corr.fractionSquaredWeight α d)
  gauss : ∀ α d, Corr.gaussianWeight (π α) (π d) = π (Corr.gaussianWeight α d)
  recip : ∀ (row : List F) (m : F), Arith.div Arith.one (π (normOfRow row m)) = π (Arith.div Arith.one (normOfRow row m))

variable {π : F → G}

theorem app_hom (h : ZHom π) (a : AbsFn) (x : F) : a.app (π x) = (a.app x).bind fun y => .ok (π y) := by
  cases a with
  | fabs => simp only [AbsFn.app, h.fabs, Res.ok_bind]
  | intAbs =>
    simp only [AbsFn.app, h.toInt]
    cases Arith.toInt x with
    | none => rfl
    | some n =>
      simp only
      split
      · simp only [Res.ok_bind, h.ofInt]
      · rfl

theorem lastD_hom (h : ZHom π) (nt : List F) : lastD (nt.map π) = π (lastD nt) := by
  unfold lastD
  rw [List.getLastD_eq_getLast?, List.getLastD_eq_getLast?, List.getLast?_map]
  cases nt.getLast? with
  | none => simp [h.zero]
  | some x => simp

theorem lowerBoundGo_hom (h : ZHom π) (nt : List F) (s : F) (n : Nat) : ∀ first len, len ≤ n →
    lowerBoundGo (nt.map π) (π s) first len = lowerBoundGo nt s first len := by
  induction n with
  | zero =>
    intro first len hl
    have : len = 0 := by omega
    subst this
    unfold lowerBoundGo; simp
  | succ n ih =>
    intro first len hl
    by_cases h0 : len = 0
    · subst h0; unfold lowerBoundGo; simp
    · conv_lhs => rw [lowerBoundGo, dif_neg h0, rawGet_map, Res.bind_assoc]
      conv_rhs => rw [lowerBoundGo, dif_neg h0]
      apply Res.bind_congr
      intro x _
      simp only [Res.ok_bind, h.lt]
      rw [ih _ _ (by omega), ih _ _ (by omega)]

theorem lowerBound_hom (h : ZHom π) (nt : List F) (s : F) : lowerBound (nt.map π) (π s) = lowerBound nt s := by
  unfold lowerBound
  rw [List.length_map]
  exact lowerBoundGo_hom h nt s _ _ _ le_rfl

theorem selectNat_hom (h : ZHom π) (a : AbsFn) (nt : List F) (s : F) :
    Corr.selectNat a (nt.map π) (π s) = Corr.selectNat a nt s := by
  unfold Corr.selectNat
  rw [lowerBound_hom h]
  apply Res.bind_congr
  intro i _
  simp only [atGet_map, Res.bind_assoc, Res.ok_bind, h.sub, app_hom h, h.lt]

theorem fastFirst_hom (h : ZHom π) (a : AbsFn) (nt : List F) (s : F) :
    fastFirst a (nt.map π) (π s) = fastFirst a nt s := by
  unfold fastFirst
  rw [lowerBound_hom h]
  apply Res.bind_congr
  intro i _
  simp only [atGet_map, Res.bind_assoc, Res.ok_bind, h.sub, app_hom h, h.lt]

theorem shifted_hom (h : ZHom π) (nt : List F) (k : F) :
    shiftedNat (nt.map π) (π k) = (shiftedNat nt k).map π ∧ shiftedFast (nt.map π) (π k) = (shiftedFast nt k).map π := by
  have e : (nt.map π).map (fun t => Arith.add t (π k)) = (nt.map fun t => Arith.add t k).map π := by
    simp only [List.map_map]
    apply List.map_congr_left
    intro x _
    exact h.add x k
  constructor
  · unfold shiftedNat
    rw [e, lastD_hom h]
    exact takeWhile_map_congr _ _ _ (fun x => by simp only [h.lt]) _
  · unfold shiftedFast
    rw [e, lastD_hom h]
    exact takeWhile_map_congr _ _ _ (fun x => by simp only [h.le]) _

theorem planSel_hom (h : ZHom π) (a : AbsFn) (sel : String) (nt : List F) (k : F) :
    planSel a sel (nt.map π) (π k) = (planSel a sel nt k).bind fun p => .ok (p.1, p.2.map π) := by
  obtain ⟨h1, h2⟩ := shifted_hom h nt k
  unfold planSel
  split
  · have : planFast a (nt.map π) (π k) = planFast a nt k := by
      unfold planFast
      rw [h2]
      cases hs : shiftedFast nt k with
      | nil => rfl
      | cons s rest => simp only [List.map_cons, fastFirst_hom h, List.length_map]
    rw [this, h2]
    simp only [Res.bind_assoc, Res.ok_bind]
  · split
    · have : planNat a (nt.map π) (π k) = planNat a nt k := by
        unfold planNat
        rw [h1, Res.mapL_map]
        exact Res.mapL_congr fun x _ => selectNat_hom h a nt x
      rw [this, h1]
      simp only [Res.bind_assoc, Res.ok_bind]
    · rfl

theorem planDelta_hom (h : ZHom π) (a : AbsFn) (nt : List F) (s : List Nat) (sh : List F) :
    planDelta a (nt.map π) s (sh.map π) = (planDelta a nt s sh).bind fun d => .ok (d.map π) := by
  unfold planDelta
  rw [← mapL_bind_ok, List.zip_map_right, Res.mapL_map]
  apply Res.mapL_congr
  intro p _
  simp only [Prod.map_fst, Prod.map_snd, atGet_map, Res.bind_assoc, Res.ok_bind, app_hom h, h.sub, id]

/-- the distances come out of `abs` -/
theorem planDelta_app {a : AbsFn} {nt : List F} {s : List Nat} {sh ds : List F} (h : planDelta a nt s sh = .ok ds) :
    ∀ d ∈ ds, ∃ x, a.app x = .ok d := by
  unfold planDelta at h
  intro d hd
  obtain ⟨i, hi, rfl⟩ := List.getElem_of_mem hd
  have hl := Res.mapL_length h
  obtain ⟨y, hy, he⟩ := Res.mapL_eq_ok_getElem h i _ (List.getElem?_eq_getElem (show i < (s.zip sh).length by omega))
  rw [List.getElem?_eq_getElem hi] at hy
  simp only [Option.some.injEq] at hy
  subst hy
  rw [Res.bind_eq_ok] at he
  obtain ⟨t, _, ht⟩ := he
  exact ⟨_, ht⟩

theorem lagPlan_hom (h : ZHom π) (a : AbsFn) (sel wt : String) (nt : List F) (alpha k : F) :
    lagPlan a sel wt (nt.map π) (π alpha) (π k)
      = (lagPlan a sel wt nt alpha k).bind fun ps => .ok (ps.map fun p => (π p.1, p.2)) := by
  unfold lagPlan
  rw [planSel_hom h]
  simp only [Res.bind_assoc]
  apply Res.bind_congr
  intro p _
  simp only [Res.ok_bind]
  rw [planDelta_hom h]
  simp only [Res.bind_assoc]
  apply Res.bind_congr
  intro d hd
  simp only [Res.ok_bind]
  have happ := planDelta_app hd
  have key : ∀ (w : F → F → F) (w' : G → G → G), (∀ x y d, a.app y = .ok d → w' (π x) (π d) = π (w x d)) →
      ((d.map π).map (w' (π alpha))).zip p.1 = ((d.map (w alpha)).zip p.1).map fun p => (π p.1, p.2) := by
    intro w w' hw
    have : (d.map π).map (w' (π alpha)) = (d.map (w alpha)).map π := by
      simp only [List.map_map]
      apply List.map_congr_left
      intro x hx
      obtain ⟨y, hy⟩ := happ x hx
      exact hw alpha y x hy
    rw [this, List.zip_map_left]
    rfl
  unfold planWt
  split
  · simp only [Res.ok_bind]
    rw [key _ _ fun x _ d _ => h.gauss x d]
  · split
    · simp only [Res.ok_bind]
      rw [key _ _ fun x y d hd => h.frac a x y d hd]
    · split
      · simp only [Res.ok_bind]
        rw [key _ _ fun x y d hd => h.frac2 a x y d hd]
      · rfl

theorem lagsUpTo_hom (h : ZHom π) (hi res : F) (fuel : Nat) (k : F) (p : Bool) :
    lagsUpTo (π hi) (π res) fuel (π k) p = (lagsUpTo hi res fuel k p).map π := by
  induction fuel generalizing k p with
  | zero => rfl
  | succ n ih =>
    have hz1 : Arith.lt Arith.zero (π k) = Arith.lt Arith.zero k := by
      have := h.lt Arith.zero k; rwa [h.zero] at this
    have hz2 : Arith.eq (π k) Arith.zero = Arith.eq k Arith.zero := by
      have := h.eq k Arith.zero; rwa [h.zero] at this
    unfold lagsUpTo
    rw [h.le, hz1, hz2, h.add]
    split
    · split
      · split <;> simp only [List.map_cons, ih, h.zero]
      · split <;> simp only [List.map_cons, ih, h.zero]
    · rfl

/-- the image of a plan -/
def planMap (π : F → G) (L : List (F × List (F × Nat))) : List (G × List (G × Nat)) :=
  L.map fun p => (π p.1, p.2.map fun q => (π q.1, q.2))

theorem planRun_hom (h : ZHom π) (a : AbsFn) (sel wt : String) (nt : List F) (alpha lo hi res : F) (n : Nat) :
    planRun a sel wt (nt.map π) (π alpha) (π lo) (π hi) (π res) n
      = (planRun a sel wt nt alpha lo hi res n).bind fun L => .ok (planMap π L) := by
  unfold planRun
  rw [lagsUpTo_hom h, List.length_map, ← List.map_take, Res.mapL_map]
  have e : ∀ k, lagPlan' a sel wt (nt.map π) (π alpha) (π k)
      = (lagPlan' a sel wt nt alpha k).bind fun p => .ok (π p.1, p.2.map fun q => (π q.1, q.2)) := by
    intro k
    unfold lagPlan'
    rw [lagPlan_hom h]
    simp only [Res.bind_assoc, Res.ok_bind]
  rw [Res.mapL_congr (fun k _ => e k), mapL_bind_ok, Res.bind_assoc, Res.bind_assoc]
  apply Res.bind_congr
  intro L _
  simp only [Res.ok_bind]
  split
  · rfl
  · rfl

theorem findMinDiff_hom (h : ZHom π) (nt : List F) : findMinDiff (nt.map π) = π (findMinDiff nt) := by
  have key : ∀ (l : List F) (z : F), findMinDiff.go (π z) (l.map π) = π (findMinDiff.go z l) := by
    intro l
    induction l with
    | nil => intro z; rfl
    | cons x l ih =>
      intro z
      cases l with
      | nil => rfl
      | cons y l =>
        simp only [List.map_cons, findMinDiff.go, h.sub, h.lt]
        have := ih (if Arith.lt (Arith.sub y x) z then Arith.sub y x else z)
        rw [List.map_cons] at this
        rw [← this]
        congr 1
        split <;> rfl
  show findMinDiff.go _ _ = _
  rw [← h.dblMax]
  exact key nt _

/-- the image of the lag arguments -/
def LagArgs.mapTo (f : F → G) (g : LagArgs F) : LagArgs G :=
  { minLag := g.minLag.map f, maxLag := g.maxLag.map f, lagRes := g.lagRes.map f, alpha := g.alpha.map f }

theorem acPlan_hom (h : ZHom π) (a : AbsFn) (nt : List F) (med : F) (g : LagArgs F) (sel wt : String) :
    acPlan a (nt.map π) (π med) (g.mapTo π) sel wt
      = (acPlan a nt med g sel wt).bind fun L => .ok (planMap π L) := by
  have hg : ∀ (o : Option F) (x : F), (o.map π).getD (π x) = π (o.getD x) := by
    intro o x; cases o <;> rfl
  unfold acPlan slotsOf
  rw [findMinDiff_hom h, lastD_hom h]
  have hs : lagSlots (π (lastD nt)) (Arith.neg (π (lastD nt))) (π (findMinDiff nt))
      = lagSlots (lastD nt) (Arith.neg (lastD nt)) (findMinDiff nt) := by
    unfold lagSlots
    rw [h.neg, h.sub, h.slots]
  rw [hs, Res.bind_assoc]
  apply Res.bind_congr
  intro n _
  simp only [LagArgs.mapTo, h.neg, hg]
  rw [planRun_hom h, Res.bind_assoc, Res.bind_assoc]
  apply Res.bind_congr
  intro L _
  have : (planMap π L).isEmpty = L.isEmpty := by cases L <;> rfl
  simp only [Res.ok_bind, this]
  split <;> rfl

theorem meanOf_hom (h : ZHom π) (row : List F) : meanOf (row.map π) = π (meanOf row) := by
  have hk : (row.map π).filter (fun d => !Arith.isNaN d) = (row.filter fun d => !Arith.isNaN d).map π := by
    rw [List.filter_map]
    congr 1
    apply List.filter_congr
    intro x _
    simp only [Function.comp, h.isNaN]
  have hs : ∀ (l : List F) (z : F), (l.map π).foldl Arith.add (π z) = π (l.foldl Arith.add z) := by
    intro l
    induction l with
    | nil => intro z; rfl
    | cons x l ih =>
      intro z
      rw [List.map_cons, List.foldl_cons, List.foldl_cons, h.add, ih]
  unfold meanOf
  simp only
  rw [hk, List.length_map, ← h.zero, hs, h.divInt]

theorem normOfRow_hom (h : ZHom π) (row : List F) (m : F) : normOfRow (row.map π) (π m) = π (normOfRow row m) := by
  have key : ∀ (l : List F) (z : F),
      (l.map π).foldl (fun acc x => if Arith.isNaN (Arith.toFloat x) then acc
        else Arith.addMul acc (Arith.sub (Arith.toFloat x) (π m)) (Arith.sub (Arith.toFloat x) (π m))) (π z)
      = π (l.foldl (fun acc x => if Arith.isNaN (Arith.toFloat x) then acc
        else Arith.addMul acc (Arith.sub (Arith.toFloat x) m) (Arith.sub (Arith.toFloat x) m)) z) := by
    intro l
    induction l with
    | nil => intro z; rfl
    | cons x l ih =>
      intro z
      simp only [List.map_cons, List.foldl_cons, h.toFloat, h.isNaN, h.sub, h.addMul]
      rw [← ih]
      congr 1
      split <;> rfl
  unfold normOfRow
  rw [← h.zero]
  exact key row _

theorem getD_hom (h : ZHom π) (x : List F) (i : ℕ) : (x.map π).getD i Arith.zero = π (x.getD i Arith.zero) := by
  rw [List.getD_eq_getElem?_getD, List.getD_eq_getElem?_getD, List.getElem?_map]
  cases x[i]? with
  | none => exact h.zero.symm
  | some y => rfl

theorem corrValue_hom (h : ZHom π) (x : List F) (n : F)
    (hn : Arith.div Arith.one (π n) = π (Arith.div Arith.one n)) (ps : List (F × Nat)) :
    corrValue (x.map π) (π n) (ps.map fun p => (π p.1, p.2)) = π (corrValue x n ps) := by
  have key : ∀ (l : List (F × Nat)) (j : ℕ) (z : F),
      ((l.map fun p => (π p.1, p.2)).zipIdx j).foldl (fun acc p => Arith.addMul acc
        (Arith.mul p.1.1 ((x.map π).getD p.2 Arith.zero)) ((x.map π).getD p.1.2 Arith.zero)) (π z)
      = π ((l.zipIdx j).foldl (fun acc p => Arith.addMul acc
        (Arith.mul p.1.1 (x.getD p.2 Arith.zero)) (x.getD p.1.2 Arith.zero)) z) := by
    intro l
    induction l with
    | nil => intro j z; rfl
    | cons p l ih =>
      intro j z
      simp only [List.map_cons, List.zipIdx_cons, List.foldl_cons, getD_hom h, h.mul, h.addMul]
      have := ih (j + 1) (Arith.addMul z (Arith.mul p.1 (x.getD j Arith.zero)) (x.getD p.2 Arith.zero))
      simp only [getD_hom h] at this
      exact this
  unfold corrValue
  rw [hn, ← h.mul, ← key ps 0 Arith.zero, h.zero]

theorem rowCorr_hom (h : ZHom π) (row : List F) (L : List (F × List (F × Nat))) :
    rowCorr (row.map π) (planMap π L) = (rowCorr row L).map π := by
  unfold rowCorr planMap
  rw [meanOf_hom h, normOfRow_hom h]
  have e : (row.map π).map (fun x => Arith.sub x (π (meanOf row))) = (row.map fun x => Arith.sub x (meanOf row)).map π := by
    simp only [List.map_map]
    apply List.map_congr_left
    intro x _
    exact h.sub _ _
  rw [e]
  have hr := h.recip row (meanOf row)
  generalize (row.map fun x => Arith.sub x (meanOf row)) = xs
  simp only [List.map_map]
  apply List.map_congr_left
  intro p _
  exact corrValue_hom h _ _ hr p.2

/-! ### constructors -/

/-- the image of a data structure -/
def DS.mapTo (f : F → G) (d : DS F) : DS G :=
  { t := d.t.map f, data := d.data.map f, err := d.err.map f, dataMean := d.dataMean.map f, tMedian := f d.tMedian,
    tMax := f d.tMax, normT := d.normT.map f, normData := d.normData.map f, N := d.N, M := d.M }

theorem slice_map {α β : Type} (f : α → β) (v : List α) (a b : ℕ) :
    slice (v.map f) a b = (slice v a b).bind fun w => .ok (w.map f) := by
  unfold slice
  rw [List.length_map]
  split
  · simp only [Res.ok_bind, List.map_take, List.map_drop]
  · rfl

theorem writeAt_map {α β : Type} (f : α → β) (v : List α) (a : ℕ) (w : List α) :
    writeAt (v.map f) a (w.map f) = (writeAt v a w).bind fun w => .ok (w.map f) := by
  unfold writeAt
  simp only [List.length_map]
  split
  · simp only [Res.ok_bind, List.map_take, List.map_drop, List.map_append]
  · rfl

theorem foldL_hom {σ τ α : Type} (φ : σ → τ) (f : σ → α → Res σ) (f' : τ → α → Res τ) (l : List α)
    (hf : ∀ s, ∀ x ∈ l, f' (φ s) x = (f s x).bind fun s => .ok (φ s)) (s : σ) :
    Res.foldL f' (φ s) l = (Res.foldL f s l).bind fun s => .ok (φ s) := by
  induction l generalizing s with
  | nil => rfl
  | cons x xs ih =>
    simp only [Res.foldL_cons]
    rw [hf s x List.mem_cons_self, Res.bind_assoc, Res.bind_assoc]
    apply Res.bind_congr
    intro s' _
    simp only [Res.ok_bind]
    exact ih (fun s x hx => hf s x (List.mem_cons_of_mem _ hx)) s'

theorem setUp_hom (h : ZHom π) (t data err : List F) (N M : ℕ) :
    setUp (t.map π) (data.map π) (err.map π) N M = (setUp t data err N M).bind fun d => .ok (d.mapTo π) := by
  unfold setUp
  simp only [List.isEmpty_map, List.length_map]
  split
  · rfl
  · split
    · rfl
    · have h1 : setDataMean (data.map π) N M = (setDataMean data N M).bind fun m => .ok (m.map π) := by
        unfold setDataMean
        rw [← mapL_bind_ok]
        apply Res.mapL_congr
        intro j _
        simp only [slice_map, Res.bind_assoc, Res.ok_bind, meanOf_hom h]
      have h2 : settMax (t.map π) = (settMax t).bind fun x => .ok (π x) := by
        unfold settMax; rw [List.length_map, rawGet_map]
      have h3 : calcNormt (t.map π) = (calcNormt t).bind fun x => .ok (x.map π) := by
        unfold calcNormt
        simp only [rawGet_map, Res.bind_assoc, Res.ok_bind, List.map_map, Function.comp_def, h.sub]
      have h4 : ∀ mean, calcNormData (data.map π) (mean.map π) N M
          = (calcNormData data mean N M).bind fun x => .ok (x.map π) := by
        intro mean
        unfold calcNormData
        have := foldL_hom (List.map π) (fun out j =>
          (slice data (vecIdx M 0 j) (vecIdx M M j)).bind fun row =>
          (rawGet mean j).bind fun m => writeAt out (vecIdx M 0 j) (row.map fun x => Arith.sub x m))
          (fun out j =>
          (slice (data.map π) (vecIdx M 0 j) (vecIdx M M j)).bind fun row =>
          (rawGet (mean.map π) j).bind fun m => writeAt out (vecIdx M 0 j) (row.map fun x => Arith.sub x m))
          (List.range N) (by
            intro out j _
            simp only [slice_map, rawGet_map, Res.bind_assoc, Res.ok_bind]
            apply Res.bind_congr
            intro row _
            apply Res.bind_congr
            intro m _
            have e : (row.map π).map (fun x => Arith.sub x (π m)) = (row.map fun x => Arith.sub x m).map π := by
              simp only [List.map_map]
              apply List.map_congr_left
              intro x _
              exact h.sub _ _
            rw [e, writeAt_map]) (List.replicate data.length Arith.zero)
        rw [List.map_replicate, h.zero] at this
        rw [List.length_map]
        exact this
      have h5 : ∀ nt, settMedian (nt.map π) = (settMedian nt).bind fun m => .ok (π m) := by
        intro nt
        unfold settMedian
        simp only [List.length_map]
        split
        · simp only [rawGet_map, Res.bind_assoc, Res.ok_bind, h.add, h.half]
        · rw [rawGet_map]
      simp only [h1, h2, h3, h4, h5, Res.bind_assoc, Res.ok_bind]
      rfl

theorem unflatten_map (f : F → G) (v : List F) (N M : ℕ) :
    unflatten (v.map f) N M = (unflatten v N M).bind fun rows => .ok (rows.map (List.map f)) := by
  unfold unflatten
  rw [← mapL_bind_ok]
  apply Res.mapL_congr
  intro j _
  rw [← mapL_bind_ok]
  apply Res.mapL_congr
  intro i _
  rw [rawGet_map]

/-! ### files -/

/-- the image of the state of the file reader -/
def RState.mapTo (f : F → G) (s : RState F) : RState G :=
  { t := s.t.map f, data := s.data.map f, err := s.err.map f, hasErrors := s.hasErrors,
    updateHasErrors := s.updateHasErrors }

theorem readDouble_hom (h : ZHom π) (s : List Char) :
    (readDouble s : Option (G × List Char)) = (readDouble s : Option (F × List Char)).map fun p => (π p.1, p.2) := by
  unfold readDouble
  simp only
  split
  · rfl
  · split
    · split
      · rfl
      · rw [h.ofDec, Option.map_map, Option.map_map]; rfl
    · split
      · rfl
      · rw [h.ofDec, Option.map_map, Option.map_map]; rfl
    · rw [h.ofDec, Option.map_map, Option.map_map]; rfl

theorem innerLoop_none {st : RState F} {s : List Char} (hs : (readDouble s : Option (F × List Char)) = none) :
    innerLoop st s = (st, none) := by
  rw [innerLoop]
  split
  · rfl
  · rename_i h; rw [hs] at h; simp at h

theorem innerLoop_some {st : RState F} {s r : List Char} {x : F}
    (hs : (readDouble s : Option (F × List Char)) = some (x, r)) :
    innerLoop st s = if st.hasErrors then innerLoop { st with err := st.err ++ [x], updateHasErrors := false } r
      else (st, some r) := by
  rw [innerLoop]
  split
  · rename_i h; rw [hs] at h; simp at h
  · rename_i x' r' h
    rw [hs] at h
    simp only [Option.some.injEq, Prod.mk.injEq] at h
    obtain ⟨rfl, rfl⟩ := h
    rfl

theorem innerLoop_hom (h : ZHom π) (st : RState F) (s : List Char) :
    innerLoop (st.mapTo π) s = ((innerLoop st s).1.mapTo π, (innerLoop st s).2) := by
  induction hn : s.length using Nat.strong_induction_on generalizing st s with
  | _ n ih =>
    have hr := readDouble_hom h s
    cases hs : (readDouble s : Option (F × List Char)) with
    | none =>
      rw [hs] at hr
      rw [innerLoop_none hs, innerLoop_none hr]
    | some p =>
      obtain ⟨x, r⟩ := p
      rw [hs] at hr
      rw [innerLoop_some hs, innerLoop_some hr]
      have hl := readDouble_length hs
      cases he : st.hasErrors with
      | false => simp only [RState.mapTo, he, Bool.false_eq_true, if_false]
      | true =>
        have := ih r.length (by omega) { st with err := st.err ++ [x], updateHasErrors := false } r rfl
        simp only [RState.mapTo, he, if_true, List.map_append, List.map_cons, List.map_nil] at this ⊢
        exact this

/-- one step of the outer loop, without the recursion -/
theorem outerLoop_none1 {st : RState F} {s : List Char} (hs : (readDouble s : Option (F × List Char)) = none) :
    outerLoop st s = st := by
  rw [outerLoop]
  split
  · rfl
  · rename_i h; rw [hs] at h; simp at h

theorem outerLoop_none2 {st : RState F} {s s1 : List Char} {x : F}
    (hs : (readDouble s : Option (F × List Char)) = some (x, s1))
    (hs1 : (readDouble s1 : Option (F × List Char)) = none) : outerLoop st s = st := by
  rw [outerLoop]
  split
  · rfl
  · rename_i x' s1' h
    rw [hs] at h
    simp only [Option.some.injEq, Prod.mk.injEq] at h
    obtain ⟨rfl, rfl⟩ := h
    split
    · rfl
    · rename_i h; rw [hs1] at h; simp at h

/-- the state after a pair and what follows it -/
def afterInner (st : RState F) (x y : F) (s2 : List Char) : RState F :=
  let p := innerLoop { st with t := st.t ++ [x], data := st.data ++ [y] } s2
  if p.1.updateHasErrors then { p.1 with hasErrors := false } else p.1

theorem outerLoop_some {st : RState F} {s s1 s2 : List Char} {x y : F}
    (hs : (readDouble s : Option (F × List Char)) = some (x, s1))
    (hs1 : (readDouble s1 : Option (F × List Char)) = some (y, s2)) :
    outerLoop st s = match (innerLoop { st with t := st.t ++ [x], data := st.data ++ [y] } s2).2 with
      | none => afterInner st x y s2
      | some r => outerLoop (afterInner st x y s2) r := by
  rw [outerLoop]
  split
  · rename_i h; rw [hs] at h; simp at h
  · rename_i x' s1' h
    rw [hs] at h
    simp only [Option.some.injEq, Prod.mk.injEq] at h
    obtain ⟨rfl, rfl⟩ := h
    split
    · rename_i h; rw [hs1] at h; simp at h
    · rename_i y' s2' h
      rw [hs1] at h
      simp only [Option.some.injEq, Prod.mk.injEq] at h
      obtain ⟨rfl, rfl⟩ := h
      simp only
      split
      · rename_i h; rw [h]; rfl
      · rename_i r h; rw [h]; rfl

theorem afterInner_hom (h : ZHom π) (st : RState F) (x y : F) (s : List Char) :
    afterInner (st.mapTo π) (π x) (π y) s = (afterInner st x y s).mapTo π := by
  have e : ({ st.mapTo π with t := (st.mapTo π).t ++ [π x], data := (st.mapTo π).data ++ [π y] } : RState G)
      = ({ st with t := st.t ++ [x], data := st.data ++ [y] } : RState F).mapTo π := by
    simp [RState.mapTo]
  unfold afterInner
  rw [e, innerLoop_hom h]
  simp only
  generalize (innerLoop ({ st with t := st.t ++ [x], data := st.data ++ [y] } : RState F) s).1 = u
  have : (u.mapTo π).updateHasErrors = u.updateHasErrors := rfl
  rw [this]
  split <;> rfl

theorem outerLoop_hom (h : ZHom π) (st : RState F) (s : List Char) :
    outerLoop (st.mapTo π) s = (outerLoop st s).mapTo π := by
  induction hn : s.length using Nat.strong_induction_on generalizing st s with
  | _ n ih =>
    have hr := readDouble_hom h s
    cases hs : (readDouble s : Option (F × List Char)) with
    | none =>
      rw [hs] at hr
      rw [outerLoop_none1 hs, outerLoop_none1 hr]
    | some p =>
      obtain ⟨x, s1⟩ := p
      rw [hs] at hr
      have hr1 := readDouble_hom h s1
      have hl := readDouble_length hs
      cases hs1 : (readDouble s1 : Option (F × List Char)) with
      | none =>
        rw [hs1] at hr1
        rw [outerLoop_none2 hs hs1, outerLoop_none2 hr hr1]
      | some p =>
        obtain ⟨y, s2⟩ := p
        rw [hs1] at hr1
        have hl1 := readDouble_length hs1
        rw [outerLoop_some hs hs1, outerLoop_some hr hr1]
        have e : ({ st.mapTo π with t := (st.mapTo π).t ++ [π x], data := (st.mapTo π).data ++ [π y] } : RState G)
            = ({ st with t := st.t ++ [x], data := st.data ++ [y] } : RState F).mapTo π := by
          simp [RState.mapTo]
        simp only
        rw [e, innerLoop_hom h, afterInner_hom h]
        simp only
        cases hi : (innerLoop ({ st with t := st.t ++ [x], data := st.data ++ [y] } : RState F) s2).2 with
        | none => rfl
        | some r =>
          have hl2 := innerLoop_length _ _ _ hi
          exact ih r.length (by omega) _ r rfl

theorem mkFile_hom (h : ZHom π) (s : Option (List Char)) :
    (mkFile s : Res (DS G)) = (mkFile s : Res (DS F)).bind fun d => .ok (d.mapTo π) := by
  cases s with
  | none => rfl
  | some s =>
    have key : ∀ (l : List (List Char)) (st : RState F),
        l.foldl readLine (st.mapTo π) = (l.foldl readLine st).mapTo π := by
      intro l
      induction l with
      | nil => intro st; rfl
      | cons x l ih =>
        intro st
        rw [List.foldl_cons, List.foldl_cons, ← ih]
        congr 1
        unfold readLine
        split
        · rfl
        · exact outerLoop_hom h _ _
    show finishFile _ = (finishFile _).bind _
    have hi : (RState.init : RState G) = (RState.init : RState F).mapTo π := rfl
    rw [hi, key]
    generalize (splitLines s).foldl readLine (RState.init : RState F) = st
    unfold finishFile
    rw [← setUp_hom h]
    have e : (st.mapTo π).t.length = st.t.length := by simp [RState.mapTo]
    rw [e]
    have e2 : (if (st.mapTo π).hasErrors then (st.mapTo π).err else []) = (if st.hasErrors then st.err else []).map π := by
      show (if st.hasErrors then st.err.map π else []) = _
      split <;> rfl
    rw [e2]
    rfl

end lawfree

end Sacf
