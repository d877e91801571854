import Verif.Lemmas.Result

/-! How the closed form of `autocorrelation` behaves under changes of the data and of the time unit. -/

set_option linter.unusedSectionVars false
set_option linter.unusedSimpArgs false

namespace Sacf

section lawfree
open Arith
variable {F : Type} [Arith F]

theorem acOut_eq (a : AbsFn) {d : DS F} (h : d.WF) (g : LagArgs F) (sel wt : String) :
    acOut a d g sel wt = (acPlan a d.normT d.tMedian g sel wt).bind fun L =>
      (corrOut ((List.range d.N).map (d.acRow L))).bind fun out => .ok (L.map Prod.fst, out) := by
  unfold acOut
  rw [autocorrelation_plan a h]
  simp only [Res.bind_assoc, Res.ok_bind]

/-- the table a constructed data structure shows determines its correlations -/
theorem acRows_of_table {d : DS F} (hd : Constructed d) {rows : List (List F)} (h : d.data2d = .ok rows)
    (L : List (F × List (F × Nat))) : (List.range d.N).map (d.acRow L) = rows.map fun row => rowCorr row L := by
  obtain ⟨t, data, err, N, hN, hb⟩ := hd.built
  have h' := h
  unfold DS.data2d at h'
  rw [hb.hN, hb.hM, hb.hdata, unflatten_ok hb.hsize] at h'
  simp only [Res.ok.injEq] at h'
  subst h'
  rw [List.map_map, hb.hN]
  apply List.map_congr_left
  intro j hj
  exact hb.acRow (List.mem_range.1 hj) L

theorem acOut_table (a : AbsFn) {d : DS F} (hd : Constructed d) {rows : List (List F)} (h : d.data2d = .ok rows)
    (g : LagArgs F) (sel wt : String) :
    acOut a d g sel wt = (acPlan a d.normT d.tMedian g sel wt).bind fun L =>
      (corrOut (rows.map fun row => rowCorr row L)).bind fun out => .ok (L.map Prod.fst, out) := by
  rw [acOut_eq a hd.wf]
  apply Res.bind_congr
  intro L _
  rw [acRows_of_table hd h]

/-- `data()` of a constructed data structure never fails -/
theorem data2d_ok {d : DS F} (hd : Constructed d) : ∃ rows, d.data2d = .ok rows := by
  obtain ⟨t, data, err, N, hN, hb⟩ := hd.built
  unfold DS.data2d
  rw [hb.hN, hb.hM, hb.hdata, unflatten_ok hb.hsize]
  exact ⟨_, rfl⟩

theorem median_of_normT {d d' : DS F} (hd : Constructed d) (hd' : Constructed d') (h : d.normT = d'.normT) :
    d.tMedian = d'.tMedian := by
  obtain ⟨t, data, err, N, hN, hb⟩ := hd.built
  obtain ⟨t', data', err', N', hN', hb'⟩ := hd'.built
  have h1 := hb.med
  have h2 := hb'.med
  rw [h, h2] at h1
  simpa using h1.symm

/-- the outcome depends only on the normalised times and the table of values -/
theorem acOut_congr (a : AbsFn) {d d' : DS F} (hd : Constructed d) (hd' : Constructed d')
    (ht : d.normT = d'.normT) (hdat : d.data2d = d'.data2d) (g : LagArgs F) (sel wt : String) :
    acOut a d g sel wt = acOut a d' g sel wt := by
  obtain ⟨rows, h⟩ := data2d_ok hd
  rw [acOut_table a hd h, acOut_table a hd' (hdat ▸ h), ht, median_of_normT hd hd' ht]

/-! ### change of the time unit -/

/-- `σ` behaves like multiplication of times by a positive constant -/
structure TimeScale (σ : F → F) : Prop where
  zero : σ Arith.zero = Arith.zero
  add : ∀ x y, Arith.add (σ x) (σ y) = σ (Arith.add x y)
  sub : ∀ x y, Arith.sub (σ x) (σ y) = σ (Arith.sub x y)
  neg : ∀ x, Arith.neg (σ x) = σ (Arith.neg x)
  fabs : ∀ x, Arith.fabs (σ x) = σ (Arith.fabs x)
  lt : ∀ x y, Arith.lt (σ x) (σ y) = Arith.lt x y
  le : ∀ x y, Arith.le (σ x) (σ y) = Arith.le x y
  eq : ∀ x y, Arith.eq (σ x) (σ y) = Arith.eq x y
  div : ∀ x y, Arith.div (σ x) (σ y) = Arith.div x y
  half : ∀ x, Arith.div (σ x) Arith.two = σ (Arith.div x Arith.two)
  gauss : ∀ x y, Corr.gaussianWeight (σ x) (σ y) = Corr.gaussianWeight x y

variable {σ : F → F}

theorem lastD_scale (h : TimeScale σ) (nt : List F) : lastD (nt.map σ) = σ (lastD nt) := by
  unfold lastD
  rw [List.getLastD_eq_getLast?, List.getLastD_eq_getLast?, List.getLast?_map]
  cases nt.getLast? with
  | none => simp [h.zero]
  | some x => simp

theorem rawGet_map {α β : Type} (f : α → β) (l : List α) (i : Nat) :
    rawGet (l.map f) i = (rawGet l i).bind fun x => .ok (f x) := by
  unfold rawGet
  rw [List.getElem?_map]
  cases l[i]? <;> rfl

theorem atGet_map {α β : Type} (f : α → β) (l : List α) (i : Nat) :
    atGet (l.map f) i = (atGet l i).bind fun x => .ok (f x) := by
  unfold atGet
  rw [List.getElem?_map]
  cases l[i]? <;> rfl

theorem lowerBoundGo_scale (h : TimeScale σ) (nt : List F) (s : F) (n : Nat) : ∀ first len, len ≤ n →
    lowerBoundGo (nt.map σ) (σ s) first len = lowerBoundGo nt s first len := by
  induction n with
  | zero =>
    intro first len hl
    have : len = 0 := by omega
    subst this
    unfold lowerBoundGo; simp
  | succ n ih =>
    intro first len hl
    by_cases h0 : len = 0
    · subst h0; unfold lowerBoundGo; simp
    · conv_lhs => rw [lowerBoundGo, dif_neg h0, rawGet_map, Res.bind_assoc]
      conv_rhs => rw [lowerBoundGo, dif_neg h0]
      apply Res.bind_congr
      intro x _
      simp only [Res.ok_bind, h.lt]
      rw [ih _ _ (by omega), ih _ _ (by omega)]

theorem lowerBound_scale (h : TimeScale σ) (nt : List F) (s : F) :
    lowerBound (nt.map σ) (σ s) = lowerBound nt s := by
  unfold lowerBound
  rw [List.length_map]
  exact lowerBoundGo_scale h nt s _ _ _ le_rfl

theorem selectNat_scale (h : TimeScale σ) (nt : List F) (s : F) :
    Corr.selectNat .fabs (nt.map σ) (σ s) = Corr.selectNat .fabs nt s := by
  unfold Corr.selectNat
  rw [lowerBound_scale h]
  apply Res.bind_congr
  intro i _
  simp only [atGet_map, Res.bind_assoc, Res.ok_bind, AbsFn.app, h.sub, h.fabs, h.lt]

theorem fastFirst_scale (h : TimeScale σ) (nt : List F) (s : F) :
    fastFirst .fabs (nt.map σ) (σ s) = fastFirst .fabs nt s := by
  unfold fastFirst
  rw [lowerBound_scale h]
  apply Res.bind_congr
  intro i _
  simp only [atGet_map, Res.bind_assoc, Res.ok_bind, AbsFn.app, h.sub, h.fabs, h.lt]

theorem takeWhile_map_congr {α β : Type} (f : α → β) (p : β → Bool) (q : α → Bool) (h : ∀ x, p (f x) = q x)
    (l : List α) : (l.map f).takeWhile p = (l.takeWhile q).map f := by
  induction l with
  | nil => rfl
  | cons x xs ih =>
    simp only [List.map_cons, List.takeWhile_cons, h]
    cases q x <;> simp [ih]

theorem shifted_scale (h : TimeScale σ) (nt : List F) (k : F) :
    shiftedNat (nt.map σ) (σ k) = (shiftedNat nt k).map σ ∧
      shiftedFast (nt.map σ) (σ k) = (shiftedFast nt k).map σ := by
  have e : (nt.map σ).map (fun t => Arith.add t (σ k)) = (nt.map fun t => Arith.add t k).map σ := by
    simp only [List.map_map]
    apply List.map_congr_left
    intro x _
    exact h.add x k
  constructor
  · unfold shiftedNat
    rw [e, lastD_scale h]
    exact takeWhile_map_congr _ _ _ (fun x => by simp only [h.lt]) _
  · unfold shiftedFast
    rw [e, lastD_scale h]
    exact takeWhile_map_congr _ _ _ (fun x => by simp only [h.le]) _

theorem planSel_scale (h : TimeScale σ) (sel : String) (nt : List F) (k : F) :
    planSel .fabs sel (nt.map σ) (σ k) = (planSel .fabs sel nt k).bind fun p => .ok (p.1, p.2.map σ) := by
  obtain ⟨h1, h2⟩ := shifted_scale h nt k
  unfold planSel
  split
  · have : planFast .fabs (nt.map σ) (σ k) = planFast .fabs nt k := by
      unfold planFast
      rw [h2]
      cases hs : shiftedFast nt k with
      | nil => rfl
      | cons s rest => simp only [List.map_cons, fastFirst_scale h, List.length_map]
    rw [this, h2]
    simp only [Res.bind_assoc, Res.ok_bind]
  · split
    · have : planNat .fabs (nt.map σ) (σ k) = planNat .fabs nt k := by
        unfold planNat
        rw [h1, Res.mapL_map]
        exact Res.mapL_congr fun x _ => selectNat_scale h nt x
      rw [this, h1]
      simp only [Res.bind_assoc, Res.ok_bind]
    · rfl

theorem mapL_bind_ok {α β γ : Type} (f : α → Res β) (g : β → γ) (l : List α) :
    Res.mapL (fun x => (f x).bind fun y => .ok (g y)) l = (Res.mapL f l).bind fun ys => .ok (ys.map g) := by
  induction l with
  | nil => rfl
  | cons x xs ih =>
    simp only [Res.mapL_cons, ih, Res.bind_assoc, Res.ok_bind, List.map_cons]

theorem planDelta_scale (h : TimeScale σ) (nt : List F) (s : List Nat) (sh : List F) :
    planDelta .fabs (nt.map σ) s (sh.map σ) = (planDelta .fabs nt s sh).bind fun d => .ok (d.map σ) := by
  unfold planDelta
  rw [← mapL_bind_ok, List.zip_map_right, Res.mapL_map]
  apply Res.mapL_congr
  intro p _
  simp only [Prod.map_fst, Prod.map_snd, atGet_map, Res.bind_assoc, Res.ok_bind, AbsFn.app, h.sub, h.fabs, id]

theorem lagPlan_scale (h : TimeScale σ) (sel wt : String) (nt : List F) (alpha k : F) :
    lagPlan .fabs sel wt (nt.map σ) (σ alpha) (σ k) = lagPlan .fabs sel wt nt alpha k := by
  unfold lagPlan
  rw [planSel_scale h, Res.bind_assoc]
  apply Res.bind_congr
  intro p _
  simp only [Res.ok_bind]
  rw [planDelta_scale h, Res.bind_assoc]
  apply Res.bind_congr
  intro d _
  simp only [Res.ok_bind]
  have hw : ∀ w, planWt wt = .ok w → ∀ x y, w (σ x) (σ y) = w x y := by
    intro w hw x y
    unfold planWt at hw
    split at hw
    · simp only [Res.ok.injEq] at hw; subst hw; exact h.gauss x y
    · split at hw
      · simp only [Res.ok.injEq] at hw; subst hw; simp only [Corr.fractionWeight, h.div]
      · split at hw
        · simp only [Res.ok.injEq] at hw; subst hw; simp only [Corr.fractionSquaredWeight, h.div]
        · simp at hw
  apply Res.bind_congr
  intro w hw'
  congr 2
  rw [List.map_map]
  apply List.map_congr_left
  intro x _
  exact hw w hw' alpha x

theorem lagsUpTo_scale (h : TimeScale σ) (hi res : F) (fuel : Nat) (k : F) (p : Bool) :
    lagsUpTo (σ hi) (σ res) fuel (σ k) p = (lagsUpTo hi res fuel k p).map σ := by
  induction fuel generalizing k p with
  | zero => rfl
  | succ n ih =>
    have hz1 : Arith.lt Arith.zero (σ k) = Arith.lt Arith.zero k := by
      have := h.lt Arith.zero k; rwa [h.zero] at this
    have hz2 : Arith.eq (σ k) Arith.zero = Arith.eq k Arith.zero := by
      have := h.eq k Arith.zero; rwa [h.zero] at this
    unfold lagsUpTo
    rw [h.le, hz1, hz2, h.add]
    split
    · split
      · split <;> simp only [List.map_cons, ih, h.zero]
      · split <;> simp only [List.map_cons, ih, h.zero]
    · rfl

theorem planRun_scale (h : TimeScale σ) (sel wt : String) (nt : List F) (alpha lo hi res : F) (n : Nat) :
    planRun .fabs sel wt (nt.map σ) (σ alpha) (σ lo) (σ hi) (σ res) n
      = (planRun .fabs sel wt nt alpha lo hi res n).bind fun L => .ok (L.map fun p => (σ p.1, p.2)) := by
  unfold planRun
  rw [lagsUpTo_scale h, List.length_map, ← List.map_take, Res.mapL_map]
  have e : ∀ k, lagPlan' .fabs sel wt (nt.map σ) (σ alpha) (σ k)
      = (lagPlan' .fabs sel wt nt alpha k).bind fun p => .ok (σ p.1, p.2) := by
    intro k
    unfold lagPlan'
    rw [lagPlan_scale h, Res.bind_assoc]
    simp only [Res.ok_bind]
  rw [Res.mapL_congr (fun k _ => e k), mapL_bind_ok, Res.bind_assoc, Res.bind_assoc]
  apply Res.bind_congr
  intro L _
  simp only [Res.ok_bind]
  split
  · rfl
  · rfl

theorem acPlan_scale (h : TimeScale σ) (nt : List F) (med : F) (g : LagArgs F) (sel wt : String)
    (hmin : findMinDiff (nt.map σ) = σ (findMinDiff nt)) :
    acPlan .fabs (nt.map σ) (σ med) (g.map σ) sel wt
      = (acPlan .fabs nt med g sel wt).bind fun L => .ok (L.map fun p => (σ p.1, p.2)) := by
  have hg : ∀ (o : Option F) (x : F), (o.map σ).getD (σ x) = σ (o.getD x) := by
    intro o x; cases o <;> rfl
  unfold acPlan slotsOf
  rw [hmin, lastD_scale h]
  have hs : lagSlots (σ (lastD nt)) (Arith.neg (σ (lastD nt))) (σ (findMinDiff nt))
      = lagSlots (lastD nt) (Arith.neg (lastD nt)) (findMinDiff nt) := by
    unfold lagSlots
    rw [h.neg, h.sub, h.div]
  rw [hs, Res.bind_assoc]
  apply Res.bind_congr
  intro n _
  simp only [LagArgs.map, h.neg, hg]
  rw [planRun_scale h, Res.bind_assoc, Res.bind_assoc]
  apply Res.bind_congr
  intro L _
  have : (L.map fun p => (σ p.1, p.2)).isEmpty = L.isEmpty := by cases L <;> rfl
  simp only [Res.ok_bind, this]
  split <;> rfl

theorem settMedian_scale (h : TimeScale σ) (nt : List F) :
    settMedian (nt.map σ) = (settMedian nt).bind fun m => .ok (σ m) := by
  unfold settMedian
  simp only [List.length_map]
  split
  · simp only [rawGet_map, Res.bind_assoc, Res.ok_bind, h.add, h.half]
  · rw [rawGet_map]

theorem rowCorr_scale (row : List F) (L : List (F × List (F × Nat))) (σ : F → F) :
    rowCorr row (L.map fun p => (σ p.1, p.2)) = rowCorr row L := by
  unfold rowCorr
  rw [List.map_map]; rfl

end lawfree

end Sacf
