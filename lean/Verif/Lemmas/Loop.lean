import Verif.Lemmas.Pipeline

/-! Closed form of the lag loops, valid in every arithmetic. -/

set_option linter.unusedSectionVars false
set_option linter.unusedSimpArgs false

namespace Sacf

open Arith

variable {F : Type} [Arith F]

/-- the lags produced by at most `fuel` rounds of the lag loop -/
def lagsUpTo (hi res : F) : Nat → F → Bool → List F
  | 0, _, _ => []
  | fuel + 1, k, isPos =>
    if le k hi then
      if lt zero k && !(if eq k zero then true else isPos) then
        zero :: k :: lagsUpTo hi res fuel (add k res) true
      else k :: lagsUpTo hi res fuel (add k res) (if eq k zero then true else isPos)
    else []

/-- whether the loop has ended within `fuel` rounds -/
def lagsDone (hi res : F) : Nat → F → Bool
  | 0, _ => false
  | fuel + 1, k => if le k hi then lagsDone hi res fuel (add k res) else true

theorem lagsUpTo_length_of_not_done {hi res : F} {fuel : Nat} {k : F} {p : Bool}
    (h : lagsDone hi res fuel k = false) : fuel ≤ (lagsUpTo hi res fuel k p).length := by
  induction fuel generalizing k p with
  | zero => simp
  | succ n ih =>
    unfold lagsDone at h
    unfold lagsUpTo
    cases hk : le k hi with
    | false => simp [hk] at h
    | true =>
      simp only [hk, if_true] at h
      rw [if_pos rfl]
      generalize (if eq k zero then true else p) = q
      split
      · have := ih (p := true) h; simp; omega
      · have := ih (p := q) h; simp; omega

/-- more fuel does not change a loop that has ended -/
theorem lagsUpTo_of_done {hi res : F} {fuel : Nat} {k : F} {p : Bool} (h : lagsDone hi res fuel k = true)
    {fuel' : Nat} (hf : fuel ≤ fuel') :
    lagsUpTo hi res fuel' k p = lagsUpTo hi res fuel k p ∧ lagsDone hi res fuel' k = true := by
  induction fuel generalizing k p fuel' with
  | zero => simp [lagsDone] at h
  | succ n ih =>
    obtain ⟨m, rfl⟩ : ∃ m, fuel' = m + 1 := ⟨fuel' - 1, by omega⟩
    unfold lagsDone at h
    unfold lagsUpTo lagsDone
    cases hk : le k hi with
    | false => simp
    | true =>
      simp only [hk, if_true] at h
      simp only [if_true]
      generalize (if eq k zero then true else p) = q
      have hm : n ≤ m := by omega
      split
      · rw [(ih (p := true) h hm).1]; exact ⟨rfl, (ih (p := true) h hm).2⟩
      · rw [(ih (p := q) h hm).1]
        exact ⟨rfl, (ih (p := true) h hm).2⟩

/-- a run that produced fewer lags than rounds allowed has ended -/
theorem lagsDone_of_length {hi res : F} {fuel : Nat} {k : F} {p : Bool}
    (h : (lagsUpTo hi res fuel k p).length < fuel) : lagsDone hi res fuel k = true := by
  cases hd : lagsDone hi res fuel k with
  | true => rfl
  | false => have := lagsUpTo_length_of_not_done (p := p) hd; omega

/-- processing one lag and advancing the counter -/
def stepPair (a : AbsFn) (sel wt : String) (s : Corr F × Nat) (k : F) : Res (Corr F × Nat) :=
  (pyStep a sel wt s.1 k s.2).bind fun c => .ok (c, s.2 + 1)

theorem pyLoop_eq_fold (a : AbsFn) (sel wt : String) (hi res : F) (fuel : Nat) (c : Corr F) (k : F)
    (p : Bool) (i : Nat) :
    pyLoop a sel wt hi res fuel c k p i
      = (Res.foldL (stepPair a sel wt) (c, i) (lagsUpTo hi res fuel k p)).bind fun s =>
        if lagsDone hi res fuel k then .ok s else .diverge := by
  induction fuel generalizing c k p i with
  | zero => simp [pyLoop, lagsUpTo, lagsDone]
  | succ n ih =>
    unfold pyLoop lagsUpTo lagsDone
    cases hk : le k hi with
    | false => simp
    | true =>
      simp only [if_true]
      generalize (if eq k zero then true else p) = q
      split
      · simp only [Res.foldL_cons, stepPair, Res.bind_assoc, Res.ok_bind, ih]
      · simp only [Res.foldL_cons, stepPair, Res.bind_assoc, Res.ok_bind, ih]

theorem addVals_frame {c c' : Corr F} {k : F} {v : Nat → F} {i : Nat} (h : addVals c k v i = .ok c') :
    c'.ds = c.ds ∧ c'.norm = c.norm ∧ c'.maxLag = c.maxLag ∧ c'.minLag = c.minLag ∧
    c'.lagRes = c.lagRes ∧ c'.alpha = c.alpha ∧ c'.numLagSteps = c.numLagSteps := by
  unfold addVals at h
  simp only [Res.bind_eq_ok, Res.ok.injEq] at h
  obtain ⟨_, _, _, _, rfl⟩ := h
  simp

theorem addCorrelationData_frame {c c' : Corr F} {it : CorrIt F} {i : Nat}
    (h : Corr.addCorrelationData c it i = .ok c') :
    c'.ds = c.ds ∧ c'.norm = c.norm ∧ c'.maxLag = c.maxLag ∧ c'.minLag = c.minLag ∧
    c'.lagRes = c.lagRes ∧ c'.alpha = c.alpha ∧ c'.numLagSteps = c.numLagSteps := by
  unfold Corr.addCorrelationData at h
  simp only [Res.bind_eq_ok, Res.ok.injEq] at h
  obtain ⟨_, _, _, _, rfl⟩ := h
  simp

theorem pyStep_frame {a : AbsFn} {sel wt : String} {c c' : Corr F} {k : F} {i : Nat}
    (h : pyStep a sel wt c k i = .ok c') :
    c'.ds = c.ds ∧ c'.norm = c.norm ∧ c'.maxLag = c.maxLag ∧ c'.minLag = c.minLag ∧
    c'.lagRes = c.lagRes ∧ c'.alpha = c.alpha ∧ c'.numLagSteps = c.numLagSteps := by
  unfold pyStep at h
  simp only [Res.bind_eq_ok] at h
  obtain ⟨_, _, _, _, _, _, _, _, _, _, h⟩ := h
  exact addCorrelationData_frame h

/-- both drivers run the same loop, in any arithmetic and from any state -/
theorem standardLoop_eq_pyLoop (a : AbsFn) (fuel : Nat) (c : Corr F) (k : F) (p : Bool) (i : Nat) :
    Corr.standardLoop a fuel c k p i
      = pyLoop a "natural" "fractional" c.maxLag c.lagRes fuel c k p i := by
  induction fuel generalizing c k p i with
  | zero => rfl
  | succ n ih =>
    unfold Corr.standardLoop pyLoop
    split
    · simp only
      generalize (if eq k zero then true else p) = q
      split
      · rw [standardStep_eq_pyStep]
        apply Res.bind_congr
        intro c1 h1
        rw [standardStep_eq_pyStep]
        apply Res.bind_congr
        intro c2 h2
        have f1 := pyStep_frame h1
        have f2 := pyStep_frame h2
        rw [ih, f2.2.2.1, f1.2.2.1, f2.2.2.2.2.1, f1.2.2.2.2.1]
      · rw [standardStep_eq_pyStep]
        apply Res.bind_congr
        intro c1 h1
        have f1 := pyStep_frame h1
        rw [ih, f1.2.2.1, f1.2.2.2.2.1]
    · rfl

/-! ### buffers during the loop -/

/-- the correlator after the lags `L` have been processed -/
def Corr.fill (c : Corr F) (L : List (F × List (F × Nat))) : Corr F :=
  { c with
    tsBuf := L.map Prod.fst ++ c.tsBuf.drop L.length
    corrBuf := blocks c.ds.N (fun j =>
      L.map (fun p => c.val j p.2) ++ (rowOf c.corrBuf c.numLagSteps j).drop L.length) }

theorem Corr.fill_nil {c : Corr F} (h : c.Good) : c.fill [] = c := by
  have : blocks c.ds.N (rowOf c.corrBuf c.numLagSteps) = c.corrBuf := blocks_rowOf h.corr_len
  cases c
  simp_all [Corr.fill]

theorem set_append_drop {α : Type} (xs l : List α) (x : α) (h : xs.length < l.length) :
    (xs ++ l.drop xs.length).set xs.length x = (xs ++ [x]) ++ l.drop (xs.length + 1) := by
  rw [List.set_append_right _ _ (by omega), Nat.sub_self]
  rw [List.drop_eq_getElem_cons h, List.set_cons_zero]
  simp

theorem addVals_fill {c : Corr F} (h : c.Good) (L : List (F × List (F × Nat))) (k : F)
    (ps : List (F × Nat)) (hL : L.length ≤ c.numLagSteps) :
    addVals (c.fill L) k (fun j => c.val j ps) L.length
      = if L.length < c.numLagSteps then .ok (c.fill (L ++ [(k, ps)])) else .ub := by
  have hrow : ∀ j < c.ds.N, (rowOf c.corrBuf c.numLagSteps j).length = c.numLagSteps :=
    fun j hj => rowOf_length (by rw [h.corr_len]) hj
  split
  · rename_i hlt
    unfold addVals
    rw [rawSet_of_lt (by simp [Corr.fill, h.ts_len]; omega)]
    simp only [Res.ok_bind]
    have e : (c.fill L).corrBuf = blocks c.ds.N (fun j =>
      L.map (fun p => c.val j p.2) ++ (rowOf c.corrBuf c.numLagSteps j).drop L.length) := rfl
    have e2 : (c.fill L).numLagSteps = c.numLagSteps := rfl
    have e3 : (c.fill L).ds = c.ds := rfl
    rw [e, e2, e3, foldL_rawSet_blocks (n := c.numLagSteps) _ hlt]
    · simp only [Res.ok_bind, Corr.fill]
      congr 2
      · apply blocks_congr
        intro j hj
        have := set_append_drop (L.map fun p => c.val j p.2) (rowOf c.corrBuf c.numLagSteps j)
          (c.val j ps) (by simp [hrow j hj, hlt])
        rw [List.length_map] at this
        rw [this]; simp
      · have := set_append_drop (L.map Prod.fst) c.tsBuf k (by simp [h.ts_len, hlt])
        rw [List.length_map] at this
        rw [this]; simp
    · intro j hj
      simp [hrow j hj]; omega
  · rename_i hge
    unfold addVals
    rw [rawSet_of_ge (by simp [Corr.fill, h.ts_len]; omega)]
    rfl

/-- plan of one lag, labelled by the lag -/
def lagPlan' (a : AbsFn) (sel wt : String) (nt : List F) (alpha k : F) : Res (F × List (F × Nat)) :=
  (lagPlan a sel wt nt alpha k).bind fun ps => .ok (k, ps)

theorem fold_steps (a : AbsFn) (sel wt : String) {c : Corr F} (h : c.Good)
    (ks : List F) (L : List (F × List (F × Nat))) (hL : L.length ≤ c.numLagSteps) :
    Res.foldL (stepPair a sel wt) (c.fill L, L.length) ks
      = (Res.mapL (lagPlan' a sel wt c.ds.normT c.alpha) (ks.take (c.numLagSteps + 1 - L.length))).bind
        fun L' => if L.length + ks.length ≤ c.numLagSteps
          then .ok (c.fill (L ++ L'), L.length + ks.length) else .ub := by
  induction ks generalizing L with
  | nil => simp [hL]
  | cons k ks ih =>
    obtain ⟨m, hm⟩ : ∃ m, c.numLagSteps + 1 - L.length = m + 1 := ⟨c.numLagSteps - L.length, by omega⟩
    rw [hm, List.take_succ_cons]
    simp only [Res.foldL_cons, Res.mapL_cons, stepPair, Res.bind_assoc, Res.ok_bind, lagPlan']
    rw [pyStep_eq a sel wt (c := c.fill L) h.wf h.norm_len]
    simp only [Res.bind_assoc]
    apply Res.bind_congr
    intro ps _
    have ev : (fun j => (c.fill L).val j ps) = fun j => c.val j ps := rfl
    rw [ev, addVals_fill h L k ps hL]
    split
    · rename_i hlt
      simp only [Res.ok_bind]
      have := ih (L ++ [(k, ps)]) (by simp; omega)
      simp only [List.length_append, List.length_singleton] at this
      rw [this]
      have hm' : c.numLagSteps + 1 - (L.length + 1) = m := by omega
      rw [hm']
      unfold lagPlan'
      apply Res.bind_congr
      intro L' _
      simp only [List.length_cons, List.append_assoc, List.singleton_append]
      rw [show L.length + 1 + ks.length = L.length + (ks.length + 1) by omega]
    · rename_i hge
      have : m = 0 := by omega
      subst this
      simp only [List.take_zero, Res.mapL_nil, Res.ok_bind, Res.ub_bind, List.length_cons]
      rw [if_neg (by omega)]

/-- The lags processed and the pairs for each; `n` is the number of slots of the buffers. -/
def planRun (a : AbsFn) (sel wt : String) (nt : List F) (alpha lo hi res : F) (n : Nat) :
    Res (List (F × List (F × Nat))) :=
  (Res.mapL (lagPlan' a sel wt nt alpha) ((lagsUpTo hi res (n + 1) lo false).take (n + 1))).bind fun L =>
  if (lagsUpTo hi res (n + 1) lo false).length ≤ n then .ok L else .ub

/-- the correlator holding the result for `L` -/
def Corr.store (c : Corr F) (L : List (F × List (F × Nat))) : Corr F :=
  { c with
    tsBuf := L.map Prod.fst
    corrBuf := blocks c.ds.N (fun j => L.map (fun p => c.val j p.2))
    numLagSteps := L.length }

theorem clean_fill {c : Corr F} (h : c.Good) (L : List (F × List (F × Nat)))
    (hL : L.length ≤ c.numLagSteps) :
    Corr.cleanCorrelationData (c.fill L) L.length = .ok (c.store L) := by
  have hrow : ∀ j < c.ds.N, (rowOf c.corrBuf c.numLagSteps j).length = c.numLagSteps :=
    fun j hj => rowOf_length (by rw [h.corr_len]) hj
  have hbl : ∀ j < c.ds.N, (L.map (fun p => c.val j p.2) ++
      (rowOf c.corrBuf c.numLagSteps j).drop L.length).length = c.numLagSteps := by
    intro j hj; simp [hrow j hj]; omega
  unfold Corr.cleanCorrelationData
  have e2 : (c.fill L).numLagSteps = c.numLagSteps := rfl
  have e3 : (c.fill L).ds = c.ds := rfl
  rw [e2, e3]
  have : Res.foldL
      (fun out j =>
        (slice (c.fill L).corrBuf (j * c.numLagSteps) (j * c.numLagSteps + L.length)).bind fun row =>
        writeAt out (j * L.length) row)
      (List.replicate (c.ds.N * L.length) zero) (List.range c.ds.N)
    = Res.foldL (fun out j => writeAt out (j * L.length) (L.map fun p => c.val j p.2))
      (List.replicate (c.ds.N * L.length) zero) (List.range c.ds.N) := by
    apply Res.foldL_congr
    intro s j hj
    have hj := List.mem_range.1 hj
    have hr : rowOf (c.fill L).corrBuf c.numLagSteps j = _ := rowOf_blocks hbl hj
    have hlen : (c.fill L).corrBuf.length = c.ds.N * c.numLagSteps := blocks_length hbl
    have hb : (j + 1) * c.numLagSteps ≤ c.ds.N * c.numLagSteps := Nat.mul_le_mul_right _ hj
    rw [Nat.succ_mul] at hb
    rw [slice_of_le (by rw [hlen]; omega)]
    simp only [Res.ok_bind]
    congr 1
    rw [Nat.add_sub_cancel_left]
    have h2 : ((c.fill L).corrBuf.drop (j * c.numLagSteps)).take L.length
        = (rowOf (c.fill L).corrBuf c.numLagSteps j).take L.length := by
      simp only [rowOf, List.take_take]
      congr 1; omega
    rw [h2, hr]
    rw [List.take_append_of_le_length (by simp), List.take_of_length_le (by simp)]
  rw [this, foldL_writeAt_blocks]
  · simp only [Res.ok_bind, Corr.store, Corr.fill, Corr.resizeF, blocks]
    congr 2
    · simp
    · rw [List.take_append_of_le_length (by simp), List.take_of_length_le (by simp)]
      simp [h.ts_len]
  · intro j _; simp
  · simp

/-- **Closed form of the C++ driver.** -/
theorem calculateStandard_eq (a : AbsFn) {c : Corr F} (h : c.Good) :
    Corr.calculateStandardCorrelation a c
      = (planRun a "natural" "fractional" c.ds.normT c.alpha c.minLag c.maxLag c.lagRes
          c.numLagSteps).bind fun L => .ok (c.store L) := by
  have hf := fold_steps a "natural" "fractional" h
    (lagsUpTo c.maxLag c.lagRes (c.numLagSteps + 1) c.minLag false) [] (by simp)
  rw [Corr.fill_nil h] at hf
  simp only [List.length_nil, Nat.sub_zero, Nat.zero_add, List.nil_append] at hf
  unfold Corr.calculateStandardCorrelation planRun
  rw [standardLoop_eq_pyLoop, pyLoop_eq_fold, h.ts_len, hf]
  simp only [Res.bind_assoc]
  apply Res.bind_congr
  intro L hL
  split
  · rename_i hle
    have hd := lagsDone_of_length (Nat.lt_succ_of_le hle)
    have hlen : L.length = (lagsUpTo c.maxLag c.lagRes (c.numLagSteps + 1) c.minLag false).length := by
      rw [Res.mapL_length hL, List.length_take]; omega
    simp only [Res.ok_bind]
    rw [if_pos hd]
    simp only [Res.ok_bind]
    rw [← hlen, clean_fill h L (by omega)]
  · rfl

/-- **Closed form of the Python driver.** -/
theorem pyFind_eq (a : AbsFn) {c : Corr F} (h : c.Good) (sel wt : String) :
    pyFindCorrelation a c sel wt
      = (planRun a sel wt c.ds.normT c.alpha c.minLag c.maxLag c.lagRes
          c.numLagSteps).bind fun L => if L.isEmpty then .exn .unboundLocal else .ok (c.store L) := by
  have hf := fold_steps a sel wt h
    (lagsUpTo c.maxLag c.lagRes (c.numLagSteps + 1) c.minLag false) [] (by simp)
  rw [Corr.fill_nil h] at hf
  simp only [List.length_nil, Nat.sub_zero, Nat.zero_add, List.nil_append] at hf
  unfold pyFindCorrelation planRun
  rw [pyLoop_eq_fold, h.ts_len, hf]
  simp only [Res.bind_assoc]
  apply Res.bind_congr
  intro L hL
  split
  · rename_i hle
    have hd := lagsDone_of_length (Nat.lt_succ_of_le hle)
    have hlen : L.length = (lagsUpTo c.maxLag c.lagRes (c.numLagSteps + 1) c.minLag false).length := by
      rw [Res.mapL_length hL, List.length_take]; omega
    simp only [Res.ok_bind]
    rw [if_pos hd]
    simp only [Res.ok_bind]
    rw [← hlen]
    cases L with
    | nil => simp
    | cons p L => rw [if_neg (by simp), if_neg (by simp), clean_fill h _ (by omega)]
  · rfl

theorem Corr.Good.store {c : Corr F} (h : c.Good) (L : List (F × List (F × Nat))) : (c.store L).Good where
  wf := h.wf
  norm_len := h.norm_len
  ts_len := by simp [Corr.store]
  corr_len := blocks_length (by intro j _; simp [Corr.store])

theorem correlations_store (c : Corr F) (L : List (F × List (F × Nat))) :
    (c.store L).correlations
      = .ok ((List.range c.ds.N).map fun j => L.map fun p => c.val j p.2) := by
  have hlen : (c.store L).corrBuf.length = c.ds.N * L.length := blocks_length (by intro j _; simp)
  have := unflatten_ok (v := (c.store L).corrBuf) (N := c.ds.N) (M := L.length) (by omega)
  unfold unflatten vecIdx at this
  unfold Corr.correlations
  have e2 : (c.store L).numLagSteps = L.length := rfl
  have e3 : (c.store L).ds = c.ds := rfl
  rw [e2, e3, this]
  congr 1
  apply List.map_congr_left
  intro j hj
  exact rowOf_blocks (by intro j _; simp) (List.mem_range.1 hj)

/-! ### `Correlator(ds)` -/

/-- normaliser of one row -/
def normOfRow (row : List F) (m : F) : F :=
  row.foldl (fun acc x => if isNaN (toFloat x) then acc
    else addMul acc (sub (toFloat x) m) (sub (toFloat x) m)) zero

/-- the list of normalisers -/
def DS.norms (d : DS F) : List F :=
  (List.range d.N).map fun j => normOfRow (d.drow j) (d.dataMean.getD j zero)

theorem normOf_eq {d : DS F} (h : d.WF) {j : Nat} (hj : j < d.N) :
    normOf d j = .ok (normOfRow (d.drow j) (d.dataMean.getD j zero)) := by
  unfold normOf normOfRow
  have hm : rawGet d.dataMean j = .ok (d.dataMean.getD j zero) := by
    rw [rawGet_eq_ok]; simp [List.getD, h.mean_len, hj]
  rw [Res.foldL_ok (g := fun acc i => (fun acc x => if isNaN (toFloat x) then acc
    else addMul acc (sub (toFloat x) (d.dataMean.getD j zero)) (sub (toFloat x) (d.dataMean.getD j zero)))
      acc ((d.drow j).getD i zero))]
  · congr 1
    have hl : (d.drow j).length = d.M := rowOf_length h.data_len hj
    have e : (List.range d.M).map (fun i => (d.drow j).getD i zero) = d.drow j := by
      apply List.ext_getElem
      · simp [hl]
      · intro i h1 h2; simp [List.getD, h2]
    conv_rhs => rw [← e, List.foldl_map]
  · intro s i hi
    rw [atGet_row h.data_len (List.mem_range.1 hi) hj]
    simp only [Res.ok_bind, hm]
    unfold DS.drow
    split <;> rfl

/-- the freshly created correlator with `n` lag slots -/
def Corr.fresh (d : DS F) (n : Nat) : Corr F :=
  { ds := d, corrBuf := List.replicate (d.N * n) zero, tsBuf := List.replicate n zero,
    norm := d.norms, maxLag := lastD d.normT, minLag := neg (lastD d.normT),
    lagRes := findMinDiff d.normT, alpha := d.tMedian, numLagSteps := n }

/-- number of slots allocated for the lags -/
def slotsOf (nt : List F) : Res Nat := lagSlots (lastD nt) (neg (lastD nt)) (findMinDiff nt)

theorem corrNew_eq {d : DS F} (h : d.WF) :
    Corr.new d = (slotsOf d.normT).bind fun n => .ok (Corr.fresh d n) := by
  unfold Corr.new slotsOf
  rw [Res.mapL_ok (g := fun j => normOfRow (d.drow j) (d.dataMean.getD j zero))
    (fun j hj => normOf_eq h (List.mem_range.1 hj)), rawGet_last h.ne]
  rfl

theorem Corr.Good.fresh {d : DS F} (h : d.WF) (n : Nat) : (Corr.fresh d n).Good where
  wf := h
  norm_len := by simp [Corr.fresh, DS.norms]
  ts_len := by simp [Corr.fresh]
  corr_len := by simp [Corr.fresh]

theorem setUp_fields (c : Corr F) (g : LagArgs F) :
    setUpCorrelation c g = { c with
      maxLag := g.maxLag.getD c.maxLag, minLag := g.minLag.getD c.minLag,
      lagRes := g.lagRes.getD c.lagRes, alpha := g.alpha.getD c.alpha } := by
  rcases g with ⟨_ | _, _ | _, _ | _, _ | _⟩ <;> rfl

theorem Corr.Good.setUp {c : Corr F} (h : c.Good) (g : LagArgs F) : (setUpCorrelation c g).Good := by
  rw [setUp_fields]
  exact ⟨h.wf, h.norm_len, h.ts_len, h.corr_len⟩

/-- What `autocorrelation` does with the times and parameters alone: the processed lags and the pairs
for each. -/
def acPlan (a : AbsFn) (nt : List F) (med : F) (g : LagArgs F) (sel wt : String) :
    Res (List (F × List (F × Nat))) :=
  (slotsOf nt).bind fun n =>
  (planRun a sel wt nt (g.alpha.getD med) (g.minLag.getD (neg (lastD nt))) (g.maxLag.getD (lastD nt))
    (g.lagRes.getD (findMinDiff nt)) n).bind fun L =>
  if L.isEmpty && !(sel == "natural" && wt == "fractional") then .exn .unboundLocal else .ok L

/-- correlation row `j` for the processed lags -/
def DS.acRow (d : DS F) (L : List (F × List (F × Nat))) (j : Nat) : List F :=
  L.map fun p => corrValue (d.nrow j) (normOfRow (d.drow j) (d.dataMean.getD j zero)) p.2

/-- **Closed form of `autocorrelation`**, in any arithmetic. -/
theorem autocorrelation_eq (a : AbsFn) {d : DS F} (h : d.WF) (g : LagArgs F) (sel wt : String) :
    ∃ c' : List (F × List (F × Nat)) → Corr F, (∀ L, (c' L).ds = d ∧ (c' L).Good ∧ (c' L).numLagSteps = L.length ∧
      ∃ n, c' L = (setUpCorrelation (Corr.fresh d n) g).store L) ∧
    autocorrelation a d g sel wt
      = (acPlan a d.normT d.tMedian g sel wt).bind fun L =>
        (corrOut ((List.range d.N).map (d.acRow L))).bind fun out =>
        .ok { lags := L.map Prod.fst, corrs := out, corr := c' L } := by
  cases hs : slotsOf d.normT with
  | ok n =>
    have hg := (Corr.Good.fresh h n).setUp g
    have hval : ∀ j < d.N, (setUpCorrelation (Corr.fresh d n) g).val j
        = corrValue (d.nrow j) (normOfRow (d.drow j) (d.dataMean.getD j zero)) := by
      intro j hj
      funext ps
      rw [setUp_fields]
      simp [Corr.val, Corr.fresh, DS.norms, hj]
    refine ⟨fun L => (setUpCorrelation (Corr.fresh d n) g).store L, ?_, ?_⟩
    · intro L
      refine ⟨?_, hg.store L, rfl, n, rfl⟩
      rw [setUp_fields]; rfl
    · unfold autocorrelation acPlan
      rw [corrNew_eq h, hs]
      simp only [Res.ok_bind]
      have hds : (setUpCorrelation (Corr.fresh d n) g).ds = d := by rw [setUp_fields]; rfl
      have hfin : ∀ L, ((setUpCorrelation (Corr.fresh d n) g).store L).correlations
          = .ok ((List.range d.N).map (d.acRow L)) := by
        intro L
        rw [correlations_store, hds]
        congr 1
        apply List.map_congr_left
        intro j hj
        simp only [DS.acRow]
        rw [hval j (List.mem_range.1 hj)]
      by_cases hc : sel = "natural" ∧ wt = "fractional"
      · obtain ⟨rfl, rfl⟩ := hc
        rw [if_pos ⟨rfl, rfl⟩, calculateStandard_eq a hg, setUp_fields]
        simp only [Corr.fresh, Res.bind_assoc, Res.ok_bind]
        apply Res.bind_congr
        intro L _
        have := hfin L
        rw [setUp_fields] at this
        simp only [Corr.fresh] at this
        rw [this]
        simp only [beq_self_eq_true, Bool.and_self, Bool.not_true, Bool.and_false, Bool.false_eq_true,
          if_false, Res.ok_bind]
        rfl
      · rw [if_neg hc, pyFind_eq a hg, setUp_fields]
        simp only [Corr.fresh, Res.bind_assoc, Res.ok_bind]
        apply Res.bind_congr
        intro L _
        have := hfin L
        rw [setUp_fields] at this
        simp only [Corr.fresh] at this
        have hb : (!(sel == "natural" && wt == "fractional")) = true := by
          simpa [imp_iff_not_or] using hc
        rw [hb, Bool.and_true]
        split
        · rfl
        · simp only [Res.ok_bind]
          rw [this]
          rfl
  | exn e =>
    refine ⟨fun L => (setUpCorrelation (Corr.fresh d 0) g).store L,
      fun L => ⟨by rw [setUp_fields]; rfl, ((Corr.Good.fresh h 0).setUp g).store L, rfl, 0, rfl⟩, ?_⟩
    unfold autocorrelation acPlan; rw [corrNew_eq h, hs]; rfl
  | ub =>
    refine ⟨fun L => (setUpCorrelation (Corr.fresh d 0) g).store L,
      fun L => ⟨by rw [setUp_fields]; rfl, ((Corr.Good.fresh h 0).setUp g).store L, rfl, 0, rfl⟩, ?_⟩
    unfold autocorrelation acPlan; rw [corrNew_eq h, hs]; rfl
  | diverge =>
    refine ⟨fun L => (setUpCorrelation (Corr.fresh d 0) g).store L,
      fun L => ⟨by rw [setUp_fields]; rfl, ((Corr.Good.fresh h 0).setUp g).store L, rfl, 0, rfl⟩, ?_⟩
    unfold autocorrelation acPlan; rw [corrNew_eq h, hs]; rfl

theorem store_fresh (d : DS F) (g : LagArgs F) (L : List (F × List (F × Nat))) (n : Nat) :
    (setUpCorrelation (Corr.fresh d n) g).store L = (setUpCorrelation (Corr.fresh d 0) g).store L := by
  rw [setUp_fields, setUp_fields]; rfl

/-- the closed form with the returned correlator spelt out -/
theorem autocorrelation_plan (a : AbsFn) {d : DS F} (h : d.WF) (g : LagArgs F) (sel wt : String) :
    autocorrelation a d g sel wt
      = (acPlan a d.normT d.tMedian g sel wt).bind fun L =>
        (corrOut ((List.range d.N).map (d.acRow L))).bind fun out =>
        .ok { lags := L.map Prod.fst, corrs := out,
              corr := (setUpCorrelation (Corr.fresh d 0) g).store L } := by
  obtain ⟨c', hc', he⟩ := autocorrelation_eq a h g sel wt
  rw [he]
  apply Res.bind_congr
  intro L _
  obtain ⟨n, hn⟩ := (hc' L).2.2.2
  rw [hn, store_fresh]

/-- what a returned result consists of -/
theorem autocorrelation_ok {a : AbsFn} {d : DS F} (h : d.WF) {g : LagArgs F} {sel wt : String}
    {r : AcResult F} (hr : autocorrelation a d g sel wt = .ok r) :
    ∃ n L, acPlan a d.normT d.tMedian g sel wt = .ok L ∧ r.lags = L.map Prod.fst ∧
      corrOut ((List.range d.N).map (d.acRow L)) = .ok r.corrs ∧
      r.corr = (setUpCorrelation (Corr.fresh d n) g).store L := by
  obtain ⟨c', hc', he⟩ := autocorrelation_eq a h g sel wt
  rw [he, Res.bind_eq_ok] at hr
  obtain ⟨L, hL, hr⟩ := hr
  rw [Res.bind_eq_ok] at hr
  obtain ⟨out, ho, hr⟩ := hr
  simp only [Res.ok.injEq] at hr
  subst hr
  obtain ⟨n, hn⟩ := (hc' L).2.2.2
  exact ⟨n, L, hL, rfl, ho, hn⟩

end Sacf
