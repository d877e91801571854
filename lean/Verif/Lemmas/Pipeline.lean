import Verif.Model.Python
import Verif.Lemmas.Blocks

/-!
Closed form of the correlation pipeline, valid in every arithmetic.

`planRun` computes, from the times and the parameters alone, the list of processed lags together with the
(weight, selected index) pairs of each lag.  `Corr.store` says what the buffers contain afterwards.
-/

set_option linter.unusedSectionVars false

namespace Sacf

open Arith

variable {F : Type} [Arith F]

/-- What every constructed `DataStructure` satisfies. -/
structure DS.WF (d : DS F) : Prop where
  M_eq : d.M = d.normT.length
  ne : d.normT ≠ []
  npos : 0 < d.N
  mean_len : d.dataMean.length = d.N
  data_len : d.N * d.M ≤ d.data.length
  norm_len : d.N * d.M ≤ d.normData.length

theorem DS.Built.wf {d : DS F} {t data err : List F} {N : Nat} (h : d.Built t data err N) (hN : 0 < N) :
    d.WF where
  M_eq := by rw [h.hM, h.normT]; simp
  ne := by rw [h.normT]; simpa using h.tne
  npos := by rw [h.hN]; exact hN
  mean_len := by rw [h.mean, h.hN]; simp
  data_len := by rw [h.hN, h.hM, h.hdata]; exact h.hsize
  norm_len := by
    have hs := h.hsize
    have : (blocks N fun j => (rowOf data t.length j).map fun x => sub x (meanOf (rowOf data t.length j))).length
        = N * t.length := blocks_length (by intro j hj; simp [rowOf_length hs hj])
    rw [h.hN, h.hM, h.normData]
    unfold blocks at this
    rw [List.length_append, this]; omega

/-- last element of a non-empty list, `zero` otherwise -/
def lastD (l : List F) : F := l.getLastD zero

theorem rawGet_last {l : List F} (h : l ≠ []) : rawGet l (l.length - 1) = .ok (lastD l) := by
  rw [rawGet_eq_ok, ← List.getLast?_eq_getElem?]
  simp [lastD, List.getLast?_eq_getLast_of_ne_nil h, List.getLastD_eq_getLast?]

/-! ### selection -/

/-- the shifted times considered by natural selection -/
def shiftedNat (nt : List F) (k : F) : List F :=
  (nt.map fun t => add t k).takeWhile fun s => !lt (lastD nt) s

/-- the shifted times considered by fast selection -/
def shiftedFast (nt : List F) (k : F) : List F :=
  (nt.map fun t => add t k).takeWhile fun s => !le (lastD nt) s

theorem shiftNat_eq (k last : F) (l : List F) (v : Vec F) (hv : v.stale = []) :
    Corr.shiftNat k last l v
      = ⟨v.elems ++ (l.map fun t => add t k).takeWhile (fun s => !lt last s), []⟩ := by
  induction l generalizing v with
  | nil => cases v; simp_all [Corr.shiftNat]
  | cons t ts ih =>
    unfold Corr.shiftNat
    cases h : lt last (add t k) with
    | true => cases v; simp_all
    | false =>
      rw [if_neg (by simp), ih _ (by simp [Vec.push, hv])]
      simp [Vec.push, h]

theorem shiftFast_eq (k last : F) (l : List F) (v : Vec F) (hv : v.stale = []) :
    Corr.shiftFast k last l v
      = ⟨v.elems ++ (l.map fun t => add t k).takeWhile (fun s => !le last s), []⟩ := by
  induction l generalizing v with
  | nil => cases v; simp_all [Corr.shiftFast]
  | cons t ts ih =>
    unfold Corr.shiftFast
    cases h : le last (add t k) with
    | true => cases v; simp_all
    | false =>
      rw [if_neg (by simp), ih _ (by simp [Vec.push, hv])]
      simp [Vec.push, h]

theorem shiftedNat_length_le (nt : List F) (k : F) : (shiftedNat nt k).length ≤ nt.length := by
  have := (List.takeWhile_sublist (l := nt.map fun t => add t k) fun s => !lt (lastD nt) s).length_le
  simpa [shiftedNat] using this

theorem shiftedFast_length_le (nt : List F) (k : F) : (shiftedFast nt k).length ≤ nt.length := by
  have := (List.takeWhile_sublist (l := nt.map fun t => add t k) fun s => !le (lastD nt) s).length_le
  simpa [shiftedFast] using this

theorem mapL_range_get {β : Type} (l : List F) (f : F → Res β) :
    Res.mapL (fun i => (rawGet l i).bind f) (List.range l.length) = Res.mapL f l := by
  have h : ∀ l' : List F, Res.mapL (fun i => (rawGet (l' ++ l) i).bind f)
      (List.range' l'.length l.length) = Res.mapL f l := by
    induction l with
    | nil => simp
    | cons x xs ih =>
      intro l'
      rw [List.length_cons, List.range'_succ, Res.mapL_cons, Res.mapL_cons]
      have h0 : rawGet (l' ++ x :: xs) l'.length = .ok x := by rw [rawGet_eq_ok]; simp
      have h1 := ih (l' ++ [x])
      simp only [List.append_assoc, List.singleton_append, List.length_append, List.length_singleton] at h1
      rw [h0, h1]; rfl
  have := h []
  simpa [List.range_eq_range'] using this

/-- indices chosen by natural selection -/
def planNat (a : AbsFn) (nt : List F) (k : F) : Res (List Nat) :=
  Res.mapL (Corr.selectNat a nt) (shiftedNat nt k)

/-- Indices chosen by fast selection for `n` shifted times whose first is matched with `idx`. -/
def fastFill (n idx : Nat) : List Nat :=
  (List.range n).map fun i => if i + idx < n then idx + i else 0

/-- index matched by fast selection to the first shifted time -/
def fastFirst (a : AbsFn) (nt : List F) (s : F) : Res Nat :=
  (lowerBound nt s).bind fun idx0 =>
  (atGet nt (idx0 + 1)).bind fun hi =>
  (a.app (sub s hi)).bind fun dhi =>
  (atGet nt idx0).bind fun lo =>
  (a.app (sub s lo)).bind fun dlo =>
  .ok (if lt dhi dlo then idx0 + 1 else idx0)

/-- indices chosen by fast selection -/
def planFast (a : AbsFn) (nt : List F) (k : F) : Res (List Nat) :=
  match shiftedFast nt k with
  | [] => .ok []
  | s :: rest => (fastFirst a nt s).bind fun idx => .ok (fastFill (rest.length + 1) idx)

theorem naturalSelection_eq (a : AbsFn) (c : Corr F) (h : c.ds.normT ≠ []) (k : F) (N : Nat) :
    Corr.naturalSelection a c (CorrIt.new k N)
      = (planNat a c.ds.normT k).bind fun sel =>
        .ok { CorrIt.new k N with shifted := ⟨[], shiftedNat c.ds.normT k⟩, selection := sel } := by
  unfold Corr.naturalSelection
  rw [rawGet_last h]
  simp only [Res.ok_bind, CorrIt.new]
  rw [shiftNat_eq _ _ _ _ rfl]
  have := mapL_range_get (shiftedNat c.ds.normT k) (Corr.selectNat a c.ds.normT)
  simp only [Vec.empty, List.nil_append, Vec.raw, List.append_nil, Vec.clear, planNat, shiftedNat] at *
  rw [this]

theorem fastFill_loop (n idx : Nat) :
    Res.foldL (fun sel i => rawSet sel i (idx + i)) (List.replicate n 0) (List.range (n - idx))
      = .ok (fastFill n idx) := by
  have key : ∀ J ≤ n - idx, Res.foldL (fun sel i => rawSet sel i (idx + i)) (List.replicate n 0) (List.range J)
      = .ok ((List.range n).map fun i => if i < J then idx + i else 0) := by
    intro J
    induction J with
    | zero =>
      intro _
      simp
    | succ J ih =>
      intro hJ
      rw [List.range_succ, Res.foldL_append, ih (by omega)]
      simp only [Res.ok_bind, Res.foldL_cons, Res.foldL_nil]
      rw [rawSet_of_lt (by simp; omega)]
      simp only [Res.ok_bind]
      congr 1
      apply List.ext_getElem
      · simp
      · intro i h1 h2
        simp at h1
        rw [List.getElem_set]
        by_cases h3 : J = i
        · subst h3; simp
        · rw [if_neg h3]
          simp only [List.getElem_map, List.getElem_range]
          by_cases h4 : i < J
          · rw [if_pos h4, if_pos (by omega)]
          · rw [if_neg h4, if_neg (by omega)]
  rw [key _ le_rfl]
  unfold fastFill
  congr 1
  apply List.map_congr_left
  intro i hi
  have := List.mem_range.1 hi
  by_cases h : i < n - idx
  · rw [if_pos h, if_pos (by omega)]
  · rw [if_neg h, if_neg (by omega)]

theorem fastSelection_eq (a : AbsFn) (c : Corr F) (h : c.ds.normT ≠ []) (k : F) (N : Nat) :
    Corr.fastSelection a c (CorrIt.new k N)
      = (planFast a c.ds.normT k).bind fun sel =>
        .ok { CorrIt.new k N with shifted := ⟨[], shiftedFast c.ds.normT k⟩, selection := sel } := by
  unfold Corr.fastSelection
  simp only
  rw [rawGet_last h]
  have e : Corr.shiftFast k (lastD c.ds.normT) c.ds.normT Vec.empty
      = ⟨shiftedFast c.ds.normT k, []⟩ := by rw [shiftFast_eq _ _ _ _ rfl]; rfl
  simp only [Res.ok_bind, CorrIt.new, e]
  simp only [Vec.raw, List.append_nil, Vec.clear, planFast]
  cases hs : shiftedFast c.ds.normT k with
  | nil => simp
  | cons s rest =>
    have h0 : rawGet (s :: rest) 0 = .ok s := rfl
    rw [h0]
    simp only [List.isEmpty_cons, Bool.false_eq_true, if_false, Res.ok_bind, fastFirst, Res.bind_assoc,
      List.length_cons, Nat.add_sub_cancel]
    have hrz : Corr.resizeZero [] (rest.length + 1) = List.replicate (rest.length + 1) 0 := by
      simp [Corr.resizeZero]
    simp only [hrz, fastFill_loop, Res.ok_bind]

/-- distances of the selected samples from the shifted times -/
def planDelta (a : AbsFn) (nt : List F) (sel : List Nat) (sh : List F) : Res (List F) :=
  Res.mapL (fun (p : Nat × F) => (atGet nt p.1).bind fun t => a.app (sub t p.2)) (sel.zip sh)

theorem mapL_zipIdx {β : Type} (nt : List F) (g : F → F → Res β) (sel : List Nat) (sh : List F)
    (h : sel.length = sh.length) :
    Res.mapL (fun (p : Nat × Nat) => (atGet nt p.1).bind fun t => (rawGet sh p.2).bind fun s => g t s)
        sel.zipIdx
      = Res.mapL (fun (p : Nat × F) => (atGet nt p.1).bind fun t => g t p.2) (sel.zip sh) := by
  have key : ∀ pre : List F, Res.mapL
        (fun (p : Nat × Nat) => (atGet nt p.1).bind fun t => (rawGet (pre ++ sh) p.2).bind fun s => g t s)
        (sel.zipIdx pre.length)
      = Res.mapL (fun (p : Nat × F) => (atGet nt p.1).bind fun t => g t p.2) (sel.zip sh) := by
    induction sel generalizing sh with
    | nil => simp
    | cons x xs ih =>
      cases sh with
      | nil => simp at h
      | cons s sh =>
        intro pre
        have h1 := ih sh (by simpa using h) (pre ++ [s])
        simp only [List.append_assoc, List.singleton_append, List.length_append, List.length_singleton] at h1
        have h0 : rawGet (pre ++ s :: sh) pre.length = .ok s := by rw [rawGet_eq_ok]; simp
        rw [List.zipIdx_cons, List.zip_cons_cons, Res.mapL_cons, Res.mapL_cons, h1]
        simp only [h0, Res.ok_bind]
  simpa using key []

/-- One lag: the weights and selected indices.  `selection` then `deltaT` then the weight function. -/
def planSel (a : AbsFn) (sel : String) (nt : List F) (k : F) : Res (List Nat × List F) :=
  if sel = "fast" then (planFast a nt k).bind fun s => .ok (s, shiftedFast nt k)
  else if sel = "natural" then (planNat a nt k).bind fun s => .ok (s, shiftedNat nt k)
  else .exn (.keyError sel)

/-- weight function by name -/
def planWt (wt : String) : Res (F → F → F) :=
  if wt = "gaussian" then .ok Corr.gaussianWeight
  else if wt = "fractional" then .ok Corr.fractionWeight
  else if wt = "fractional_squared" then .ok Corr.fractionSquaredWeight
  else .exn (.keyError wt)

/-- the (weight, selected index) pairs for lag `k` -/
def lagPlan (a : AbsFn) (sel wt : String) (nt : List F) (alpha k : F) : Res (List (F × Nat)) :=
  (planSel a sel nt k).bind fun p =>
  (planDelta a nt p.1 p.2).bind fun d =>
  (planWt wt).bind fun w => .ok ((d.map (w alpha)).zip p.1)

theorem planSel_length {a : AbsFn} {sel : String} {nt : List F} {k : F} {p : List Nat × List F}
    (h : planSel a sel nt k = .ok p) : p.1.length = p.2.length ∧ p.2.length ≤ nt.length := by
  unfold planSel at h
  split at h
  · rw [Res.bind_eq_ok] at h
    obtain ⟨s, h1, h2⟩ := h
    simp only [Res.ok.injEq] at h2
    subst h2
    refine ⟨?_, shiftedFast_length_le _ _⟩
    unfold planFast at h1
    split at h1
    · rename_i h3; simp at h1; simp [← h1, h3]
    · rename_i h3
      rw [Res.bind_eq_ok] at h1
      obtain ⟨idx, _, h4⟩ := h1
      simp only [Res.ok.injEq] at h4
      simp [← h4, h3, fastFill]
  · split at h
    · rw [Res.bind_eq_ok] at h
      obtain ⟨s, h1, h2⟩ := h
      simp only [Res.ok.injEq] at h2
      subst h2
      exact ⟨Res.mapL_length h1, shiftedNat_length_le _ _⟩
    · simp at h

theorem lagPlan_bounds {a : AbsFn} {sel wt : String} {nt : List F} {alpha k : F} {ps : List (F × Nat)}
    (h : lagPlan a sel wt nt alpha k = .ok ps) :
    ps.length ≤ nt.length ∧ ∀ p ∈ ps, p.2 < nt.length := by
  unfold lagPlan at h
  simp only [Res.bind_eq_ok, Res.ok.injEq] at h
  obtain ⟨p, h1, d, h2, w, h3, rfl⟩ := h
  obtain ⟨hl1, hl2⟩ := planSel_length h1
  have hd := Res.mapL_length h2
  constructor
  · simp; omega
  · intro q hq
    obtain ⟨i, hi⟩ := List.mem_iff_getElem?.1 hq
    rw [List.getElem?_zip_eq_some] at hi
    have hsel := hi.2
    have hlt : i < p.1.length := by rw [List.getElem?_eq_some_iff] at hsel; exact hsel.1
    have hz : (p.1.zip p.2)[i]? = some (q.2, p.2[i]'(by omega)) := by
      rw [List.getElem?_zip_eq_some]; exact ⟨hsel, by simp [hl1 ▸ hlt]⟩
    obtain ⟨y, _, hy⟩ := Res.mapL_eq_ok_getElem h2 i _ hz
    rw [Res.bind_eq_ok] at hy
    obtain ⟨t, ht, _⟩ := hy
    rw [atGet_eq_ok, List.getElem?_eq_some_iff] at ht
    exact ht.1

/-! ### the correlation value -/

/-- `sum_i w_i x_i x_sel(i)` accumulated from the left, times `1/N` -/
def corrValue (x : List F) (norm : F) (ps : List (F × Nat)) : F :=
  mul (ps.zipIdx.foldl (fun acc p => addMul acc (mul p.1.1 (x.getD p.2 zero)) (x.getD p.1.2 zero)) zero)
    (div one norm)

/-- normalised row `j` -/
def DS.nrow (d : DS F) (j : Nat) : List F := rowOf d.normData d.M j
/-- data row `j` -/
def DS.drow (d : DS F) (j : Nat) : List F := rowOf d.data d.M j

theorem atGet_row {v : List F} {N M i j : Nat} (h : N * M ≤ v.length) (hi : i < M) (hj : j < N) :
    atGet v (vecIdx M i j) = .ok ((rowOf v M j).getD i zero) := by
  rw [atGet_eq_ok, ← rowOf_getElem? v M j i hi]
  simp [List.getD, rowOf_length h hj, hi]

theorem sumCorrelation_eq {c : Corr F} (h : c.ds.WF) (it : CorrIt F) {j : Nat} (hj : j < c.ds.N)
    (acc : F) (hlen : it.weights.length = it.selection.length)
    (hle : it.selection.length ≤ c.ds.M) (hb : ∀ s ∈ it.selection, s < c.ds.M) :
    Corr.sumCorrelation c it j acc
      = .ok ((it.weights.zip it.selection).zipIdx.foldl
          (fun acc p => addMul acc (mul p.1.1 ((c.ds.nrow j).getD p.2 zero))
            ((c.ds.nrow j).getD p.1.2 zero)) acc) := by
  unfold Corr.sumCorrelation
  have key : ∀ (ws : List F) (ss pre : List Nat) (acc : F), it.selection = pre ++ ss →
      ws.length = ss.length →
      Res.foldL
        (fun acc (p : F × Nat) =>
          (atGet c.ds.normData (vecIdx c.ds.M p.2 j)).bind fun x =>
          (rawGet it.selection p.2).bind fun s =>
          (atGet c.ds.normData (vecIdx c.ds.M s j)).bind fun y =>
          .ok (addMul acc (mul p.1 x) y)) acc (ws.zipIdx pre.length)
      = .ok (((ws.zip ss).zipIdx pre.length).foldl
          (fun acc p => addMul acc (mul p.1.1 ((c.ds.nrow j).getD p.2 zero))
            ((c.ds.nrow j).getD p.1.2 zero)) acc) := by
    intro ws
    induction ws with
    | nil => intro ss pre acc _ _; simp
    | cons w ws ih =>
      intro ss pre acc hpre hl
      cases ss with
      | nil => simp at hl
      | cons s ss =>
        have h1 := ih ss (pre ++ [s])
        simp only [List.length_append, List.length_singleton] at h1
        have hi : pre.length < c.ds.M := by
          have := congrArg List.length hpre
          simp at this; omega
        have hs : s < c.ds.M := hb s (by simp [hpre])
        have hsel : rawGet it.selection pre.length = .ok s := by rw [rawGet_eq_ok, hpre]; simp
        simp only [List.zipIdx_cons, List.zip_cons_cons, Res.foldL_cons, List.foldl_cons]
        rw [atGet_row h.norm_len hi hj, hsel]
        simp only [Res.ok_bind]
        rw [atGet_row h.norm_len hs hj]
        simp only [Res.ok_bind]
        rw [h1 _ (by simp [hpre]) (by simpa using hl)]
        rfl
  simpa using key it.weights it.selection [] acc (by simp) hlen

/-- The buffers and parameters of a correlator fit together. -/
structure Corr.Good (c : Corr F) : Prop where
  wf : c.ds.WF
  norm_len : c.norm.length = c.ds.N
  ts_len : c.tsBuf.length = c.numLagSteps
  corr_len : c.corrBuf.length = c.ds.N * c.numLagSteps

/-- correlation of dataset `j` for given pairs -/
def Corr.val (c : Corr F) (j : Nat) (ps : List (F × Nat)) : F :=
  corrValue (c.ds.nrow j) (c.norm.getD j zero) ps

theorem findCorrelation_eq {c : Corr F} (h : c.ds.WF) (hn : c.norm.length = c.ds.N) (it : CorrIt F)
    (hc : it.correlation = List.replicate c.ds.N zero)
    (hlen : it.weights.length = it.selection.length)
    (hle : it.selection.length ≤ c.ds.M) (hb : ∀ s ∈ it.selection, s < c.ds.M) :
    Corr.findCorrelation c it
      = .ok { it with
          correlation := (List.range c.ds.N).map (fun j => c.val j (it.weights.zip it.selection)) } := by
  unfold Corr.findCorrelation
  have key : ∀ J ≤ c.ds.N, Res.foldL
      (fun out j =>
        (rawGet out j).bind fun acc0 =>
        (Corr.sumCorrelation c it j acc0).bind fun acc =>
        (rawGet c.norm j).bind fun n =>
        rawSet out j (mul acc (div one n))) it.correlation (List.range J)
      = .ok ((List.range c.ds.N).map fun j =>
          if j < J then c.val j (it.weights.zip it.selection) else zero) := by
    intro J
    induction J with
    | zero =>
      intro _; rw [hc]; simp
    | succ J ih =>
      intro hJ
      rw [List.range_succ, Res.foldL_append, ih (by omega)]
      simp only [Res.ok_bind, Res.foldL_cons, Res.foldL_nil]
      have h0 : rawGet ((List.range c.ds.N).map fun j =>
          if j < J then c.val j (it.weights.zip it.selection) else zero) J = .ok zero := by
        rw [rawGet_eq_ok]; simp [show J < c.ds.N by omega]
      have h2 : rawGet c.norm J = .ok (c.norm.getD J zero) := by
        rw [rawGet_eq_ok]; simp [List.getD, show J < c.norm.length by omega]
      rw [h0]
      simp only [Res.ok_bind]
      rw [sumCorrelation_eq h it (by omega) zero hlen hle hb]
      simp only [Res.ok_bind]
      rw [h2]
      simp only [Res.ok_bind]
      rw [rawSet_of_lt (by simp; omega)]
      simp only [Res.ok_bind]
      congr 1
      apply List.ext_getElem
      · simp
      · intro i h1 h3
        simp at h1
        rw [List.getElem_set]
        by_cases h4 : J = i
        · subst h4; simp [Corr.val, corrValue]
        · rw [if_neg h4]
          simp only [List.getElem_map, List.getElem_range]
          by_cases h5 : i < J
          · rw [if_pos h5, if_pos (by omega)]
          · rw [if_neg h5, if_neg (by omega)]
  rw [key _ le_rfl]
  simp only [Res.ok_bind]
  congr 2
  apply List.map_congr_left
  intro j hj
  rw [if_pos (List.mem_range.1 hj)]

/-- `addCorrelationData` for values given by a function -/
def addVals (c : Corr F) (k : F) (v : Nat → F) (i : Nat) : Res (Corr F) :=
  (rawSet c.tsBuf i k).bind fun ts =>
  (Res.foldL (fun buf j => rawSet buf (i + c.numLagSteps * j) (v j)) c.corrBuf
    (List.range c.ds.N)).bind fun buf =>
  .ok { c with tsBuf := ts, corrBuf := buf }

theorem addCorrelationData_eq (c : Corr F) (it : CorrIt F) (v : Nat → F) (i : Nat)
    (h : it.correlation = (List.range c.ds.N).map v) :
    Corr.addCorrelationData c it i = addVals c it.k v i := by
  unfold Corr.addCorrelationData addVals
  congr 1; funext ts
  congr 1
  apply Res.foldL_congr
  intro s j hj
  have : rawGet it.correlation j = .ok (v j) := by
    rw [rawGet_eq_ok, h]; simp [List.mem_range.1 hj]
  rw [this]; rfl

/-- one lag of the Python driver -/
theorem pyStep_eq (a : AbsFn) (sel wt : String) {c : Corr F} (h : c.ds.WF)
    (hn : c.norm.length = c.ds.N) (k : F) (i : Nat) :
    pyStep a sel wt c k i
      = (lagPlan a sel wt c.ds.normT c.alpha k).bind fun ps => addVals c k (fun j => c.val j ps) i := by
  have main : ∀ (s : List Nat) (sh : List F) (r : Res (CorrIt F)), s.length = sh.length →
      sh.length ≤ c.ds.normT.length →
      r = .ok { CorrIt.new k c.ds.N with shifted := ⟨[], sh⟩, selection := s } →
      (r.bind fun it =>
        (Corr.deltaT a c it).bind fun it =>
        (weightFunction wt).bind fun w =>
        (Corr.findCorrelation c (w c it)).bind fun it =>
        Corr.addCorrelationData c it i)
      = (planDelta a c.ds.normT s sh).bind fun d =>
        (planWt wt).bind fun w =>
        addVals c k (fun j => c.val j ((d.map (w c.alpha)).zip s)) i := by
    intro s sh r hl hle hr
    subst hr
    simp only [Res.ok_bind]
    have hdelta : Corr.deltaT a c { CorrIt.new k c.ds.N with shifted := ⟨[], sh⟩, selection := s }
        = (planDelta a c.ds.normT s sh).bind fun d =>
          .ok { CorrIt.new k c.ds.N with shifted := ⟨[], sh⟩, selection := s, deltaT := d } := by
      unfold Corr.deltaT
      simp only [Vec.raw, List.nil_append]
      have := mapL_zipIdx c.ds.normT (fun t x => a.app (sub t x)) s sh hl
      rw [this]
      unfold planDelta
      simp [CorrIt.new, Vec.clear]
    rw [hdelta, Res.bind_assoc]
    apply Res.bind_congr
    intro d hd
    have hdl : d.length = s.length := by
      have := Res.mapL_length hd; simp at this; omega
    have hb : ∀ x ∈ s, x < c.ds.M := by
      intro x hx
      obtain ⟨i, hi⟩ := List.mem_iff_getElem?.1 hx
      have hlt : i < s.length := by rw [List.getElem?_eq_some_iff] at hi; exact hi.1
      have hz : (s.zip sh)[i]? = some (x, sh[i]'(by omega)) := by
        rw [List.getElem?_zip_eq_some]; exact ⟨hi, by simp [hl ▸ hlt]⟩
      obtain ⟨y, _, hy⟩ := Res.mapL_eq_ok_getElem hd i _ hz
      rw [Res.bind_eq_ok] at hy
      obtain ⟨t, ht, _⟩ := hy
      rw [atGet_eq_ok, List.getElem?_eq_some_iff] at ht
      rw [h.M_eq]; exact ht.1
    have hfin : ∀ w : F → F → F,
        ((Corr.findCorrelation c (Corr.applyWeights w c
          { CorrIt.new k c.ds.N with shifted := ⟨[], sh⟩, selection := s, deltaT := d })).bind fun it =>
          Corr.addCorrelationData c it i)
        = addVals c k (fun j => c.val j ((d.map (w c.alpha)).zip s)) i := by
      intro w
      rw [findCorrelation_eq h hn]
      · simp only [Res.ok_bind]
        rw [addCorrelationData_eq c _ (fun j => c.val j ((d.map (w c.alpha)).zip s))]
        · rfl
        · simp [Corr.applyWeights, CorrIt.new]
      · rfl
      · simp [Corr.applyWeights, CorrIt.new, hdl]
      · simp only [Corr.applyWeights, h.M_eq]; omega
      · simpa [Corr.applyWeights] using hb
    unfold weightFunction planWt
    split
    · exact hfin _
    · split
      · exact hfin _
      · split
        · exact hfin _
        · rfl
  unfold pyStep lagPlan planSel selectionFunction
  split
  · simp only [Res.ok_bind]
    rw [fastSelection_eq a c h.ne, Res.bind_assoc, Res.bind_assoc, Res.bind_assoc]
    apply Res.bind_congr
    intro s hs
    have hp : planSel a "fast" c.ds.normT k = .ok (s, shiftedFast c.ds.normT k) := by
      simp [planSel, hs]
    obtain ⟨h1, h2⟩ := planSel_length hp
    rw [main s _ _ h1 h2 rfl]
    simp only [Res.ok_bind, Res.bind_assoc]
  · split
    · simp only [Res.ok_bind]
      rw [naturalSelection_eq a c h.ne, Res.bind_assoc, Res.bind_assoc, Res.bind_assoc]
      apply Res.bind_congr
      intro s hs
      have hp : planSel a "natural" c.ds.normT k = .ok (s, shiftedNat c.ds.normT k) := by
        simp [planSel, hs]
      obtain ⟨h1, h2⟩ := planSel_length hp
      rw [main s _ _ h1 h2 rfl]
      simp only [Res.ok_bind, Res.bind_assoc]
    · rfl

/-- the two drivers execute the same step -/
theorem standardStep_eq_pyStep (a : AbsFn) (c : Corr F) (k : F) (i : Nat) :
    Corr.standardStep a c k i = pyStep a "natural" "fractional" c k i := by
  unfold Corr.standardStep pyStep selectionFunction weightFunction
  simp

end Sacf
