import Verif.Spec.Reach
import Verif.Lemmas.Select

/-! Invariants of constructed objects and of correlators under call histories; the length of the lag list. -/

set_option linter.unusedSectionVars false
set_option linter.unusedSimpArgs false

namespace Sacf

open Arith

variable {F : Type} [Arith F]

theorem Constructed.built {d : DS F} (h : Constructed d) :
    ∃ t data err N, 0 < N ∧ d.Built t data err N := by
  cases h with
  | flat h => exact ⟨_, _, _, 1, by omega, setUp_built h⟩
  | flatErr h => exact ⟨_, _, _, 1, by omega, setUp_built h⟩
  | @table t rows d h =>
    have hb := setUp_built h
    refine ⟨_, _, _, _, ?_, hb⟩
    rcases rows with _ | ⟨r, rs⟩
    · exact absurd rfl hb.dne
    · simp
  | @tableErr t rows errs d h =>
    have hb := setUp_built h
    refine ⟨_, _, _, _, ?_, hb⟩
    rcases rows with _ | ⟨r, rs⟩
    · exact absurd rfl hb.dne
    · simp
  | @file s d h =>
    cases s with
    | none => simp [mkFile] at h
    | some s =>
      simp only [mkFile, finishFile] at h
      exact ⟨_, _, _, 1, by omega, setUp_built h⟩

theorem Constructed.wf {d : DS F} (h : Constructed d) : d.WF := by
  obtain ⟨_, _, _, _, hN, hb⟩ := h.built
  exact hb.wf hN

/-- the correlations of one row of values for processed lags `L` -/
def rowCorr (row : List F) (L : List (F × List (F × Nat))) : List F :=
  L.map fun p => corrValue (row.map fun x => sub x (meanOf row)) (normOfRow row (meanOf row)) p.2

theorem DS.Built.drow {d : DS F} {t data err : List F} {N : Nat} (h : d.Built t data err N) (j : Nat) :
    d.drow j = rowOf data t.length j := by
  unfold DS.drow; rw [h.hdata, h.hM]

theorem DS.Built.meanGet {d : DS F} {t data err : List F} {N : Nat} (h : d.Built t data err N) {j : Nat}
    (hj : j < N) : d.dataMean.getD j zero = meanOf (rowOf data t.length j) := by
  rw [h.mean]; simp [hj]

theorem DS.Built.nrow {d : DS F} {t data err : List F} {N : Nat} (h : d.Built t data err N) {j : Nat}
    (hj : j < N) :
    d.nrow j = (rowOf data t.length j).map fun x => sub x (meanOf (rowOf data t.length j)) := by
  have hlen : ∀ j < N, ((rowOf data t.length j).map fun x => sub x (meanOf (rowOf data t.length j))).length
      = t.length := fun j hj => by simp [rowOf_length h.hsize hj]
  have hl := blocks_length hlen
  unfold DS.nrow
  rw [h.normData, h.hM]
  have := rowOf_blocks hlen hj
  unfold blocks at this hl
  have hb : (j + 1) * t.length ≤ N * t.length := Nat.mul_le_mul_right _ hj
  rw [Nat.succ_mul] at hb
  conv_rhs => rw [← this]
  unfold rowOf at *
  rw [List.drop_append_of_le_length (by omega), List.take_append_of_le_length (by simp only [List.length_drop]; omega)]

theorem DS.Built.acRow {d : DS F} {t data err : List F} {N : Nat} (h : d.Built t data err N) {j : Nat}
    (hj : j < N) (L : List (F × List (F × Nat))) :
    d.acRow L j = rowCorr (rowOf data t.length j) L := by
  unfold DS.acRow rowCorr
  rw [h.nrow hj, h.drow j, h.meanGet hj]

/-- a row seen through `data()` is a block of the stored data -/
theorem DS.Built.row {d : DS F} {t data err : List F} {N : Nat} (h : d.Built t data err N) {j : Nat}
    {row : List F} (hr : d.HasRow j row) : j < N ∧ rowOf data t.length j = row := by
  obtain ⟨rows, h1, h2⟩ := hr
  unfold DS.data2d at h1
  rw [h.hN, h.hM, h.hdata, unflatten_ok h.hsize] at h1
  simp only [Res.ok.injEq] at h1
  subst h1
  rw [List.getElem?_map] at h2
  by_cases hj : j < N
  · rw [List.getElem?_range hj] at h2
    simpa [hj] using h2
  · rw [List.getElem?_eq_none (by simpa using hj)] at h2
    simp at h2

theorem corrNew_good {d : DS F} (h : d.WF) {c : Corr F} (hc : Corr.new d = .ok c) :
    ∃ n, slotsOf d.normT = .ok n ∧ c = Corr.fresh d n ∧ c.Good := by
  rw [corrNew_eq h, Res.bind_eq_ok] at hc
  obtain ⟨n, h1, h2⟩ := hc
  simp at h2
  exact ⟨n, h1, h2.symm, h2 ▸ Corr.Good.fresh h n⟩

theorem foldL_rawSet_length {α β : Type} (f : List α → β → Res (List α))
    (hf : ∀ s b s', f s b = .ok s' → s'.length = s.length) (s s' : List α) (l : List β)
    (h : Res.foldL f s l = .ok s') : s'.length = s.length := by
  induction l generalizing s with
  | nil => simp at h; simp [h]
  | cons b l ih =>
    rw [Res.foldL_cons, Res.bind_eq_ok] at h
    obtain ⟨s1, h1, h2⟩ := h
    rw [ih s1 h2, hf s b s1 h1]

theorem addCorrelationData_lengths {c c' : Corr F} {it : CorrIt F} {i : Nat}
    (h : Corr.addCorrelationData c it i = .ok c') :
    c'.tsBuf.length = c.tsBuf.length ∧ c'.corrBuf.length = c.corrBuf.length := by
  unfold Corr.addCorrelationData at h
  simp only [Res.bind_eq_ok, Res.ok.injEq] at h
  obtain ⟨ts, h1, buf, h2, rfl⟩ := h
  rw [rawSet_eq_ok] at h1
  refine ⟨by simp [h1.2], ?_⟩
  apply foldL_rawSet_length _ _ _ _ _ h2
  intro s j s' hs
  rw [Res.bind_eq_ok] at hs
  obtain ⟨x, _, hx⟩ := hs
  rw [rawSet_eq_ok] at hx
  simp [hx.2]

theorem clean_lengths {c c' : Corr F} {i : Nat} (h : Corr.cleanCorrelationData c i = .ok c') :
    c'.tsBuf.length = i ∧ c'.corrBuf.length = c.ds.N * i ∧ c'.numLagSteps = i ∧ c'.ds = c.ds ∧
    c'.norm = c.norm := by
  unfold Corr.cleanCorrelationData at h
  simp only [Res.bind_eq_ok, Res.ok.injEq] at h
  obtain ⟨buf, h2, rfl⟩ := h
  refine ⟨by simp [Corr.resizeF]; omega, ?_, rfl, rfl, rfl⟩
  have := foldL_rawSet_length _ (fun s j s' hs => ?_) _ _ _ h2
  · simpa using this
  · rw [Res.bind_eq_ok] at hs
    obtain ⟨row, _, hx⟩ := hs
    unfold writeAt at hx
    split at hx
    · simp at hx; rw [← hx]; simp; omega
    · simp at hx

/-- every public call except `clearCorrelation` keeps the buffers consistent and the data unchanged -/
theorem good_run {a : AbsFn} {c c' : Corr F} (hg : c.Good) {call : CorrCall F}
    (hcl : call ≠ .clear) (h : call.run a c = .ok c') : c'.Good ∧ c'.ds = c.ds ∧ c'.norm = c.norm := by
  cases call with
  | setMaxLag x => simp [CorrCall.run] at h; subst h; exact ⟨⟨hg.1, hg.2, hg.3, hg.4⟩, rfl, rfl⟩
  | setMinLag x => simp [CorrCall.run] at h; subst h; exact ⟨⟨hg.1, hg.2, hg.3, hg.4⟩, rfl, rfl⟩
  | setLagResolution x => simp [CorrCall.run] at h; subst h; exact ⟨⟨hg.1, hg.2, hg.3, hg.4⟩, rfl, rfl⟩
  | setAlpha x => simp [CorrCall.run] at h; subst h; exact ⟨⟨hg.1, hg.2, hg.3, hg.4⟩, rfl, rfl⟩
  | calculate =>
    simp only [CorrCall.run] at h
    rw [calculateStandard_eq a hg, Res.bind_eq_ok] at h
    obtain ⟨L, _, h⟩ := h
    simp at h; subst h
    exact ⟨hg.store L, rfl, rfl⟩
  | findCorrelation sel wt =>
    simp only [CorrCall.run] at h
    rw [pyFind_eq a hg, Res.bind_eq_ok] at h
    obtain ⟨L, _, h⟩ := h
    split at h
    · simp at h
    · simp at h; subst h
      exact ⟨hg.store L, rfl, rfl⟩
  | addData it step =>
    simp only [CorrCall.run] at h
    obtain ⟨h1, h2⟩ := addCorrelationData_lengths h
    obtain ⟨f1, f2, _, _, _, _, f7⟩ := addCorrelationData_frame h
    exact ⟨⟨by rw [f1]; exact hg.wf, by rw [f1, f2]; exact hg.norm_len, by rw [h1, f7]; exact hg.ts_len,
      by rw [h2, f1, f7]; exact hg.corr_len⟩, f1, f2⟩
  | clean i =>
    simp only [CorrCall.run] at h
    obtain ⟨h1, h2, h3, h4, h5⟩ := clean_lengths h
    exact ⟨⟨by rw [h4]; exact hg.wf, by rw [h4, h5]; exact hg.norm_len, by rw [h1, h3],
      by rw [h2, h3, h4]⟩, h4, h5⟩
  | clear => exact absurd rfl hcl

theorem good_runCalls {a : AbsFn} {c c' : Corr F} (hg : c.Good) {hist : List (CorrCall F)}
    (hcl : ∀ x ∈ hist, x ≠ .clear) (h : runCalls a c hist = .ok c') :
    c'.Good ∧ c'.ds = c.ds ∧ c'.norm = c.norm := by
  induction hist generalizing c with
  | nil => simp [runCalls] at h; subst h; exact ⟨hg, rfl, rfl⟩
  | cons x xs ih =>
    unfold runCalls at h
    rw [Res.foldL_cons, Res.bind_eq_ok] at h
    obtain ⟨c1, h1, h2⟩ := h
    obtain ⟨g1, e1, n1⟩ := good_run hg (hcl x (by simp)) h1
    obtain ⟨g2, e2, n2⟩ := ih g1 (fun y hy => hcl y (by simp [hy])) h2
    exact ⟨g2, by rw [e2, e1], by rw [n2, n1]⟩

/-- `correlations()` on consistent buffers -/
theorem correlations_good {c : Corr F} (hg : c.Good) :
    ∃ rows, c.correlations = .ok rows ∧ rows.length = c.ds.N ∧ ∀ r ∈ rows, r.length = c.numLagSteps := by
  have := unflatten_ok (v := c.corrBuf) (N := c.ds.N) (M := c.numLagSteps) (by rw [hg.corr_len])
  unfold unflatten vecIdx at this
  refine ⟨_, this, by simp, ?_⟩
  intro r hr
  obtain ⟨j, hj, rfl⟩ := List.mem_map.1 hr
  exact rowOf_length (by rw [hg.corr_len]) (List.mem_range.1 hj)

/-! ### number of lags -/

theorem gridPt_succ (lo res : F) (m : Nat) : gridPt lo res (m + 1) = gridPt (add lo res) res m := rfl

/-- skipping zero, seen from a loop whose flag is `p` -/
theorem lagsUpTo_length {lo hi res : F} {m : Nat} (h : GridCount lo hi res m) (p : Bool) {fuel : Nat}
    (hf : m < fuel) [Decidable (p = false ∧ SkipsZero lo res m)] :
    (lagsUpTo hi res fuel lo p).length = m + (if p = false ∧ SkipsZero lo res m then 1 else 0) := by
  induction m generalizing lo p fuel with
  | zero =>
    obtain ⟨f, rfl⟩ : ∃ f, fuel = f + 1 := ⟨fuel - 1, by omega⟩
    unfold lagsUpTo
    rw [if_neg (by simpa [gridPt] using h.2), if_neg (by rintro ⟨_, i, hi, _⟩; omega)]
    rfl
  | succ m ih =>
    obtain ⟨f, rfl⟩ : ∃ f, fuel = f + 1 := ⟨fuel - 1, by omega⟩
    have hk : le lo hi = true := h.1 0 (by omega)
    have h' : GridCount (add lo res) hi res m :=
      ⟨fun i hi => h.1 (i + 1) (by omega), h.2⟩
    have hskip : ∀ q : Bool, q = (if eq lo zero then true else p) →
        ¬ (lt zero lo = true ∧ q = false) →
        ((p = false ∧ SkipsZero lo res (m + 1)) ↔ (q = false ∧ SkipsZero (add lo res) res m)) := by
      intro q hq hn
      constructor
      · rintro ⟨hp, i, hi, hlt, hz⟩
        have hz0 : eq lo zero = false := hz 0 (by omega)
        have hqf : q = false := by rw [hq, hz0, hp]; rfl
        cases i with
        | zero => exact absurd ⟨hlt, hqf⟩ hn
        | succ i => exact ⟨hqf, i, by omega, hlt, fun i' hi' => hz (i' + 1) (by omega)⟩
      · rintro ⟨hqf, i, hi, hlt, hz⟩
        have hz0 : eq lo zero = false := by
          cases hc : eq lo zero with
          | false => rfl
          | true => rw [hc] at hq; simp [hqf] at hq
        have hp : p = false := by rw [hz0] at hq; simp at hq; rw [← hq, hqf]
        refine ⟨hp, i + 1, by omega, hlt, ?_⟩
        intro i' hi'
        cases i' with
        | zero => exact hz0
        | succ i' => exact hz i' (by omega)
    unfold lagsUpTo
    rw [if_pos hk]
    generalize hq : (if eq lo zero then true else p) = q at *
    classical
    by_cases hc : lt zero lo = true ∧ q = false
    · rw [if_pos (by simp [hc.1, hc.2])]
      have hz0 : eq lo zero = false := by
        cases hc' : eq lo zero with
        | false => rfl
        | true => rw [hc', if_pos rfl] at hq; rw [← hq] at hc; simp at hc
      have hp : p = false := by rw [hz0] at hq; simp at hq; rw [hq, hc.2]
      rw [if_pos ⟨hp, 0, by omega, hc.1, fun i' hi' => by
        have : i' = 0 := by omega
        subst this; exact hz0⟩]
      have := ih h' true (fuel := f) (by omega)
      simp only [List.length_cons]
      rw [this]; simp
    · rw [if_neg (by simpa using hc)]
      have := ih h' q (fuel := f) (by omega)
      simp only [List.length_cons]
      rw [this]
      simp only [hskip q rfl hc]
      omega

theorem lagsDone_iff {lo hi res : F} {fuel : Nat} :
    lagsDone hi res fuel lo = true ↔ ∃ m < fuel, GridCount lo hi res m := by
  induction fuel generalizing lo with
  | zero => simp [lagsDone]
  | succ f ih =>
    unfold lagsDone
    cases hk : le lo hi with
    | true =>
      simp only [if_true]
      rw [ih]
      constructor
      · rintro ⟨m, hm, h1, h2⟩
        refine ⟨m + 1, by omega, ?_, h2⟩
        intro i hi
        cases i with
        | zero => exact hk
        | succ i => exact h1 i (by omega)
      · rintro ⟨m, hm, h1, h2⟩
        cases m with
        | zero => simp [gridPt, hk] at h2
        | succ m => exact ⟨m, by omega, fun i hi => h1 (i + 1) (by omega), h2⟩
    | false =>
      simp only [Bool.false_eq_true, if_false, true_iff]
      exact ⟨0, by omega, by omega, by simpa [gridPt] using hk⟩

theorem GridCount.unique {lo hi res : F} {m m' : Nat} (h : GridCount lo hi res m)
    (h' : GridCount lo hi res m') : m = m' := by
  rcases Nat.lt_trichotomy m m' with hlt | he | hlt
  · have := h'.1 m hlt; rw [h.2] at this; simp at this
  · exact he
  · have := h.1 m' hlt; rw [h'.2] at this; simp at this

/-- the lags fit into `n` slots -/
theorem lags_fit_iff {lo hi res : F} {n : Nat} :
    (lagsUpTo hi res (n + 1) lo false).length ≤ n ↔
      ∃ m, GridCount lo hi res m ∧ lagTotal lo res m ≤ n := by
  classical
  have hlen : ∀ i, GridCount lo hi res i → i < n + 1 →
      (lagsUpTo hi res (n + 1) lo false).length = lagTotal lo res i := by
    intro i hi hlt
    rw [lagsUpTo_length hi false hlt]
    unfold lagTotal
    simp
  constructor
  · intro h
    obtain ⟨i, hi, hc⟩ := lagsDone_iff.1 (lagsDone_of_length (Nat.lt_succ_of_le h))
    exact ⟨i, hc, by rw [← hlen i hc hi]; exact h⟩
  · rintro ⟨i, hc, hle⟩
    have : i < n + 1 := by
      unfold lagTotal at hle; omega
    rw [hlen i hc this]; exact hle

end Sacf
