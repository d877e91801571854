import Verif.Lemmas.Grid

/-! What a returned result contains. -/

set_option linter.unusedSectionVars false
set_option linter.unusedSimpArgs false

namespace Sacf

section lawfree
open Arith
variable {F : Type} [Arith F]

theorem corrOut_rows {rs : List (List F)} {out : CorrOut F} (h : corrOut rs = .ok out) : out.rows = rs := by
  unfold corrOut at h
  split at h
  · simp only [Res.ok.injEq] at h; subst h; rfl
  · rename_i hl
    cases rs with
    | nil => simp at h
    | cons x xs =>
      cases xs with
      | nil => simp at h; subst h; rfl
      | cons y ys => simp at hl

theorem corrOut_ok {rs : List (List F)} (h : 0 < rs.length) : ∃ out, corrOut rs = .ok out ∧ out.rows = rs := by
  have : ∃ out, corrOut rs = .ok out := by
    unfold corrOut
    split
    · exact ⟨_, rfl⟩
    · cases rs with
      | nil => simp at h
      | cons x xs => exact ⟨_, rfl⟩
  obtain ⟨out, ho⟩ := this
  exact ⟨out, ho, corrOut_rows ho⟩

/-- from a plan to its run -/
theorem acPlan_ok {a : AbsFn} {nt : List F} {med : F} {g : LagArgs F} {sel wt : String}
    {L : List (F × List (F × Nat))} (h : acPlan a nt med g sel wt = .ok L) :
    ∀ p ∈ L, lagPlan a sel wt nt (g.alpha.getD med) p.1 = .ok p.2 := by
  unfold acPlan at h
  rw [Res.bind_eq_ok] at h
  obtain ⟨n', hn', h⟩ := h
  rw [Res.bind_eq_ok] at h
  obtain ⟨L', hL', h⟩ := h
  split at h
  · simp at h
  · simp only [Res.ok.injEq] at h
    subst h
    exact (planRun_lags hL').2.2

/-- the lags and one row of a result -/
theorem result_row {a : AbsFn} {d : DS F} (hd : Constructed d) {g : LagArgs F} {sel wt : String}
    {r : AcResult F} (hr : autocorrelation a d g sel wt = .ok r) {j : ℕ} {row : List F}
    (hrow : d.HasRow j row) :
    ∃ L, acPlan a d.normT d.tMedian g sel wt = .ok L ∧ r.lags = L.map Prod.fst ∧
      r.corrs.rows[j]? = some (rowCorr row L) ∧
      ∀ p ∈ L, lagPlan a sel wt d.normT r.corr.alpha p.1 = .ok p.2 := by
  obtain ⟨n, L, hL, hlags, hc, hcr⟩ := autocorrelation_ok hd.wf hr
  obtain ⟨t, data, err, N, hN, hb⟩ := hd.built
  obtain ⟨hj, hrow'⟩ := hb.row hrow
  refine ⟨L, hL, hlags, ?_, ?_⟩
  · rw [corrOut_rows hc, List.getElem?_map, List.getElem?_range (by rw [hb.hN]; exact hj), Option.map_some,
      hb.acRow hj, hrow']
  · have : r.corr.alpha = g.alpha.getD d.tMedian := by rw [hcr, setUp_fields]; rfl
    rw [this]
    exact acPlan_ok hL

/-- one entry of a result -/
theorem result_at {a : AbsFn} {d : DS F} (hd : Constructed d) {g : LagArgs F} {sel wt : String}
    {r : AcResult F} (hr : autocorrelation a d g sel wt = .ok r) {j : ℕ} {row : List F}
    (hrow : d.HasRow j row) {n : ℕ} {k : F} (hn : r.lags[n]? = some k) :
    ∃ ps, lagPlan a sel wt d.normT r.corr.alpha k = .ok ps ∧
      r.At j n k (corrValue (row.map fun x => sub x (meanOf row)) (normOfRow row (meanOf row)) ps) := by
  obtain ⟨L, _, h1, h2, h3⟩ := result_row hd hr hrow
  have hn' := hn
  rw [h1, List.getElem?_map] at hn'
  cases hL : L[n]? with
  | none => simp [hL] at hn'
  | some p =>
    simp [hL] at hn'
    subst hn'
    refine ⟨p.2, h3 p (List.mem_iff_getElem?.2 ⟨n, hL⟩), hn, _, h2, ?_⟩
    unfold rowCorr
    rw [List.getElem?_map, hL]
    rfl

end lawfree

section exact
variable {K : Type} [Field K] [LinearOrder K] [IsStrictOrderedRing K] [FloorRing K]
variable {dm : K} {f32 ex : K → K}

local notation "E" => XF (Rnd.exact dm f32 ex)

theorem IsNearest.unique {M : ℕ} {t : ℕ → K} {s : K} {j j' : ℕ} (h : IsNearest M t s j)
    (h' : IsNearest M t s j') : j = j' := by
  rcases h.2 j' h'.1 with h1 | ⟨h1, h2⟩
  · rcases h'.2 j h.1 with h3 | ⟨h3, _⟩
    · exact absurd h1 (not_lt.2 h3.le)
    · rw [h3] at h1; exact absurd h1 (lt_irrefl _)
  · rcases h'.2 j h.1 with h3 | ⟨_, h4⟩
    · rw [h1] at h3; exact absurd h3 (lt_irrefl _)
    · omega

theorem IsNearest.sub_const {M : ℕ} {t : ℕ → K} {s c : K} {j : ℕ} :
    IsNearest M (fun i => t i - c) (s - c) j ↔ IsNearest M t s j := by
  unfold IsNearest
  simp only [sub_sub_sub_cancel_right]

/-- a nearest sample exists -/
theorem exists_nearest (M : ℕ) (hM : 0 < M) (t : ℕ → K) (s : K) : ∃ j, IsNearest M t s j := by
  induction M with
  | zero => omega
  | succ M ih =>
    rcases Nat.eq_zero_or_pos M with rfl | hM'
    · refine ⟨0, by omega, fun i hi => Or.inr ⟨?_, by omega⟩⟩
      have : i = 0 := by omega
      rw [this]
    · obtain ⟨j, hj, h⟩ := ih hM'
      by_cases hc : |t M - s| ≤ |t j - s|
      · refine ⟨M, by omega, fun i hi => ?_⟩
        rcases Nat.lt_or_eq_of_le (Nat.lt_succ_iff.1 hi) with h' | rfl
        · rcases h i h' with h1 | ⟨h1, _⟩
          · exact Or.inl (lt_of_le_of_lt hc h1)
          · rcases lt_or_eq_of_le hc with h2 | h2
            · left; rw [← h1]; exact h2
            · right; exact ⟨by rw [h2, h1], by omega⟩
        · exact Or.inr ⟨rfl, le_rfl⟩
      · refine ⟨j, by omega, fun i hi => ?_⟩
        rcases Nat.lt_or_eq_of_le (Nat.lt_succ_iff.1 hi) with h' | rfl
        · exact h i h'
        · push Not at hc; exact Or.inl hc

/-- **main formula**: a finite lag, natural selection, `α > 0`, any finite row -/
theorem rowCorr_exact {M : ℕ} (hM : 0 < M) {t : ℕ → K} (ht : Increasing M t) {wt : String}
    (hw : KnownWeight wt) {α : K} (hα : 0 < α) (k : K) (x : ℕ → K) {ps : List (E × ℕ)}
    (hps : lagPlan .fabs "natural" wt (samples M (fun i => t i - t 0) : List E) (.fin α) (.fin k) = .ok ps)
    (hn : ∑ i ∈ Finset.range M, (f32 (x i) - mean M x) ^ 2 ≠ 0)
    (s : ℕ → ℕ) (hs : ∀ i < M, t i + k ≤ t (M - 1) → IsNearest M t (t i + k) (s i)) :
    corrValue ((samples M x : List E).map fun v => Arith.sub v (meanOf (samples M x)))
        (normOfRow (samples M x) (meanOf (samples M x))) ps
      = .fin (sacf M t x (weight ex wt α) s (∑ i ∈ Finset.range M, (f32 (x i) - mean M x) ^ 2) k) := by
  obtain ⟨m, s', h1, h2, h3, h4⟩ := lagPlan_exact (dm := dm) (f32 := f32) (ex := ex) hM (ht.sub_const (t 0)) hw hα k
  rw [h4] at hps
  simp only [Res.ok.injEq] at hps
  subst hps
  rw [dev_samples hM, meanOf_samples hM, normOfRow_samples]
  rw [corrValue_samples h1 _ _ _ (fun i hi => (h3 i hi).1) hn]
  congr 1
  unfold sacf
  congr 1
  have hmem : ∀ i < M, (i < m ↔ t i + k ≤ t (M - 1)) := by
    intro i hi
    rw [h2 i hi]
    constructor <;> intro h <;> linarith
  have hset : (Finset.range M).filter (fun i => t i + k ≤ t (M - 1)) = Finset.range m := by
    ext i
    simp only [Finset.mem_filter, Finset.mem_range]
    constructor
    · rintro ⟨hi, h⟩; exact (hmem i hi).2 h
    · intro hi; exact ⟨by omega, (hmem i (by omega)).1 hi⟩
  rw [hset]
  apply Finset.sum_congr rfl
  intro i hi
  have hi := Finset.mem_range.1 hi
  have hiM : i < M := by omega
  have e : s' i = s i := by
    have a1 := h3 i hi
    have a2 := hs i hiM ((hmem i hiM).1 hi)
    have e2 : t i - t 0 + k = (t i + k) - t 0 := by ring
    rw [e2, IsNearest.sub_const] at a1
    exact a1.unique a2
  rw [e]
  have e3 : t (s i) - t 0 - (t i - t 0 + k) = t (s i) - (t i + k) := by ring
  simp only [e3]

end exact

end Sacf
