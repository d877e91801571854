import Verif.Lemmas.Result
import Verif.Lemmas.Round
import Verif.Spec.Rational

/-!
# Natural selection (C19), the overload of `abs` (C20), the zero lag in any rounding (C25)
-/

set_option linter.unusedSectionVars false
set_option linter.unusedSimpArgs false

namespace Sacf

variable {K : Type} [Field K] [LinearOrder K] [IsStrictOrderedRing K] [FloorRing K]

/-! ## C19 -/

section exact
variable {dm : K} {f32 ex : K → K}

/-- **C19** (exact arithmetic): `naturalSelectionFunctionIdx` on a new iterator for lag `k`, on any correlator of a
data structure with strictly increasing times. -/
theorem C19_nearest (c : Corr (Exact dm f32 ex)) (hd : Constructed c.ds) (M : ℕ) (t : ℕ → K)
    (ht : c.ds.timeseries = samples M t) (hinc : Increasing M t) (k : K) (N : ℕ) :
    ∃ it m s, c.naturalSelection .fabs (CorrIt.new (.fin k) N) = .ok it ∧ it.selection = (List.range m).map s ∧
      m ≤ M ∧ (∀ i < M, (i < m ↔ t i + k ≤ t (M - 1))) ∧ ∀ i < m, IsNearest M t (t i + k) (s i) := by
  obtain ⟨hM, hnt, _⟩ := built_times hd ht
  obtain ⟨m, s, h1, h2, h3, _, h5⟩ := planNat_nearest (dm := dm) (f32 := f32) (ex := ex) hM (hinc.sub_const (t 0)) k
  rw [naturalSelection_eq .fabs c hd.wf.ne, hnt, h5]
  refine ⟨_, m, s, rfl, rfl, h1, ?_, ?_⟩
  · intro i hi
    rw [h2 i hi]
    constructor <;> intro h <;> linarith
  · intro i hi
    have a1 := h3 i hi
    have e2 : t i - t 0 + k = (t i + k) - t 0 := by ring
    rwa [e2, IsNearest.sub_const] at a1

/-- ties go to the later sample, samples beyond the end are left out -/
example : ((mkFlat (q [0, 2, 3, 7]) (q [1, 2, 3, 4])).bind fun d => (Corr.new d).bind fun c =>
    (c.naturalSelection .fabs (CorrIt.new (.fin 3) 1)).bind fun it => .ok it.selection)
      = .ok [2, 3, 3] := by decide +kernel

end exact

section rounded
variable {R : Rnd K}

theorem le_of_not_lt {x y : XF R} (hx : x ≠ .nan) (hy : y ≠ .nan) (h : Arith.lt x y = false) :
    Arith.le y x = true := by
  cases x <;> cases y <;>
    first
    | rfl
    | exact absurd rfl hx
    | exact absurd rfl hy
    | exact absurd h Bool.true_eq_false.mp
    | (simp at *; assumption)

theorem le_of_lt' {x y : XF R} (h : Arith.lt x y = true) : Arith.le x y = true := by
  cases x <;> cases y <;>
    first
    | rfl
    | exact absurd h Bool.false_ne_true
    | (simp at *; exact h.le)

/-- the sample chosen minimises the computed distance -/
theorem selectNat_min {M : ℕ} {u : ℕ → K} (hM : 0 < M) (hu : InOrder M u) {s : XF R} (hsn : s ≠ .nan)
    (hs : Arith.lt (lastD (samples M u : List (XF R))) s = false) :
    ∃ j, Corr.selectNat .fabs (samples M u : List (XF R)) s = .ok j ∧ j < M ∧
      ∀ n < M, Arith.le (Arith.fabs (Arith.sub s (.fin (u j)))) (Arith.fabs (Arith.sub s (.fin (u n)))) = true := by
  obtain ⟨r, j, h1, h2, h3, h4, h5, h6⟩ := selectNat_fabs (samples_ne_nil hM) hs
  rw [samples_length] at *
  refine ⟨j, h4, h5, ?_⟩
  cases s with
  | nan => exact absurd rfl hsn
  | ninf => intro n _; rfl
  | pinf =>
    rw [samples_last hM] at hs
    exact absurd hs Bool.true_eq_false.mp
  | fin s =>
    have hr : s ≤ u r := by
      obtain ⟨x, hx, hl⟩ := h2.above h3
      rw [samples_getElem? h3] at hx
      simp at hx; subst hx
      simpa using hl
    have hr1 : 0 < r → u (r - 1) < s := by
      intro h0
      obtain ⟨x, hx, hl⟩ := h2.below h0
      rw [samples_getElem? (by omega)] at hx
      simp at hx; subst hx
      simpa using hl
    have above : ∀ n, r ≤ n → n < M → |s - u r| ≤ |s - u n| := by
      intro n hn hnM
      have := hu _ _ hn hnM
      rw [abs_of_nonpos (by linarith), abs_of_nonpos (by linarith)]; linarith
    have below : ∀ n, n ≤ r - 1 → 0 < r → |s - u (r - 1)| ≤ |s - u n| := by
      intro n hn h0
      have h := hu _ _ hn (by omega)
      have := hr1 (by omega)
      rw [abs_of_nonneg (by linarith), abs_of_nonneg (by linarith)]; linarith
    intro n hn
    rcases h6 with ⟨h0, rfl⟩ | ⟨h0, lo, hi, hlo, hhi, hj⟩
    · rw [dist_round, dist_round]
      apply round_mono
      have := above n (by omega) hn
      rwa [h0] at this
    · rw [samples_getElem? (by omega)] at hlo
      rw [samples_getElem? h3] at hhi
      simp only [Option.some.injEq] at hlo hhi
      subst hlo hhi
      rw [dist_round, dist_round] at hj
      rw [dist_round, dist_round]
      split at hj <;> rename_i hlt
      · subst hj
        by_cases hc : n ≤ r - 1
        · exact round_mono (below n hc h0)
        · exact xf_le_trans (le_of_lt' hlt) (round_mono (above n (by omega) hn))
      · subst hj
        by_cases hc : n ≤ j - 1
        · refine xf_le_trans (le_of_not_lt (round_ne_nan _) (round_ne_nan _) (by simpa using hlt))
            (round_mono (below n hc h0))
        · exact round_mono (above n (by omega) hn)

theorem planNat_rounded {M : ℕ} (hM : 0 < M) {u : ℕ → K} (hinc : InOrder M u) (k : K) :
    ∃ (m : ℕ) (s : ℕ → ℕ), m ≤ M ∧
      (∀ i < M, (i < m ↔ Arith.lt (.fin (u (M - 1))) (Arith.add (.fin (u i)) (.fin k) : XF R) = false)) ∧
      (∀ i < m, s i < M ∧ ∀ n < M,
        Arith.le (Arith.fabs (Arith.sub (Arith.add (.fin (u i)) (.fin k) : XF R) (.fin (u (s i)))))
          (Arith.fabs (Arith.sub (Arith.add (.fin (u i)) (.fin k) : XF R) (.fin (u n)))) = true) ∧
      shiftedNat (samples M u : List (XF R)) (.fin k)
        = (List.range m).map (fun i => (Arith.add (.fin (u i)) (.fin k) : XF R)) ∧
      planNat .fabs (samples M u : List (XF R)) (.fin k) = .ok ((List.range m).map s) := by
  classical
  have hadd : ∀ i, Arith.add (.fin (u i)) (.fin k : XF R) = XF.round (u i + k) := fun _ => rfl
  obtain ⟨m, hm, h1, h2⟩ := takeWhile_range (fun s => !Arith.lt (.fin (u (M - 1)) : XF R) s)
    (fun i => (Arith.add (.fin (u i)) (.fin k) : XF R)) M (by
      intro i j hij hj h
      rw [hadd] at h ⊢
      have hle := round_mono (R := R) (show u i + k ≤ u j + k by have := hinc i j hij hj; linarith)
      simp only [Bool.not_eq_true'] at h ⊢
      have h' := le_of_not_lt (by simp) (round_ne_nan _) h
      have := xf_le_trans hle h'
      cases hr : (XF.round (u i + k) : XF R) with
      | nan => rfl
      | ninf => rfl
      | pinf => rw [hr] at this; exact absurd this Bool.false_ne_true
      | fin y => rw [hr] at this; simpa using this)
  have hsh : shiftedNat (samples M u : List (XF R)) (.fin k)
      = (List.range m).map (fun i => (Arith.add (.fin (u i)) (.fin k) : XF R)) := by
    unfold shiftedNat
    rw [samples_last hM]
    unfold samples
    rw [List.map_map]
    exact h1
  have hlt : ∀ i < m, Arith.lt (.fin (u (M - 1))) (Arith.add (.fin (u i)) (.fin k) : XF R) = false := by
    intro i hi
    have := (h2 i (by omega)).1 hi
    simpa using this
  have hsel : ∀ i, ∃ j, i < m → (Corr.selectNat .fabs (samples M u : List (XF R)) (Arith.add (.fin (u i)) (.fin k)) = .ok j ∧
      j < M ∧ ∀ n < M,
        Arith.le (Arith.fabs (Arith.sub (Arith.add (.fin (u i)) (.fin k) : XF R) (.fin (u j))))
          (Arith.fabs (Arith.sub (Arith.add (.fin (u i)) (.fin k) : XF R) (.fin (u n)))) = true) := by
    intro i
    by_cases hi : i < m
    · obtain ⟨j, hj⟩ := selectNat_min (R := R) hM hinc (s := Arith.add (.fin (u i)) (.fin k)) (round_ne_nan _)
        (by rw [samples_last hM]; exact hlt i hi)
      exact ⟨j, fun _ => hj⟩
    · exact ⟨0, fun h => absurd h hi⟩
  choose s hs using hsel
  refine ⟨m, s, hm, fun i hi => by simpa using h2 i hi, fun i hi => (hs i hi).2, hsh, ?_⟩
  unfold planNat
  rw [hsh, Res.mapL_map]
  exact Res.mapL_ok fun i hi => (hs i (List.mem_range.1 hi)).1

/-- **C19** (any rounding): for normalised times `u` in order (equal ones allowed), each index selected minimises the computed
distance to the computed shifted time; exactly the samples before the first one whose shifted time lies beyond
the last time are considered. -/
theorem C19_rounded (c : Corr (XF R)) (hd : Constructed c.ds) (M : ℕ) (u : ℕ → K)
    (ht : c.ds.normT = samples M u) (hinc : InOrder M u) (k : K) (N : ℕ) :
    ∃ it m s, c.naturalSelection .fabs (CorrIt.new (.fin k) N) = .ok it ∧ it.selection = (List.range m).map s ∧
      m ≤ M ∧
      (∀ i < M, (i < m ↔ Arith.lt (.fin (u (M - 1))) (Arith.add (.fin (u i)) (.fin k) : XF R) = false)) ∧
      ∀ i < m, s i < M ∧ ∀ n < M,
        Arith.le (Arith.fabs (Arith.sub (Arith.add (.fin (u i)) (.fin k) : XF R) (.fin (u (s i)))))
          (Arith.fabs (Arith.sub (Arith.add (.fin (u i)) (.fin k) : XF R) (.fin (u n)))) = true := by
  have hM : 0 < M := by
    have := hd.wf.ne
    rw [ht, ← List.length_pos_iff] at this
    simpa using this
  obtain ⟨m, s, h1, h2, h3, _, h5⟩ := planNat_rounded (R := R) hM hinc k
  refine ⟨{ CorrIt.new (.fin k) N with shifted := ⟨[], shiftedNat c.ds.normT (.fin k)⟩, selection := (List.range m).map s },
    m, s, ?_, rfl, h1, h2, h3⟩
  rw [naturalSelection_eq .fabs c hd.wf.ne, ht, h5]
  rfl

/-! ## C25 in any rounding -/

theorem selectNat_self {M : ℕ} {u : ℕ → K} (hu : Increasing M u) {i : ℕ} (hi : i < M) :
    Corr.selectNat .fabs (samples M u : List (XF R)) (.fin (u i)) = .ok i := by
  have hM : 0 < M := by omega
  have hs : Arith.lt (lastD (samples M u : List (XF R))) (.fin (u i)) = false := by
    rw [samples_last hM]
    simpa using hu.le (show i ≤ M - 1 by omega) (by omega)
  obtain ⟨r, j, h1, h2, h3, h4, h5, h6⟩ := selectNat_fabs (samples_ne_nil hM) hs
  rw [samples_length] at *
  have hr : u i ≤ u r := by
    obtain ⟨x, hx, hl⟩ := h2.above h3
    rw [samples_getElem? h3] at hx
    simp at hx; subst hx
    simpa using hl
  have hr1 : 0 < r → u (r - 1) < u i := by
    intro h0
    obtain ⟨x, hx, hl⟩ := h2.below h0
    rw [samples_getElem? (by omega)] at hx
    simp at hx; subst hx
    simpa using hl
  have hri : r = i := by
    rcases Nat.lt_trichotomy r i with h | h | h
    · exact absurd (hu r i h hi) (not_lt.2 hr)
    · exact h
    · have := hu.le (show i ≤ r - 1 by omega) (by omega)
      exact absurd (hr1 (by omega)) (not_lt.2 this)
  subst hri
  rw [h4]
  rcases h6 with ⟨h0, rfl⟩ | ⟨h0, lo, hi, hlo, hhi, hj⟩
  · rw [h0]
  · rw [samples_getElem? (by omega)] at hlo
    rw [samples_getElem? h3] at hhi
    simp only [Option.some.injEq] at hlo hhi
    subst hlo hhi
    rw [dist_round, dist_round, sub_self, abs_zero, round_zero] at hj
    have hn := round_nonneg (R := R) (abs_nonneg (u r - u (r - 1)))
    have : Arith.lt (XF.round |u r - u (r - 1)| : XF R) (.fin 0) = false := by
      cases hc : (XF.round |u r - u (r - 1)| : XF R) with
      | nan => rfl
      | ninf => rw [hc] at hn; exact absurd hn Bool.false_ne_true
      | pinf => rfl
      | fin y => rw [hc] at hn; simpa using hn
    rw [this] at hj
    simp [hj]

/-- sum of squared deviations from `m`, accumulated from the left with the operations of the arithmetic -/
def computedSumSq (row : List (XF R)) (m : XF R) : XF R :=
  row.foldl (fun acc x => Arith.addMul acc (Arith.sub x m) (Arith.sub x m)) (.fin 0)

/-- **C25** (any rounding, default functions): for data free of NaN and representable as `float`, and normalised
times that are strictly increasing, the value at lag zero is `N * (1/N)` where `N` is the computed sum of squared
deviations. -/
theorem C25_rounded (d : DS (XF R)) (hd : Constructed d) (g : LagArgs (XF R)) (r : AcResult (XF R))
    (hr : autocorrelation .fabs d g = .ok r) (M : ℕ) (u : ℕ → K) (ht : d.normT = samples M u)
    (hdbl : ∀ i < M, (.fin (u i) : XF R).IsDouble) (hinc : Increasing M u)
    (j : ℕ) (row : List (XF R)) (hrow : d.HasRow j row) (m : XF R) (hm : d.dataMean[j]? = some m)
    (hrep : ∀ x ∈ row, Arith.toFloat x = x ∧ x ≠ .nan)
    (α : K) (hα : r.corr.alpha = .fin α) (hα0 : α ≠ 0)
    (n : ℕ) (hn : r.lags[n]? = some (.fin 0)) :
    r.At j n (.fin 0) (Arith.mul (computedSumSq row m) (Arith.div (.fin 1) (computedSumSq row m))) := by
  obtain ⟨ps, h1, h2⟩ := result_at hd hr hrow hn
  have hM : 0 < M := by
    have := hd.wf.ne
    rw [ht, ← List.length_pos_iff] at this
    simpa using this
  have hlen : row.length = M := by
    obtain ⟨t', data, err, N, _, hb⟩ := hd.built
    obtain ⟨hj, he⟩ := hb.row hrow
    have := congrArg List.length he
    rw [rowOf_length hb.hsize hj] at this
    have h2 := hd.wf.M_eq
    rw [ht, samples_length, hb.hM] at h2
    omega
  have hmean : meanOf row = m := by
    obtain ⟨t', data, err, N, _, hb⟩ := hd.built
    obtain ⟨hj, he⟩ := hb.row hrow
    rw [hb.mean, List.getElem?_map, List.getElem?_range hj] at hm
    simp only [Option.map_some, Option.some.injEq] at hm
    rw [← he]; exact hm
  rw [hmean] at h2
  -- the normaliser
  have hnorm : normOfRow row m = computedSumSq row m := by
    unfold normOfRow computedSumSq
    apply List.foldl_ext
    intro acc x hx
    obtain ⟨e1, e2⟩ := hrep x hx
    rw [e1]
    have : Arith.isNaN x = false := by
      cases x with
      | nan => exact absurd rfl e2
      | _ => rfl
    rw [this]; rfl
  -- the shifted times
  have hadd : ∀ i < M, Arith.add (.fin (u i)) (.fin 0 : XF R) = .fin (u i) := by
    intro i hi
    show XF.round (u i + 0) = _
    rw [add_zero]; exact hdbl i hi
  have hsh : shiftedNat (samples M u : List (XF R)) (.fin 0) = samples M u := by
    unfold shiftedNat
    rw [samples_last hM]
    have e : (samples M u : List (XF R)).map (fun t => Arith.add t (.fin 0)) = samples M u := by
      unfold samples
      rw [List.map_map]
      apply List.map_congr_left
      intro i hi
      exact hadd i (List.mem_range.1 hi)
    rw [e]
    apply takeWhile_all
    intro x hx
    obtain ⟨i, hi, rfl⟩ := samples_mem.1 hx
    simpa using hinc.le (show i ≤ M - 1 by omega) (by omega)
  have hplan : planNat .fabs (samples M u : List (XF R)) (.fin 0) = .ok (List.range M) := by
    unfold planNat
    rw [hsh]
    unfold samples
    rw [Res.mapL_map]
    have := Res.mapL_ok (f := fun i => Corr.selectNat .fabs (samples M u : List (XF R)) (.fin (u i))) (g := id)
      (l := List.range M) (fun i hi => selectNat_self hinc (List.mem_range.1 hi))
    simpa [samples] using this
  -- the pairs
  have hw : ∀ i < M, Corr.fractionWeight (.fin α : XF R) (Arith.fabs (Arith.sub (.fin (u i)) (.fin (u i)))) = .fin 1 := by
    intro i hi
    rw [dist_round, sub_self, abs_zero, round_zero]
    show XF.div (.fin 1) (XF.add (.fin 1) (XF.div (.fin 0) (.fin α))) = _
    have e1 : (XF.div (.fin 0) (.fin α) : XF R) = .fin 0 := by
      simp only [XF.div, if_neg hα0, zero_div, round_zero]
    have e2 : (XF.add (.fin 1) (.fin 0) : XF R) = .fin 1 := by
      show XF.round (1 + 0) = _
      rw [add_zero, round_one]
    rw [e1, e2]
    simp only [XF.div, one_ne_zero, if_false, div_one, round_one]
  have hps : ps = (List.range M).map fun i => ((.fin 1 : XF R), i) := by
    rw [hα, ht] at h1
    unfold lagPlan planSel at h1
    rw [if_neg (by decide), if_pos rfl, hplan] at h1
    simp only [Res.ok_bind] at h1
    rw [planDelta_fabs (by intro i hi; rw [samples_length]; exact List.mem_range.1 hi), hsh] at h1
    have hpw : planWt (F := XF R) "fractional" = .ok Corr.fractionWeight := rfl
    rw [hpw] at h1
    simp only [Res.ok_bind, Res.ok.injEq] at h1
    rw [← h1]
    apply List.ext_getElem
    · simp
    · intro i hi1 hi2
      have hi : i < M := by simpa using hi2
      simp only [List.getElem_zip, List.getElem_map, List.getElem_range]
      rw [Prod.mk.injEq]
      refine ⟨?_, rfl⟩
      rw [samples_getD hi]
      have e : (samples M u : List (XF R))[i]'(by simpa using hi) = .fin (u i) := by
        have := samples_getElem? (R := R) (f := u) hi
        rw [List.getElem?_eq_some_iff] at this
        exact this.2
      rw [e]
      exact hw i hi
  -- the sum
  have hsum : corrValue (row.map fun x => Arith.sub x m) (normOfRow row m) ps
      = Arith.mul (computedSumSq row m) (Arith.div (.fin 1) (computedSumSq row m)) := by
    rw [hnorm]
    unfold corrValue
    congr 1
    rw [hps]
    unfold computedSumSq
    have key : ∀ J ≤ M, ((List.range J).map fun i => ((.fin 1 : XF R), i)).zipIdx.foldl
        (fun acc p => Arith.addMul acc (Arith.mul p.1.1 ((row.map fun x => Arith.sub x m).getD p.2 Arith.zero))
          ((row.map fun x => Arith.sub x m).getD p.1.2 Arith.zero)) (.fin 0)
        = (row.take J).foldl (fun acc x => Arith.addMul acc (Arith.sub x m) (Arith.sub x m)) (.fin 0) := by
      intro J
      induction J with
      | zero => intro _; simp
      | succ J ih =>
        intro hJ
        have hJl : J < row.length := by omega
        have hg : (row.map fun x => Arith.sub x m).getD J Arith.zero = Arith.sub row[J] m := by
          simp [List.getD, hJl]
        rw [List.range_succ, List.map_append, List.zipIdx_append, List.foldl_append, ih (by omega),
          List.take_succ_eq_append_getElem hJl, List.foldl_append]
        simp only [List.map_cons, List.map_nil, List.zipIdx_cons, List.zipIdx_nil, List.foldl_cons,
          List.foldl_nil, List.length_map, List.length_range, Nat.zero_add, hg]
        rw [one_mul_isDouble (sub_isDouble _ _)]
    have := key M le_rfl
    rw [← hlen, List.take_length] at this
    rw [← hlen]
    exact this
  rw [hsum] at h2
  exact h2

end rounded

/-! ## C20 -/

/-- **C20 is false** when `abs` is the integer function: at lag 0.5 the nearest sample to 0 + 0.5 is 0.4 (index 1), but
index 2 (time 1) is selected, and all three distances come out as 0. -/
theorem C20_false : ((mkFlat (q [0, 2/5, 1, 2]) (q [1, 2, 3, 5])).bind fun d => (Corr.new d).bind fun c =>
    (c.naturalSelection .intAbs (CorrIt.new (.fin (1/2)) 1)).bind fun it =>
    (c.naturalSelection .fabs (CorrIt.new (.fin (1/2)) 1)).bind fun it' =>
    (c.deltaT .intAbs it).bind fun it => .ok (it.selection, it.deltaT, it'.selection))
      = .ok ([2, 2, 3], q [0, 0, 0], [1, 2, 3]) := by decide +kernel

section integer
variable {dm : K} {f32 ex : K → K}

local notation "E" => XF (Rnd.exact dm f32 ex)

/-- an integer as a double -/
def dbl {R : Rnd K} (n : ℤ) : XF R := .fin (n : K)

theorem app_int (n : ℤ) (h : -2147483648 < n ∧ n < 2147483648) :
    AbsFn.intAbs.app (dbl n : E) = AbsFn.fabs.app (dbl n) := by
  unfold AbsFn.app dbl
  have : Arith.toInt (.fin (n : K) : E) = some n := by
    show XF.toInt _ = _
    simp only [XF.toInt]
    split <;> simp
  simp only [this, h, and_self, if_true, ex_ofInt, xf_fabs]
  congr 2
  rw [← Int.cast_abs]
  norm_cast

theorem app_sub_int {B : ℤ} (hB : B ≤ 2147483648) (m n : ℤ) (h : |m - n| < B) :
    AbsFn.intAbs.app (Arith.sub (dbl m) (dbl n) : E) = AbsFn.fabs.app (Arith.sub (dbl m) (dbl n)) := by
  have e : (Arith.sub (dbl m) (dbl n) : E) = dbl (m - n) := by unfold dbl; rw [ex_sub]; push_cast; rfl
  rw [e]
  apply app_int
  rw [abs_lt] at h
  omega

/-- the normalised times are integers between 0 and `T`, `T` the last -/
structure IntTimes (nt : List E) (T : ℤ) : Prop where
  int : ∀ x ∈ nt, ∃ n : ℤ, x = dbl n ∧ 0 ≤ n ∧ n ≤ T
  last : lastD nt = dbl T

theorem selectNat_int {nt : List E} {T k : ℤ} (h : IntTimes nt T) (hk : k ≤ T) (hb : T - k < 2147483648)
    (hT : T < 2147483648) :
    Corr.selectNat .intAbs nt (dbl k) = Corr.selectNat .fabs nt (dbl k) := by
  have ha : ∀ i x, atGet nt i = .ok x →
      AbsFn.intAbs.app (Arith.sub (dbl k) x : E) = AbsFn.fabs.app (Arith.sub (dbl k) x) := by
    intro i x hx
    rw [atGet_eq_ok] at hx
    obtain ⟨n, rfl, h0, h1⟩ := h.int x (List.mem_iff_getElem?.2 ⟨i, hx⟩)
    apply app_sub_int le_rfl
    rw [abs_lt]; omega
  unfold Corr.selectNat
  apply Res.bind_congr
  intro idx _
  split
  · apply Res.bind_congr
    intro lo hlo
    rw [ha _ lo hlo]
    apply Res.bind_congr
    intro dlo _
    apply Res.bind_congr
    intro hi hhi
    rw [ha _ hi hhi]
  · rfl

theorem fastFirst_int {nt : List E} {T k : ℤ} (h : IntTimes nt T) (hk : k ≤ T) (hb : T - k < 2147483648)
    (hT : T < 2147483648) :
    fastFirst .intAbs nt (dbl k) = fastFirst .fabs nt (dbl k) := by
  have ha : ∀ i x, atGet nt i = .ok x →
      AbsFn.intAbs.app (Arith.sub (dbl k) x : E) = AbsFn.fabs.app (Arith.sub (dbl k) x) := by
    intro i x hx
    rw [atGet_eq_ok] at hx
    obtain ⟨n, rfl, h0, h1⟩ := h.int x (List.mem_iff_getElem?.2 ⟨i, hx⟩)
    apply app_sub_int le_rfl
    rw [abs_lt]; omega
  unfold fastFirst
  apply Res.bind_congr
  intro idx _
  apply Res.bind_congr
  intro hi hhi
  rw [ha _ hi hhi]
  apply Res.bind_congr
  intro dhi _
  apply Res.bind_congr
  intro lo hlo
  rw [ha _ lo hlo]

theorem lagPlan_int {nt : List E} {T k : ℤ} (h : IntTimes nt T) (hb : T - k < 2147483648)
    (hT : T < 2147483648) (sel wt : String) (alpha : E) :
    lagPlan .intAbs sel wt nt alpha (dbl k) = lagPlan .fabs sel wt nt alpha (dbl k) := by
  have hsh : ∀ x ∈ nt.map (fun t => Arith.add t (dbl k)), ∃ n : ℤ, x = dbl n ∧ k ≤ n := by
    intro x hx
    obtain ⟨y, hy, rfl⟩ := List.mem_map.1 hx
    obtain ⟨n, rfl, h0, h1⟩ := h.int y hy
    refine ⟨n + k, ?_, by omega⟩
    unfold dbl; rw [ex_add]; push_cast; rfl
  have hnat : ∀ x ∈ shiftedNat nt (dbl k), ∃ n : ℤ, x = dbl n ∧ k ≤ n ∧ n ≤ T := by
    intro x hx
    obtain ⟨n, rfl, hn⟩ := hsh x ((List.takeWhile_sublist _).mem hx)
    refine ⟨n, rfl, hn, ?_⟩
    have := of_mem_takeWhile hx
    rw [h.last] at this
    simpa [dbl] using this
  have hfast : ∀ x ∈ shiftedFast nt (dbl k), ∃ n : ℤ, x = dbl n ∧ k ≤ n ∧ n ≤ T := by
    intro x hx
    obtain ⟨n, rfl, hn⟩ := hsh x ((List.takeWhile_sublist _).mem hx)
    refine ⟨n, rfl, hn, ?_⟩
    have := of_mem_takeWhile hx
    rw [h.last] at this
    simp [dbl] at this
    omega
  have hpn : planNat .intAbs nt (dbl k) = planNat .fabs nt (dbl k) := by
    unfold planNat
    apply Res.mapL_congr
    intro x hx
    obtain ⟨n, rfl, h0, h1⟩ := hnat x hx
    exact selectNat_int h h1 (by omega) hT
  have hpf : planFast .intAbs nt (dbl k) = planFast .fabs nt (dbl k) := by
    unfold planFast
    split
    · rfl
    · rename_i s rest he
      obtain ⟨n, hs, h0, h1⟩ := hfast s (by rw [he]; simp)
      rw [hs, fastFirst_int h h1 (by omega) hT]
  have hdel : ∀ (s : List ℕ) (sh : List E), (∀ x ∈ sh, ∃ n : ℤ, x = dbl n ∧ k ≤ n ∧ n ≤ T) →
      planDelta .intAbs nt s sh = planDelta .fabs nt s sh := by
    intro s sh hs
    unfold planDelta
    apply Res.mapL_congr
    intro p hp
    apply Res.bind_congr
    intro t ht
    rw [atGet_eq_ok] at ht
    obtain ⟨n, rfl, h0, h1⟩ := h.int t (List.mem_iff_getElem?.2 ⟨_, ht⟩)
    obtain ⟨m, hm, h2, h3⟩ := hs p.2 (List.of_mem_zip hp).2
    rw [hm]
    apply app_sub_int le_rfl
    rw [abs_lt]; omega
  unfold lagPlan planSel
  rw [hpn, hpf]
  split
  · simp only [Res.bind_assoc]
    apply Res.bind_congr
    intro s _
    simp only [Res.ok_bind]
    rw [hdel s _ hfast]
  · split
    · simp only [Res.bind_assoc]
      apply Res.bind_congr
      intro s _
      simp only [Res.ok_bind]
      rw [hdel s _ hnat]
    · rfl

theorem lagsUpTo_int {hi : E} {res : ℤ} (hres : 0 ≤ res) (fuel : ℕ) (lo : ℤ) (p : Bool) :
    ∀ x ∈ lagsUpTo hi (dbl res) fuel (dbl lo) p, ∃ n : ℤ, x = dbl n ∧ (lo ≤ n ∨ n = 0) := by
  induction fuel generalizing lo p with
  | zero => simp [lagsUpTo]
  | succ f ih =>
    have hadd : (Arith.add (dbl lo) (dbl res) : E) = dbl (lo + res) := by
      unfold dbl; rw [ex_add]; push_cast; rfl
    have ih' : ∀ p, ∀ x ∈ lagsUpTo hi (dbl res) f (Arith.add (dbl lo) (dbl res)) p, ∃ n : ℤ, x = dbl n ∧ (lo ≤ n ∨ n = 0) := by
      intro p x hx
      rw [hadd] at hx
      obtain ⟨n, h1, h2⟩ := ih (lo + res) p x hx
      exact ⟨n, h1, by omega⟩
    intro x hx
    unfold lagsUpTo at hx
    split at hx
    · generalize (if Arith.eq (dbl lo : E) Arith.zero = true then true else p) = q at hx
      split at hx
      · rcases List.mem_cons.1 hx with rfl | hx
        · exact ⟨0, by simp [dbl], Or.inr rfl⟩
        · rcases List.mem_cons.1 hx with rfl | hx
          · exact ⟨lo, rfl, Or.inl le_rfl⟩
          · exact ih' _ x hx
      · rcases List.mem_cons.1 hx with rfl | hx
        · exact ⟨lo, rfl, Or.inl le_rfl⟩
        · exact ih' _ x hx
    · simp at hx

/-- **C20**: for integer times and lags (`min_lag ≥ -B`, span + B below 2³¹) both overloads of `abs` give the same
outcome, for all selection and weight functions, any `max_lag` and any `alpha`. -/
theorem C20_integer_partial (d : DS E) (hd : Constructed d) (M : ℕ) (τ : ℕ → ℤ)
    (ht : d.timeseries = samples M (fun i => (τ i : K))) (hinc : ∀ i j, i < j → j < M → τ i < τ j) (hM : 2 ≤ M)
    (hdm : ((τ (M - 1) - τ 0 : ℤ) : K) ≤ dm)
    (g : LagArgs E) (lo : Option ℤ) (hlo : g.minLag = lo.map dbl) (res : Option ℤ) (hres : g.lagRes = res.map dbl)
    (hres0 : ∀ n ∈ res, 0 ≤ n) (B : ℤ) (hB : 0 ≤ B) (hlo' : ∀ n ∈ lo, -B ≤ n) (hspan : τ (M - 1) - τ 0 ≤ B)
    (hfit : τ (M - 1) - τ 0 + B < 2147483648) (sel wt : String) :
    autocorrelation .intAbs d g sel wt = autocorrelation .fabs d g sel wt := by
  have hincK : Increasing M (fun i => (τ i : K)) := by
    intro i j hij hj
    show (τ i : K) < τ j
    exact_mod_cast hinc i j hij hj
  obtain ⟨hM0, hnt, _⟩ := built_times hd ht
  set T := τ (M - 1) - τ 0 with hT
  have hlast : lastD d.normT = dbl T := by
    rw [hnt, samples_last hM0]
    unfold dbl; rw [hT]; push_cast; rfl
  have hint : IntTimes d.normT T := by
    refine ⟨?_, hlast⟩
    intro x hx
    rw [hnt] at hx
    obtain ⟨i, hi, rfl⟩ := samples_mem.1 hx
    refine ⟨τ i - τ 0, by unfold dbl; push_cast; rfl, ?_, ?_⟩
    · rcases Nat.eq_zero_or_pos i with rfl | h
      · simp
      · have := hinc 0 i h hi; omega
    · rcases Nat.lt_or_eq_of_le (show i ≤ M - 1 by omega) with h | h
      · have := hinc i (M - 1) h (by omega); omega
      · rw [h]
  obtain ⟨δ, hδ1, hδ2, hδ3⟩ := findMinDiff_gap (dm := dm) (f32 := f32) (ex := ex) hM (hincK.sub_const ((τ 0 : ℤ) : K)) (by
    simp only [sub_self, sub_zero]; rw [hT] at hdm; push_cast at hdm; exact hdm)
  have hδ : ∃ n : ℤ, 0 ≤ n ∧ findMinDiff d.normT = dbl n := by
    obtain ⟨⟨i, j, hij, hj, he⟩, _⟩ := hδ2
    refine ⟨τ j - τ i, by have := hinc i j hij hj; omega, ?_⟩
    rw [hnt, hδ1]
    unfold dbl
    rw [← he]
    push_cast
    congr 1
    ring
  have hplan : acPlan .intAbs d.normT d.tMedian g sel wt = acPlan .fabs d.normT d.tMedian g sel wt := by
    unfold acPlan
    apply Res.bind_congr
    intro n _
    have hl : ∃ l : ℤ, -B ≤ l ∧ g.minLag.getD (Arith.neg (lastD d.normT)) = dbl l := by
      rw [hlo]
      cases lo with
      | none =>
        refine ⟨-T, by omega, ?_⟩
        simp only [Option.map_none, Option.getD_none, hlast]
        unfold dbl
        simp
      | some l => exact ⟨l, hlo' l rfl, rfl⟩
    have hr : ∃ n : ℤ, 0 ≤ n ∧ g.lagRes.getD (findMinDiff d.normT) = dbl n := by
      rw [hres]
      cases res with
      | none => exact hδ
      | some l => exact ⟨l, hres0 l rfl, rfl⟩
    obtain ⟨l, hl1, hl2⟩ := hl
    obtain ⟨m, hm1, hm2⟩ := hr
    rw [hl2, hm2]
    have : ∀ n, planRun .intAbs sel wt d.normT (g.alpha.getD d.tMedian) (dbl l) (g.maxLag.getD (lastD d.normT)) (dbl m) n
        = planRun .fabs sel wt d.normT (g.alpha.getD d.tMedian) (dbl l) (g.maxLag.getD (lastD d.normT)) (dbl m) n := by
      intro n
      unfold planRun
      congr 1
      apply Res.mapL_congr
      intro x hx
      obtain ⟨k, rfl, hk⟩ := lagsUpTo_int hm1 _ _ _ x (List.mem_of_mem_take hx)
      unfold lagPlan'
      rw [lagPlan_int hint (by omega) (by omega)]
    rw [this]
  rw [autocorrelation_plan _ hd.wf, autocorrelation_plan _ hd.wf, hplan]

example : ((mkFlat (q [0, 2, 3, 7]) (q [1, 2, 3, 5])).bind fun d =>
    (autocorrelation .intAbs d ⟨some (.fin (-3)), some (.fin 3), none, none⟩).bind fun r => .ok (r.lags, r.corrs))
      = .ok (q [-3, -2, -1, 0, 1, 2, 3], .flat (q [1413/5390, 2869/4410, 337/490, 1, 89/980, 167/980, -109/980])) := by
  decide +kernel

end integer

end Sacf
