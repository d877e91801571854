import Verif.Props.LagGrid
import Verif.Props.Binary

/-!
# The lag grid in rounded arithmetic (C17, C18)

The same as `C17_grid` and `C18_…` for every rounding, in particular for binary64: grid points are then repeated
rounded additions (`gridPt`).
-/

set_option linter.unusedSectionVars false
set_option linter.unusedSimpArgs false

namespace Sacf

section rounded
variable {K : Type} [Field K] [LinearOrder K] [IsStrictOrderedRing K] [FloorRing K] {R : Rnd K}

theorem xf_lt_of_le_ne {x y : XF R} (h : Arith.le x y = true) (hne : x ≠ y) : Arith.lt x y = true := by
  cases x <;> cases y <;>
    first
    | rfl
    | exact absurd h Bool.false_ne_true
    | exact absurd rfl hne
    | (simp only [xf_le, xf_lt, decide_eq_true_eq] at *
       exact lt_of_le_of_ne h fun e => hne (by rw [e]))

theorem xf_le_of_lt {x y : XF R} (h : Arith.lt x y = true) : Arith.le x y = true := by
  cases x <;> cases y <;>
    first
    | rfl
    | exact absurd h Bool.false_ne_true
    | (simp only [xf_le, xf_lt, decide_eq_true_eq] at *; exact h.le)

theorem xf_lt_of_lt_of_le {x y z : XF R} (h1 : Arith.lt x y = true) (h2 : Arith.le y z = true) :
    Arith.lt x z = true := by
  cases x <;> cases y <;> cases z <;>
    first
    | rfl
    | exact absurd h1 Bool.false_ne_true
    | exact absurd h2 Bool.false_ne_true
    | (simp only [xf_le, xf_lt, decide_eq_true_eq] at *; exact lt_of_lt_of_le h1 h2)

theorem xf_lt_irrefl (x : XF R) : Arith.lt x x = false := by
  cases x <;> first | rfl | simp

theorem xf_le_antisymm {x y : XF R} (h1 : Arith.le x y = true) (h2 : Arith.le y x = true) : x = y := by
  cases x <;> cases y <;>
    first
    | rfl
    | exact absurd h1 Bool.false_ne_true
    | exact absurd h2 Bool.false_ne_true
    | (simp only [xf_le, decide_eq_true_eq] at *; rw [le_antisymm h1 h2])

/-- a number that can be a grid point: a double, not NaN and not `-∞` -/
def XF.OnGrid (x : XF R) : Prop := x.IsDouble ∧ Arith.lt .ninf x = true

/-- adding a positive number to a double gives a double that is not smaller -/
theorem add_pos_onGrid {x res : XF R} (hx : x.OnGrid) (hres : Arith.lt (.fin 0) res = true) :
    (Arith.add x res).OnGrid ∧ Arith.le x (Arith.add x res) = true := by
  obtain ⟨h1, h2⟩ := hx
  cases x with
  | nan => exact absurd h2 Bool.false_ne_true
  | ninf => exact absurd h2 Bool.false_ne_true
  | pinf =>
    cases res with
    | nan => exact absurd hres Bool.false_ne_true
    | ninf => exact absurd hres Bool.false_ne_true
    | pinf => exact ⟨⟨trivial, rfl⟩, rfl⟩
    | fin y => exact ⟨⟨trivial, rfl⟩, rfl⟩
  | fin a =>
    cases res with
    | nan => exact absurd hres Bool.false_ne_true
    | ninf => exact absurd hres Bool.false_ne_true
    | pinf => exact ⟨⟨trivial, rfl⟩, rfl⟩
    | fin y =>
      simp only [xf_lt, decide_eq_true_eq] at hres
      have hle : XF.le (XF.round a : XF R) (XF.round (a + y)) = true := round_mono (by linarith)
      have ha : (XF.round a : XF R) = .fin a := h1
      rw [ha] at hle
      refine ⟨⟨round_isDouble _, ?_⟩, hle⟩
      exact xf_lt_of_lt_of_le (y := .fin a) rfl hle

theorem gridPt_onGrid {lo res : XF R} (hlo : lo.OnGrid) (hres : Arith.lt (.fin 0) res = true) (n : ℕ) :
    (gridPt lo res n).OnGrid := by
  induction n generalizing lo with
  | zero => exact hlo
  | succ n ih => exact ih (add_pos_onGrid hlo hres).1

theorem gridPt_mono {lo res : XF R} (hlo : lo.OnGrid) (hres : Arith.lt (.fin 0) res = true) {i j : ℕ} (hij : i ≤ j) :
    Arith.le (gridPt lo res i) (gridPt lo res j) = true := by
  induction hij with
  | refl =>
    apply xf_le_refl
    intro h
    have := (gridPt_onGrid hlo hres i).2
    rw [h] at this
    exact absurd this Bool.false_ne_true
  | step _ ih =>
    rw [gridPt_succ']
    exact xf_le_trans ih (add_pos_onGrid (gridPt_onGrid hlo hres _) hres).2

/-- a grid that stops never repeats a point -/
theorem gridPt_strict {lo hi res : XF R} (hlo : lo.OnGrid) (hres : Arith.lt (.fin 0) res = true) {m : ℕ}
    (hg : GridCount lo hi res m) {i j : ℕ} (hij : i < j) (hj : i < m) :
    Arith.lt (gridPt lo res i) (gridPt lo res j) = true := by
  have hstep : Arith.lt (gridPt lo res i) (gridPt lo res (i + 1)) = true := by
    apply xf_lt_of_le_ne (gridPt_mono hlo hres (by omega))
    intro h
    have hc : ∀ n, gridPt lo res (i + n) = gridPt lo res i := by
      intro n
      induction n with
      | zero => rfl
      | succ n ih => rw [← Nat.add_assoc, gridPt_succ', ih, ← gridPt_succ', ← h]
    have h1 := hg.1 i hj
    have h2 := hg.2
    rw [← hc (m - i), show i + (m - i) = m by omega, h2] at h1
    exact absurd h1 Bool.false_ne_true
  exact xf_lt_of_lt_of_le hstep (gridPt_mono hlo hres (by omega))

/-- the grid points that are not above `hi` are the first `m` -/
theorem gridPt_le_iff {lo hi res : XF R} (hlo : lo.OnGrid) (hres : Arith.lt (.fin 0) res = true) {m : ℕ}
    (hg : GridCount lo hi res m) (n : ℕ) : Arith.le (gridPt lo res n) hi = true ↔ n < m := by
  refine ⟨fun h => ?_, hg.1 n⟩
  by_contra hc
  have := xf_le_trans (gridPt_mono hlo hres (show m ≤ n by omega)) h
  rw [hg.2] at this
  exact absurd this Bool.false_ne_true

theorem lagList_rounded {lo hi res : XF R} (hlo : lo.OnGrid) (hres : Arith.lt (.fin 0) res = true) {m : ℕ}
    {l : List (XF R)} (hg : GridCount lo hi res m) (hl : IsLagList lo res m l) :
    l.Pairwise (fun x y => Arith.lt x y = true) ∧
    ∀ x, x ∈ l ↔ (∃ n, x = gridPt lo res n ∧ Arith.le x hi = true) ∨
      (x = .fin 0 ∧ ∃ n, Arith.lt (.fin 0) (gridPt lo res n) = true ∧ Arith.le (gridPt lo res n) hi = true) := by
  have hmem : ∀ x, (∃ n, x = gridPt lo res n ∧ Arith.le x hi = true) ↔ x ∈ (List.range m).map (gridPt lo res) := by
    intro x
    simp only [List.mem_map, List.mem_range]
    constructor
    · rintro ⟨n, rfl, h⟩; exact ⟨n, (gridPt_le_iff hlo hres hg n).1 h, rfl⟩
    · rintro ⟨n, h, rfl⟩; exact ⟨n, rfl, hg.1 n h⟩
  have hpw : ∀ i, i ≤ m → ((List.range i).map (gridPt lo res)).Pairwise (fun x y => Arith.lt x y = true) := by
    intro i hi
    rw [List.pairwise_map]
    refine List.Pairwise.imp_of_mem ?_ (List.pairwise_lt_range (n := i))
    intro a b ha _ hab
    rw [List.mem_range] at ha
    exact gridPt_strict hlo hres hg hab (by omega)
  have hz : ∀ x : XF R, x.OnGrid → Arith.eq x (.fin 0) = false → Arith.lt (.fin 0) x = false →
      Arith.lt x (.fin 0) = true := by
    intro x hx h1 h2
    cases x with
    | nan => exact absurd hx.2 Bool.false_ne_true
    | ninf => rfl
    | pinf => exact absurd h2 (by simp [Arith.lt, XF.lt])
    | fin x =>
      simp only [xf_lt, xf_eq, decide_eq_true_eq, decide_eq_false_iff_not] at *
      exact lt_of_le_of_ne (not_lt.1 h2) h1
  have heq : ∀ x : XF R, Arith.eq x (.fin 0) = true → x = .fin 0 := by
    intro x h
    cases x with
    | nan => exact absurd h Bool.false_ne_true
    | ninf => exact absurd h Bool.false_ne_true
    | pinf => exact absurd h Bool.false_ne_true
    | fin x => simp only [xf_eq, decide_eq_true_eq] at h; rw [h]
  rcases hl with ⟨h1, h2⟩ | ⟨i, him, h1, h2, h3, h4⟩
  · rw [h2]
    refine ⟨hpw m le_rfl, fun x => ?_⟩
    rw [hmem]
    refine ⟨Or.inl, ?_⟩
    rintro (h | ⟨rfl, n, hn, hle⟩)
    · exact h
    · by_contra hc
      apply h1
      refine ⟨n, (gridPt_le_iff hlo hres hg n).1 hle, hn, ?_⟩
      intro i' hi'
      by_contra hne
      simp only [Bool.not_eq_false] at hne
      apply hc
      rw [← hmem]
      exact ⟨i', (heq _ hne).symm, xf_le_trans (xf_le_of_lt hn) hle⟩
  · have hneg : ∀ n < i, Arith.lt (gridPt lo res n) (.fin 0) = true := fun n hn =>
      hz _ (gridPt_onGrid hlo hres n) (h2 n hn.le) (h3 n hn)
    rw [h4]
    constructor
    · rw [List.pairwise_append, List.pairwise_cons]
      refine ⟨hpw i him.le, ⟨?_, ?_⟩, ?_⟩
      · intro k hk
        simp only [List.mem_map, List.mem_range] at hk
        obtain ⟨n, _, rfl⟩ := hk
        exact xf_lt_of_lt_of_le h1 (gridPt_mono hlo hres (by omega))
      · rw [List.pairwise_map]
        refine List.Pairwise.imp_of_mem ?_ (List.pairwise_lt_range (n := m - i))
        intro a b ha _ hab
        rw [List.mem_range] at ha
        exact gridPt_strict hlo hres hg (by omega) (by omega)
      · intro a ha b hb
        simp only [List.mem_map, List.mem_range] at ha
        obtain ⟨n, hn, rfl⟩ := ha
        rcases List.mem_cons.1 hb with rfl | hb
        · exact hneg n hn
        · simp only [List.mem_map, List.mem_range] at hb
          obtain ⟨n', _, rfl⟩ := hb
          exact gridPt_strict hlo hres hg (by omega) (by omega)
    · intro x
      rw [hmem]
      simp only [List.mem_append, List.mem_cons, List.mem_map, List.mem_range]
      constructor
      · rintro (⟨n, hn, rfl⟩ | rfl | ⟨n, hn, rfl⟩)
        · exact Or.inl ⟨n, by omega, rfl⟩
        · exact Or.inr ⟨rfl, i, h1, hg.1 i him⟩
        · exact Or.inl ⟨i + n, by omega, rfl⟩
      · rintro (⟨n, hn, rfl⟩ | ⟨rfl, _⟩)
        · by_cases hc : n < i
          · exact Or.inl ⟨n, hc, rfl⟩
          · exact Or.inr (Or.inr ⟨n - i, by omega, by congr 1; omega⟩)
        · exact Or.inr (Or.inl rfl)

/-! ## C17 -/

/-- **C17** (any rounding): the lags of a result are strictly increasing, and are exactly the grid points – each the
rounded sum of the one before and the resolution – that do not exceed `max_lag`, together with zero if one of
them is positive.  In particular a resolution that rounding absorbs never yields a repeated lag (the call does not
return then). -/
theorem C17_rounded (a : AbsFn) (d : DS (XF R)) (hd : Constructed d) (g : LagArgs (XF R)) (sel wt : String)
    (r : AcResult (XF R)) (hr : autocorrelation a d g sel wt = .ok r)
    (hlo : r.corr.minLag.IsDouble) (hlo' : Arith.lt .ninf r.corr.minLag = true)
    (hres : Arith.lt (.fin 0) r.corr.lagRes = true) :
    r.lags.Pairwise (fun x y => Arith.lt x y = true) ∧
    ∀ x, x ∈ r.lags ↔
      (∃ n, x = gridPt r.corr.minLag r.corr.lagRes n ∧ Arith.le x r.corr.maxLag = true) ∨
      (x = .fin 0 ∧ ∃ n, Arith.lt (.fin 0) (gridPt r.corr.minLag r.corr.lagRes n) = true ∧
        Arith.le (gridPt r.corr.minLag r.corr.lagRes n) r.corr.maxLag = true) := by
  obtain ⟨m, hg, hl⟩ := result_lags hd.wf hr
  exact lagList_rounded ⟨hlo, hlo'⟩ hres hg hl

/-! ## C18 -/

theorem pairwise_lt_nodup {l : List (XF R)} (h : l.Pairwise (fun x y => Arith.lt x y = true)) : l.Nodup :=
  h.imp fun {x y} hxy e => by
    rw [e, xf_lt_irrefl] at hxy
    exact absurd hxy Bool.false_ne_true

/-- **C18** (any rounding): if `min_lag ≤ 0` and some grid point lies in `[0, max_lag]`, zero is among the lags exactly
once and every lag lies in `[min_lag, max_lag]`. -/
theorem C18_rounded_partial (a : AbsFn) (d : DS (XF R)) (hd : Constructed d) (g : LagArgs (XF R)) (sel wt : String)
    (r : AcResult (XF R)) (hr : autocorrelation a d g sel wt = .ok r)
    (hlo : r.corr.minLag.IsDouble) (hlo' : Arith.lt .ninf r.corr.minLag = true)
    (hlo0 : Arith.le r.corr.minLag (.fin 0) = true) (hres : Arith.lt (.fin 0) r.corr.lagRes = true)
    (hpt : ∃ n, Arith.le (.fin 0) (gridPt r.corr.minLag r.corr.lagRes n) = true ∧
      Arith.le (gridPt r.corr.minLag r.corr.lagRes n) r.corr.maxLag = true) :
    r.lags.count (.fin 0) = 1 ∧
    ∀ x ∈ r.lags, Arith.le r.corr.minLag x = true ∧ Arith.le x r.corr.maxLag = true := by
  obtain ⟨h1, h2⟩ := C17_rounded a d hd g sel wt r hr hlo hlo' hres
  obtain ⟨n, hn0, hn⟩ := hpt
  have h0 : (.fin 0 : XF R) ∈ r.lags := by
    rw [h2]
    by_cases he : (.fin 0 : XF R) = gridPt r.corr.minLag r.corr.lagRes n
    · exact Or.inl ⟨n, he, by rw [he]; exact hn⟩
    · exact Or.inr ⟨rfl, n, xf_lt_of_le_ne hn0 he, hn⟩
  refine ⟨List.count_eq_one_of_mem (pairwise_lt_nodup h1) h0, fun x hx => ?_⟩
  rcases (h2 x).1 hx with ⟨n', rfl, hle⟩ | ⟨rfl, n', hlt, hle⟩
  · exact ⟨gridPt_mono ⟨hlo, hlo'⟩ hres (Nat.zero_le n'), hle⟩
  · exact ⟨hlo0, xf_le_trans (xf_le_of_lt hlt) hle⟩

/-! ### default calls -/

theorem normT_rounded {d : DS (XF R)} (hd : Constructed d) {M : ℕ} {t : ℕ → K} (ht : d.timeseries = samples M t) :
    0 < M ∧ d.normT = (List.range M).map fun i => (XF.round (t i - t 0) : XF R) := by
  obtain ⟨t', data, err, N, hN, hb⟩ := hd.built
  have e : t' = samples M t := by rw [← hb.ht]; exact ht
  subst e
  have hM : 0 < M := by
    have := List.length_pos_iff.2 hb.tne
    simpa using this
  refine ⟨hM, ?_⟩
  rw [hb.normT, samples_head]
  unfold samples
  rw [List.map_map]
  apply List.map_congr_left
  intro i _
  show XF.round (t i + -t 0) = _
  rw [sub_eq_add_neg]

/-- slots are only allocated for finite parameters and a resolution other than zero -/
theorem lagSlots_ok {hi res : XF R} {n : ℕ} (h : lagSlots hi (Arith.neg hi) res = .ok n) :
    (∃ x, hi = .fin x) ∧ res ≠ .fin 0 := by
  unfold lagSlots at h
  have key : ∀ y : XF R, (∀ x, y ≠ .fin x) → Arith.toInt (Arith.floor y) = none := by
    intro y hy
    cases y with
    | fin x => exact absurd rfl (hy x)
    | _ => rfl
  constructor
  · by_contra hc
    have hq : ∀ x, Arith.div (Arith.sub hi (Arith.neg hi)) res ≠ .fin x := by
      intro x
      have hs : Arith.sub hi (Arith.neg hi) = hi := by
        cases hi with
        | fin x => exact absurd ⟨x, rfl⟩ hc
        | _ => rfl
      rw [hs]
      cases hi with
      | fin x => exact absurd ⟨x, rfl⟩ hc
      | nan => intro e; cases e
      | pinf =>
        cases res with
        | fin y =>
          show (if y < 0 then XF.ninf else XF.pinf : XF R) ≠ _
          split <;> simp
        | _ => intro e; cases e
      | ninf =>
        cases res with
        | fin y =>
          show (if y < 0 then XF.pinf else XF.ninf : XF R) ≠ _
          split <;> simp
        | _ => intro e; cases e
    rw [key _ hq] at h
    simp at h
  · rintro rfl
    have hq : ∀ x, Arith.div (Arith.sub hi (Arith.neg hi)) (.fin 0 : XF R) ≠ .fin x := by
      intro x
      cases Arith.sub hi (Arith.neg hi) with
      | fin y =>
        show (if (0 : K) = 0 then XF.infSign y else _ : XF R) ≠ _
        rw [if_pos rfl]
        unfold XF.infSign
        split
        · simp
        · split <;> simp
      | nan => intro e; cases e
      | pinf =>
        show (if (0 : K) < 0 then XF.ninf else XF.pinf : XF R) ≠ _
        simp
      | ninf =>
        show (if (0 : K) < 0 then XF.pinf else XF.ninf : XF R) ≠ _
        simp
    rw [key _ hq] at h
    simp at h

/-- the running minimum never increases and is never below all differences -/
theorem findMinDiff_go_le (l : List (XF R)) (acc : XF R) (hacc : acc ≠ .nan) :
    Arith.le (findMinDiff.go acc l) acc = true := by
  induction l generalizing acc with
  | nil => exact xf_le_refl hacc
  | cons x l ih =>
    cases l with
    | nil => exact xf_le_refl hacc
    | cons y l =>
      rw [findMinDiff.go]
      by_cases h : Arith.lt (Arith.sub y x) acc = true
      · rw [if_pos h]
        refine xf_le_trans (ih _ ?_) (xf_le_of_lt h)
        intro e; rw [e] at h; exact absurd h (by cases acc <;> exact Bool.false_ne_true)
      · rw [if_neg h]; exact ih _ hacc

theorem findMinDiff_go_ge (l : List (XF R)) (acc : XF R) (hacc : Arith.le (.fin 0) acc = true)
    (h : ∀ i (hi : i + 1 < l.length), Arith.le (.fin 0) (Arith.sub l[i + 1] l[i]) = true) :
    Arith.le (.fin 0) (findMinDiff.go acc l) = true := by
  induction l generalizing acc with
  | nil => exact hacc
  | cons x l ih =>
    cases l with
    | nil => exact hacc
    | cons y l =>
      rw [findMinDiff.go]
      apply ih
      · split
        · exact h 0 (by simp)
        · exact hacc
      · intro i hi
        have := h (i + 1) (by simpa using hi)
        simpa using this

/-- **C18** (any rounding): a default call on at least two times in order reports zero exactly once, and no lag outside
`[-T, T]`, where `T` is the computed span. -/
theorem C18_default_rounded_partial (hdm : 0 ≤ R.dblMax) (a : AbsFn) (d : DS (XF R)) (hd : Constructed d) (M : ℕ)
    (t : ℕ → K) (ht : d.timeseries = samples M t) (hM : 2 ≤ M) (hinc : ∀ i j, i ≤ j → j < M → t i ≤ t j)
    (α : Option (XF R)) (sel wt : String) (r : AcResult (XF R))
    (hr : autocorrelation a d { alpha := α } sel wt = .ok r) :
    r.lags.count (.fin 0) = 1 ∧
    ∀ x ∈ r.lags, Arith.le (XF.neg (XF.round (t (M - 1) - t 0))) x = true ∧
      Arith.le x (XF.round (t (M - 1) - t 0)) = true := by
  obtain ⟨hM0, hn⟩ := normT_rounded hd ht
  obtain ⟨n, L, hL, _, _, hc⟩ := autocorrelation_ok hd.wf hr
  have hlast : lastD d.normT = XF.round (t (M - 1) - t 0) := by
    rw [hn]
    unfold lastD
    rw [List.getLastD_eq_getLast?, List.getLast?_eq_getElem?]
    simp [show M - 1 < M by omega]
  have hs : ∃ n', slotsOf d.normT = .ok n' := by
    unfold acPlan at hL
    rw [Res.bind_eq_ok] at hL
    obtain ⟨n', hn', _⟩ := hL
    exact ⟨n', hn'⟩
  obtain ⟨n', hs⟩ := hs
  obtain ⟨⟨T, hT⟩, hres0⟩ := lagSlots_ok hs
  rw [hlast] at hT
  have e1 : r.corr.minLag = .fin (-T) := by
    rw [hc, setUp_fields]; simp [Corr.store, Corr.fresh, hlast, hT]
  have e2 : r.corr.maxLag = .fin T := by
    rw [hc, setUp_fields]; simp [Corr.store, Corr.fresh, hlast, hT]
  have e3 : r.corr.lagRes = findMinDiff d.normT := by
    rw [hc, setUp_fields]; rfl
  have hT0 : 0 ≤ T := by
    have := round_nonneg (R := R) (show 0 ≤ t (M - 1) - t 0 by
      have := hinc 0 (M - 1) (by omega) (by omega); linarith)
    rw [hT] at this
    simpa using this
  have hTd : (XF.round T : XF R) = .fin T := by
    have := round_isDouble (R := R) (t (M - 1) - t 0)
    rw [hT] at this
    exact this
  have hTn : (XF.round (-T) : XF R) = .fin (-T) := by
    rw [round_neg, hTd]; rfl
  -- the normalised times are finite and in order
  have hu : ∀ i, i < M → ∃ u : K, (XF.round (t i - t 0) : XF R) = .fin u ∧ u ≤ T := by
    intro i hi
    have h1 := round_nonneg (R := R) (show 0 ≤ t i - t 0 by
      have := hinc 0 i (by omega) hi; linarith)
    have h2 := round_mono (R := R) (show t i - t 0 ≤ t (M - 1) - t 0 by
      have := hinc i (M - 1) (by omega) (by omega); linarith)
    rw [hT] at h2
    cases h : (XF.round (t i - t 0) : XF R) with
    | nan => exact absurd h (round_ne_nan _)
    | ninf => rw [h] at h1; exact absurd h1 Bool.false_ne_true
    | pinf => rw [h] at h2; exact absurd h2 Bool.false_ne_true
    | fin u =>
      rw [h] at h2
      exact ⟨u, rfl, by simpa [XF.le] using h2⟩
  have hsub : ∀ i, i + 1 < M →
      Arith.le (.fin 0) (Arith.sub (XF.round (t (i + 1) - t 0)) (XF.round (t i - t 0)) : XF R) = true := by
    intro i hi
    obtain ⟨u, hu1, _⟩ := hu i (by omega)
    obtain ⟨v, hv1, _⟩ := hu (i + 1) hi
    have h2 := round_mono (R := R) (show t i - t 0 ≤ t (i + 1) - t 0 by
      have := hinc i (i + 1) (by omega) hi; linarith)
    rw [hu1, hv1] at h2
    rw [hu1, hv1]
    have h3 : u ≤ v := by simpa [XF.le] using h2
    exact round_nonneg (show 0 ≤ v + -u by linarith)
  have hge : Arith.le (.fin 0) (findMinDiff d.normT) = true := by
    apply findMinDiff_go_ge
    · show XF.le (.fin 0) (.fin R.dblMax) = true
      simpa [XF.le] using hdm
    · intro i hi
      simp only [hn, List.length_map, List.length_range] at hi
      simp only [hn, List.getElem_map, List.getElem_range]
      exact hsub i hi
  have hle : Arith.le (findMinDiff d.normT) (.fin T) = true := by
    obtain ⟨M', rfl⟩ : ∃ M', M = M' + 2 := ⟨M - 2, by omega⟩
    obtain ⟨v, hv1, hv2⟩ := hu 1 (by omega)
    have hv : (XF.round v : XF R) = .fin v := by
      have := round_isDouble (R := R) (t 1 - t 0)
      rw [hv1] at this
      exact this
    have hfirst : ∃ l, d.normT = .fin 0 :: .fin v :: l := by
      rw [hn, List.range_succ_eq_map, List.range_succ_eq_map]
      simp only [List.map_cons, sub_self, round_zero, Nat.succ_eq_add_one, zero_add, hv1]
      exact ⟨_, rfl⟩
    obtain ⟨l, hl⟩ := hfirst
    have hgap : Arith.sub (.fin v : XF R) (.fin 0) = .fin v := by
      show XF.round (v + -0) = _
      rw [neg_zero, add_zero, hv]
    rw [hl]
    show Arith.le (findMinDiff.go _ _) _ = true
    rw [findMinDiff.go, hgap]
    have hvT : Arith.le (.fin v : XF R) (.fin T) = true := by simpa using hv2
    by_cases h : Arith.lt (.fin v : XF R) Arith.dblMax = true
    · rw [if_pos h]
      exact xf_le_trans (findMinDiff_go_le _ _ (by simp)) hvT
    · rw [if_neg h]
      refine xf_le_trans (findMinDiff_go_le _ _ (by show (.fin R.dblMax : XF R) ≠ _; simp)) ?_
      have h' : ¬ v < R.dblMax := by simpa [Arith.dblMax, Arith.lt, XF.lt] using h
      show XF.le (.fin R.dblMax) (.fin T) = true
      simp only [XF.le, decide_eq_true_eq]
      linarith
  have hpos : Arith.lt (.fin 0) (findMinDiff d.normT) = true := xf_lt_of_le_ne hge (Ne.symm hres0)
  obtain ⟨ρ, hρ⟩ : ∃ ρ, findMinDiff d.normT = .fin ρ := by
    cases h : findMinDiff d.normT with
    | nan => rw [h] at hle; exact absurd hle Bool.false_ne_true
    | ninf => rw [h] at hge; exact absurd hge Bool.false_ne_true
    | pinf => rw [h] at hle; exact absurd hle Bool.false_ne_true
    | fin ρ => exact ⟨ρ, rfl⟩
  rw [hρ] at hle hpos e3
  have hρT : ρ ≤ T := by simpa using hle
  have hon : (.fin (-T) : XF R).OnGrid := ⟨hTn, rfl⟩
  have := C18_rounded_partial a d hd _ sel wt r hr (by rw [e1]; exact hTn) (by rw [e1]; rfl)
    (by rw [e1]; simpa using hT0) (by rw [e3]; exact hpos) (by
      obtain ⟨m, hg, _⟩ := result_lags hd.wf hr
      rw [e1, e2, e3] at hg ⊢
      have hex : ∃ n, Arith.le (.fin 0) (gridPt (.fin (-T) : XF R) (.fin ρ) n) = true := by
        refine ⟨m, ?_⟩
        have h1 := (gridPt_onGrid hon hpos m).2
        have h2 := hg.2
        cases h : gridPt (.fin (-T) : XF R) (.fin ρ) m with
        | nan => rw [h] at h1; exact absurd h1 Bool.false_ne_true
        | ninf => rw [h] at h1; exact absurd h1 Bool.false_ne_true
        | pinf => rfl
        | fin x =>
          rw [h] at h2
          simp only [xf_le, decide_eq_false_iff_not, decide_eq_true_eq] at h2 ⊢
          linarith
      classical
      refine ⟨Nat.find hex, Nat.find_spec hex, ?_⟩
      cases hf : Nat.find hex with
      | zero =>
        show Arith.le (.fin (-T) : XF R) (.fin T) = true
        simp only [xf_le, decide_eq_true_eq]
        linarith
      | succ p =>
        have hp := Nat.find_min hex (show p < Nat.find hex by omega)
        rw [gridPt_succ']
        have h1 := (gridPt_onGrid hon hpos p).2
        cases h : gridPt (.fin (-T) : XF R) (.fin ρ) p with
        | nan => rw [h] at h1; exact absurd h1 Bool.false_ne_true
        | ninf => rw [h] at h1; exact absurd h1 Bool.false_ne_true
        | pinf => rw [h] at hp; exact absurd rfl hp
        | fin x =>
          rw [h] at hp
          simp only [xf_le, decide_eq_true_eq, not_le] at hp
          have := round_mono (R := R) (show x + ρ ≤ T by linarith)
          rw [hTd] at this
          exact this)
  rw [e1, e2] at this
  rw [hT]
  exact this

end rounded

/-- times `0, 1/10, 2/10, 3/10` as doubles: the lags of a default call -/
example : ((mkFlat (b [0, 1/10, 2/10, 3/10]) (b [1, 2, 4, 3])).bind fun d =>
    (autocorrelation .fabs d {}).bind fun r => .ok (r.lags.length, r.lags.count (.fin 0))) = .ok (8, 1) := by
  decide +kernel

end Sacf
