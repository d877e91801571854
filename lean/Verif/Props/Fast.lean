import Verif.Props.Acf
import Verif.Props.LagGrid

/-!
# Fast selection (C36)

What `selection_function="fast"` computes, for strictly increasing times, a floating-point `abs` and exact arithmetic.
-/

set_option linter.unusedSectionVars false
set_option linter.unusedSimpArgs false

namespace Sacf

section lawfree
open Arith
variable {F : Type} [Arith F]

/-- fast selection either succeeds with indices in range or raises `IndexError` -/
theorem planFast_cases {nt : List F} (hne : nt ≠ []) (k : F) :
    (∃ s, planFast .fabs nt k = .ok s ∧ ∀ j ∈ s, j < nt.length) ∨ planFast .fabs nt k = .exn .indexError := by
  unfold planFast
  cases hs : shiftedFast nt k with
  | nil => left; exact ⟨[], rfl, by simp⟩
  | cons s rest =>
    obtain ⟨r, h1, h2⟩ := lowerBound_spec nt s
    simp only [fastFirst, h1, Res.ok_bind]
    by_cases hr : r + 1 < nt.length
    · left
      rw [atGet_of_lt hr, atGet_of_lt (show r < nt.length by omega)]
      simp only [Res.ok_bind, AbsFn.app]
      refine ⟨_, rfl, ?_⟩
      intro j hj
      have hle := shiftedFast_length_le nt k
      rw [hs, List.length_cons] at hle
      unfold fastFill at hj
      have := List.length_pos_iff.2 hne
      obtain ⟨i, hi, hj⟩ := List.mem_map.1 hj
      split at hj <;> split at hj <;> omega
    · right
      rw [atGet_of_ge (by omega)]
      rfl

theorem lagPlan_fast_cases {nt : List F} (hne : nt ≠ []) {wt : String} (hw : KnownWeight wt) (alpha k : F) :
    (∃ ps, lagPlan .fabs "fast" wt nt alpha k = .ok ps) ∨ lagPlan .fabs "fast" wt nt alpha k = .exn .indexError := by
  obtain ⟨w, hw⟩ := planWt_known (F := F) hw
  unfold lagPlan planSel
  rw [if_pos rfl]
  rcases planFast_cases hne k with ⟨s, h1, h2⟩ | h1
  · left
    rw [h1]
    simp only [Res.ok_bind]
    rw [planDelta_fabs h2, hw]
    exact ⟨_, rfl⟩
  · right; rw [h1]; rfl

theorem mapL_cases {α β : Type} {f : α → Res β} {l : List α} {e : Exc}
    (h : ∀ x ∈ l, (∃ y, f x = .ok y) ∨ f x = .exn e) :
    (∃ ys, Res.mapL f l = .ok ys ∧ ∀ x ∈ l, ∃ y, f x = .ok y) ∨ (Res.mapL f l = .exn e ∧ ∃ x ∈ l, f x = .exn e) := by
  induction l with
  | nil => left; exact ⟨[], rfl, by simp⟩
  | cons x xs ih =>
    rcases h x (by simp) with ⟨y, hy⟩ | hx
    · rcases ih (fun z hz => h z (by simp [hz])) with ⟨ys, h1, h2⟩ | ⟨h1, z, hz, h2⟩
      · left
        refine ⟨y :: ys, by rw [Res.mapL_cons, hy, h1]; rfl, ?_⟩
        intro z hz
        rcases List.mem_cons.1 hz with rfl | hz
        · exact ⟨y, hy⟩
        · exact h2 z hz
      · right
        exact ⟨by rw [Res.mapL_cons, hy, h1]; rfl, z, by simp [hz], h2⟩
    · right
      exact ⟨by rw [Res.mapL_cons, hx]; rfl, x, by simp, hx⟩

/-- outcome of a call with fast selection when the lags fit into the buffers -/
theorem fast_outcome {d : DS F} (hd : Constructed d) (g : LagArgs F) {wt : String} (hw : KnownWeight wt)
    {c0 : Corr F} (hc : Corr.new d = .ok c0) {m : ℕ}
    (hm : GridCount (g.minLag.getD c0.minLag) (g.maxLag.getD c0.maxLag) (g.lagRes.getD c0.lagRes) m)
    (hfit : lagTotal (g.minLag.getD c0.minLag) (g.lagRes.getD c0.lagRes) m ≤ c0.lagTimeseries.length) :
    ∃ l, IsLagList (g.minLag.getD c0.minLag) (g.lagRes.getD c0.lagRes) m l ∧
      ((autocorrelation .fabs d g "fast" wt = .exn .indexError ∧
          ∃ k ∈ l, lagPlan .fabs "fast" wt d.normT (g.alpha.getD c0.alpha) k = .exn .indexError) ∨
        ((∀ k ∈ l, ∃ ps, lagPlan .fabs "fast" wt d.normT (g.alpha.getD c0.alpha) k = .ok ps) ∧
          ((l = [] ∧ autocorrelation .fabs d g "fast" wt = .exn .unboundLocal) ∨
            ∃ r, autocorrelation .fabs d g "fast" wt = .ok r ∧ r.lags = l))) := by
  obtain ⟨n, hn, rfl, _⟩ := corrNew_good hd.wf hc
  have e1 : (Corr.fresh d n).minLag = neg (lastD d.normT) := rfl
  have e2 : (Corr.fresh d n).maxLag = lastD d.normT := rfl
  have e3 : (Corr.fresh d n).lagRes = findMinDiff d.normT := rfl
  have e4 : (Corr.fresh d n).alpha = d.tMedian := rfl
  have e5 : (Corr.fresh d n).lagTimeseries.length = n := by simp [Corr.fresh, Corr.lagTimeseries]
  rw [e1, e2, e3] at hm
  rw [e1, e3, e5] at hfit
  rw [e1, e3, e4, autocorrelation_plan .fabs hd.wf, acPlan, hn]
  simp only [Res.ok_bind]
  generalize g.alpha.getD d.tMedian = al at *
  generalize g.minLag.getD (neg (lastD d.normT)) = lo at *
  generalize g.maxLag.getD (lastD d.normT) = hi at *
  generalize g.lagRes.getD (findMinDiff d.normT) = res at *
  have hmn : m ≤ n := le_trans (by unfold lagTotal; omega) hfit
  have hlist := lagsUpTo_false hm (show m < n + 1 by omega)
  have hlen : (lagsUpTo hi res (n + 1) lo false).length ≤ n := lags_fit_iff.2 ⟨m, hm, hfit⟩
  refine ⟨lagsUpTo hi res (n + 1) lo false, hlist, ?_⟩
  unfold planRun
  rw [List.take_of_length_le (by omega)]
  have hcases := mapL_cases (f := lagPlan' .fabs "fast" wt d.normT al) (l := lagsUpTo hi res (n + 1) lo false)
    (e := .indexError) (fun k _ => by
      unfold lagPlan'
      rcases lagPlan_fast_cases hd.wf.ne hw al k with ⟨ps, h⟩ | h
      · left; rw [h]; exact ⟨_, rfl⟩
      · right; rw [h]; rfl)
  rcases hcases with ⟨L, hL, hall⟩ | ⟨hL, k, hk, hbad⟩
  · right
    have hall' : ∀ k ∈ lagsUpTo hi res (n + 1) lo false, ∃ ps, lagPlan .fabs "fast" wt d.normT al k = .ok ps := by
      intro k hk
      obtain ⟨y, hy⟩ := hall k hk
      unfold lagPlan' at hy
      rw [Res.bind_eq_ok] at hy
      obtain ⟨ps, hps, _⟩ := hy
      exact ⟨ps, hps⟩
    refine ⟨hall', ?_⟩
    have hrun : planRun .fabs "fast" wt d.normT al lo hi res n = .ok L := by
      unfold planRun
      rw [List.take_of_length_le (by omega), hL]
      simp only [Res.ok_bind]
      rw [if_pos hlen]
    have hfst := (planRun_lags hrun).1
    rw [hL]
    simp only [Res.ok_bind]
    rw [if_pos hlen]
    simp only [Res.ok_bind]
    have hns : (("fast" : String) == "natural" && wt == "fractional") = false := by
      have : (("fast" : String) == "natural") = false := by decide
      rw [this]; rfl
    rw [hns]
    cases hLe : L.isEmpty with
    | true =>
      left
      have : L = [] := by simpa using hLe
      subst this
      exact ⟨by simpa using hfst.symm, rfl⟩
    | false =>
      right
      have hN : 0 < d.N := hd.wf.npos
      obtain ⟨out, ho, _⟩ := corrOut_ok (rs := (List.range d.N).map (d.acRow L)) (by simpa using hN)
      simp only [Bool.not_false, Bool.and_true, Bool.false_eq_true, if_false, Res.ok_bind, ho]
      exact ⟨_, rfl, hfst⟩
  · left
    rw [hL]
    refine ⟨rfl, k, hk, ?_⟩
    unfold lagPlan' at hbad
    rcases lagPlan_fast_cases hd.wf.ne hw al k with ⟨ps, h⟩ | h
    · rw [h] at hbad; simp at hbad
    · exact h

end lawfree

section exact
open Finset
variable {K : Type} [Field K] [LinearOrder K] [IsStrictOrderedRing K] [FloorRing K]
variable {dm : K} {f32 ex : K → K}
variable {d : DS (Exact dm f32 ex)} {g : LagArgs (Exact dm f32 ex)} {wt : String} {r : AcResult (Exact dm f32 ex)}
  {M : ℕ} {t : ℕ → K} {j : ℕ} {x : ℕ → K} {α : K}

local notation "E" => XF (Rnd.exact dm f32 ex)

theorem shiftedFast_samples {u : ℕ → K} (hM : 0 < M) (hu : Increasing M u) (k : K) :
    ∃ n, ShiftedCount M u k n ∧ shiftedFast (samples M u : List E) (.fin k) = samples n (fun i => u i + k) := by
  obtain ⟨m, hm, h1, h2⟩ := takeWhile_range (fun s => !Arith.le (.fin (u (M - 1)) : E) s)
    (fun i => (.fin (u i + k) : E)) M (by
      intro i j hij hj h
      have := hu.le hij hj
      simp at h ⊢
      linarith)
  refine ⟨m, ⟨hm, fun i hi => ?_⟩, ?_⟩
  · rw [h2 i hi]; simp
  · unfold shiftedFast
    rw [samples_last hM]
    unfold samples
    rw [List.map_map]
    exact h1

theorem ShiftedCount.unique {u : ℕ → K} {k : K} {n n' : ℕ} (h : ShiftedCount M u k n) (h' : ShiftedCount M u k n') :
    n = n' := by
  rcases Nat.lt_trichotomy n n' with hl | hl | hl
  · have a := (h'.2 n (by have := h'.1; omega)).1 hl
    have := (h.2 n (by have := h'.1; omega)).2 a
    omega
  · exact hl
  · have a := (h.2 n' (by have := h.1; omega)).1 hl
    have := (h'.2 n' (by have := h.1; omega)).2 a
    omega

theorem FirstFrom.unique {u : ℕ → K} {k : K} {b b' : ℕ} (h : FirstFrom M u k b) (h' : FirstFrom M u k b') : b = b' := by
  rcases Nat.lt_trichotomy b b' with hl | hl | hl
  · exact absurd h.2.1 (not_le.2 (h'.2.2 b hl))
  · exact hl
  · exact absurd h'.2.1 (not_le.2 (h.2.2 b' hl))

/-- `lower_bound` of a value not beyond the last time -/
theorem lowerBound_first {u : ℕ → K} (hM : 0 < M) (hu : Increasing M u) {k : K} (hk : u 0 + k ≤ u (M - 1)) :
    ∃ b, lowerBound (samples M u : List E) (.fin (u 0 + k)) = .ok b ∧ FirstFrom M u k b := by
  have hlast : Arith.lt (lastD (samples M u : List E)) (.fin (u 0 + k)) = false := by
    rw [samples_last hM]; simpa using hk
  obtain ⟨b, h1, h2, h3⟩ := lowerBound_lt (samples_ne_nil hM) hlast
  rw [samples_length] at h2 h3
  refine ⟨b, h1, h3, ?_, ?_⟩
  · obtain ⟨x, hx, hl⟩ := h2.above h3
    rw [samples_getElem? h3] at hx
    simp at hx; subst hx
    simpa using hl
  · intro i hi
    obtain ⟨x, hx, hl⟩ := h2.below (by omega)
    rw [samples_getElem? (by omega)] at hx
    simp at hx; subst hx
    have := hu.le (show i ≤ b - 1 by omega) (by omega)
    simp at hl
    linarith

/-- what fast selection does with one lag -/
theorem lagPlan_fast {u : ℕ → K} (hM : 0 < M) (hu : Increasing M u) (hw : KnownWeight wt) (hα : 0 < α) (k : K) :
    (u (M - 1) ≤ u 0 + k → lagPlan .fabs "fast" wt (samples M u : List E) (.fin α) (.fin k) = .ok []) ∧
    (u 0 + k < u (M - 1) → (M = 1 ∨ u (M - 2) < u 0 + k) →
      lagPlan .fabs "fast" wt (samples M u : List E) (.fin α) (.fin k) = .exn .indexError) ∧
    (2 ≤ M → u 0 + k ≤ u (M - 2) → ∃ b n, FirstFrom M u k b ∧ b + 1 < M ∧ ShiftedCount M u k n ∧ 0 < n ∧
      lagPlan .fabs "fast" wt (samples M u : List E) (.fin α) (.fin k)
        = .ok ((List.range n).map fun i => (.fin (weight ex wt α |u (if b + i < n then b + i else 0) - (u i + k)|),
            if b + i < n then b + i else 0))) := by
  obtain ⟨n, hn, hsh⟩ := shiftedFast_samples (dm := dm) (f32 := f32) (ex := ex) hM hu k
  obtain ⟨w, hw1, hw2⟩ := planWt_weight (dm := dm) (f32 := f32) (ex := ex) hw hα
  have hn0 : 0 < n ↔ u 0 + k < u (M - 1) := hn.2 0 hM
  refine ⟨?_, ?_, ?_⟩
  · intro h
    have : n = 0 := by
      by_contra hc
      have := hn0.1 (by omega)
      linarith
    subst this
    unfold lagPlan planSel planFast
    rw [if_pos rfl, hsh, hw1]
    simp [samples, planDelta]
  · intro h h'
    have hpos := hn0.2 h
    obtain ⟨b, hb, hf⟩ := lowerBound_first (dm := dm) (f32 := f32) (ex := ex) hM hu h.le
    have hbM : b = M - 1 := by
      by_contra hc
      have := hf.1
      rcases h' with h' | h'
      · omega
      · have := hu.le (show b ≤ M - 2 by omega) (by omega)
        have := hf.2.1
        linarith
    unfold lagPlan planSel planFast
    rw [if_pos rfl, hsh]
    obtain ⟨n', rfl⟩ : ∃ n', n = n' + 1 := ⟨n - 1, by omega⟩
    unfold samples at hb ⊢
    rw [List.range_succ_eq_map, List.map_cons]
    simp only [fastFirst, hb, Res.ok_bind]
    rw [atGet_of_ge (by simp; omega)]
    rfl
  · intro h2 h
    have hlt : u 0 + k < u (M - 1) := lt_of_le_of_lt h (hu _ _ (by omega) (by omega))
    have hpos := hn0.2 hlt
    obtain ⟨b, hb, hf⟩ := lowerBound_first (dm := dm) (f32 := f32) (ex := ex) hM hu hlt.le
    have hbM : b + 1 < M := by
      by_contra hc
      have := hf.2.2 (M - 2) (by omega)
      linarith
    refine ⟨b, n, hf, hbM, hn, hpos, ?_⟩
    have hfirst : fastFirst .fabs (samples M u : List E) (.fin (u 0 + k)) = .ok b := by
      unfold fastFirst
      rw [hb]
      simp only [Res.ok_bind]
      have a1 : atGet (samples M u : List E) (b + 1) = .ok (.fin (u (b + 1))) := by
        rw [atGet_eq_ok, samples_getElem? hbM]
      have a2 : atGet (samples M u : List E) b = .ok (.fin (u b)) := by
        rw [atGet_eq_ok, samples_getElem? hf.1]
      rw [a1, a2]
      simp only [Res.ok_bind, AbsFn.app, ex_sub, xf_fabs, xf_lt]
      have := hu b (b + 1) (by omega) hbM
      have h3 := hf.2.1
      rw [abs_of_nonpos (by linarith), abs_of_nonpos (by linarith), decide_eq_false (by linarith)]
      simp
    have hplan : planFast .fabs (samples M u : List E) (.fin k) = .ok (fastFill n b) := by
      unfold planFast
      rw [hsh]
      obtain ⟨n', rfl⟩ : ∃ n', n = n' + 1 := ⟨n - 1, by omega⟩
      have e : (samples (n' + 1) (fun i => u i + k) : List E)
          = .fin (u 0 + k) :: (List.range n').map fun i => .fin (u (i + 1) + k) := by
        unfold samples
        rw [List.range_succ_eq_map, List.map_cons, List.map_map]
        rfl
      rw [e]
      simp only [hfirst, Res.ok_bind, List.length_map, List.length_range]
    unfold lagPlan planSel
    rw [if_pos rfl, hplan]
    simp only [Res.ok_bind]
    have hbound : ∀ s ∈ fastFill n b, s < (samples M u : List E).length := by
      intro s hs
      obtain ⟨i, hi, rfl⟩ := List.mem_map.1 hs
      have := hn.1
      rw [samples_length]
      split <;> omega
    rw [planDelta_fabs hbound, hw1, hsh]
    simp only [Res.ok_bind]
    congr 1
    apply List.ext_getElem
    · simp [samples, fastFill]
    · intro i hi1 hi2
      have hi : i < n := by simpa using hi2
      simp only [List.getElem_zip, List.getElem_map, List.getElem_range, samples, fastFill]
      have e : (if i + b < n then b + i else 0) = if b + i < n then b + i else 0 := by rw [Nat.add_comm i b]
      rw [e, Prod.mk.injEq]
      refine ⟨?_, rfl⟩
      have hidx : (if b + i < n then b + i else 0) < M := by have := hn.1; split <;> omega
      have := samples_getD (R := Rnd.exact dm f32 ex) (f := u) hidx (Arith.zero)
      unfold samples at this
      rw [this]
      simp only [ex_sub, xf_fabs]
      exact hw2 _ (abs_nonneg _)

/-! ## when it raises -/

/-- **C36**: with strictly increasing times and lags that fit into the buffers, `autocorrelation` with fast selection
raises `IndexError` exactly when some lag of the grid lies strictly between the last two times (counted from the first
time); otherwise it returns (if any lag is due at all). -/
theorem C36_raises_iff_partial (hd : Constructed d) (ht : d.timeseries = samples M t) (hinc : Increasing M t) (hM : 2 ≤ M)
    (hw : KnownWeight wt) {c0 : Corr (Exact dm f32 ex)} (hc : Corr.new d = .ok c0) {lo hi res : K}
    (hlo : g.minLag.getD c0.minLag = .fin lo) (hhi : g.maxLag.getD c0.maxLag = .fin hi)
    (hres : g.lagRes.getD c0.lagRes = .fin res) (hpos : 0 < res)
    (hα : g.alpha.getD c0.alpha = .fin α) (hα0 : 0 < α) {m : ℕ}
    (hm : GridCount (.fin lo : Exact dm f32 ex) (.fin hi) (.fin res) m)
    (hfit : lagTotal (.fin lo : Exact dm f32 ex) (.fin res) m ≤ c0.lagTimeseries.length) :
    (autocorrelation .fabs d g "fast" wt = .exn .indexError ↔
      ∃ n : ℕ, lo + n * res ≤ hi ∧ t (M - 2) - t 0 < lo + n * res ∧ lo + n * res < t (M - 1) - t 0) ∧
    (lo ≤ hi → (¬ ∃ n : ℕ, lo + n * res ≤ hi ∧ t (M - 2) - t 0 < lo + n * res ∧ lo + n * res < t (M - 1) - t 0) →
      ∃ r, autocorrelation .fabs d g "fast" wt = .ok r) := by
  obtain ⟨_, hnt, _⟩ := built_times hd ht
  have hu := hinc.sub_const (t 0)
  obtain ⟨l, hl, hout⟩ := fast_outcome (g := g) hd hw hc (m := m) (by rw [hlo, hhi, hres]; exact hm)
    (by rw [hlo, hres]; exact hfit)
  rw [hlo, hres] at hl
  rw [hα, hnt] at hout
  obtain ⟨ks, rfl, _, hks⟩ := lagList_exact hpos hm hl
  have hbad : ∀ k : K, t (M - 2) - t 0 < k → k < t (M - 1) - t 0 →
      lagPlan .fabs "fast" wt (samples M (fun i => t i - t 0) : List E) (.fin α) (.fin k) = .exn .indexError := by
    intro k h1 h2
    refine (lagPlan_fast (by omega) hu hw hα0 k).2.1 ?_ (Or.inr ?_)
    · simpa using h2
    · simpa using h1
  have hgood : ∀ k : K, ¬ (t (M - 2) - t 0 < k ∧ k < t (M - 1) - t 0) →
      ∃ ps, lagPlan .fabs "fast" wt (samples M (fun i => t i - t 0) : List E) (.fin α) (.fin k) = .ok ps := by
    intro k h
    by_cases h1 : t (M - 2) - t 0 < k
    · have h2 : t (M - 1) - t 0 ≤ k := by
        by_contra hc'
        exact h ⟨h1, not_le.1 hc'⟩
      exact ⟨[], (lagPlan_fast (by omega) hu hw hα0 k).1 (by simpa using h2)⟩
    · push Not at h1
      obtain ⟨b, n, _, _, _, _, h4⟩ := (lagPlan_fast (dm := dm) (f32 := f32) (ex := ex) (by omega) hu hw hα0 k).2.2 hM
        (by simpa using h1)
      exact ⟨_, h4⟩
  have hzero : ¬ (t (M - 2) - t 0 < 0 ∧ 0 < t (M - 1) - t 0) := by
    rintro ⟨h1, _⟩
    have := hinc.le (show 0 ≤ M - 2 by omega) (by omega)
    linarith
  have hiff : (∃ k ∈ ks.map (XF.fin : K → E), lagPlan .fabs "fast" wt (samples M (fun i => t i - t 0) : List E) (.fin α) k
      = .exn .indexError) ↔
      ∃ n : ℕ, lo + n * res ≤ hi ∧ t (M - 2) - t 0 < lo + n * res ∧ lo + n * res < t (M - 1) - t 0 := by
    constructor
    · rintro ⟨_, hk, hb⟩
      obtain ⟨k, hk', rfl⟩ := List.mem_map.1 hk
      have hin : t (M - 2) - t 0 < k ∧ k < t (M - 1) - t 0 := by
        by_contra hc'
        obtain ⟨ps, hps⟩ := hgood k hc'
        rw [hps] at hb; simp at hb
      rcases (hks k).1 hk' with ⟨n, rfl, hle⟩ | ⟨rfl, _⟩
      · exact ⟨n, hle, hin.1, hin.2⟩
      · exact absurd hin hzero
    · rintro ⟨n, h1, h2, h3⟩
      exact ⟨.fin (lo + n * res), List.mem_map_of_mem ((hks _).2 (Or.inl ⟨n, rfl, h1⟩)), hbad _ h2 h3⟩
  rw [← hiff]
  rcases hout with ⟨h1, h2⟩ | ⟨h1, h2⟩
  · exact ⟨⟨fun _ => h2, fun _ => h1⟩, fun _ h => absurd h2 h⟩
  · refine ⟨⟨fun h => ?_, fun ⟨k, hk, hb⟩ => ?_⟩, fun hle _ => ?_⟩
    · rcases h2 with ⟨_, h2⟩ | ⟨r, h2, _⟩ <;> rw [h2] at h <;> simp at h
    · obtain ⟨ps, hps⟩ := h1 k hk
      rw [hps] at hb; simp at hb
    · rcases h2 with ⟨h2, _⟩ | ⟨r, h2, _⟩
      · have : lo ∈ ks := (hks lo).2 (Or.inl ⟨0, by simp, hle⟩)
        simp at h2; subst h2; simp at this
      · exact ⟨r, h2⟩

/-- the default call raises on the three times 0, 1, 3 -/
example : ((mkFlat (q [0, 1, 3]) (q [1, 2, 6])).bind fun d =>
    acOut .fabs d {} "fast" "fractional") = .exn .indexError := by decide +kernel
/-- and returns on 0, 2, 3 -/
example : ((mkFlat (q [0, 2, 3]) (q [1, 2, 6])).bind fun d => acOut .fabs d {} "fast" "fractional")
    = .ok (q [-3, -2, -1, 0, 1, 2, 3], .flat (q [2/5, 1/2, 2/3, 5/14, 4/21, 1/7, 0])) := by decide +kernel

/-! ## what it returns -/

/-- **C36**: the value returned for a lag not above the last time but one: the sample matched with the first shifted
time is the first one at or after it (never the nearer earlier one), the others follow consecutively, and the samples
for which that would pass the number of shifted times are matched with sample 0. -/
theorem C36_formula_partial (h : FastRun d g wt r M t j x α) (hf : ∀ i < M, f32 (x i) = x i) (hv : sumSq M x ≠ 0)
    (n : ℕ) (k : K) (hn : r.lags[n]? = some (.fin k)) (hM : 2 ≤ M) (hk : t 0 + k ≤ t (M - 2)) :
    ∃ b c, FirstFrom M t k b ∧ ShiftedCount M t k c ∧ 0 < c ∧
      r.At j n (.fin k) (.fin (fastAcf M t x (weight ex wt α) b c (sumSq M x) k)) := by
  obtain ⟨hM0, hnt, _⟩ := built_times h.built h.times
  obtain ⟨ps, h1, h2⟩ := result_at h.built h.run h.row hn
  rw [h.alpha, hnt] at h1
  obtain ⟨b, c, hb, hbM, hc, hc0, hp⟩ := (lagPlan_fast (dm := dm) (f32 := f32) (ex := ex) hM0
    (h.inc.sub_const (t 0)) h.wt_known h.alpha_pos k).2.2 hM (by linarith)
  rw [hp] at h1
  simp only [Res.ok.injEq] at h1
  subst h1
  refine ⟨b, c, ⟨hb.1, ?_, ?_⟩, ⟨hc.1, ?_⟩, hc0, ?_⟩
  · have := hb.2.1; simp only at this; linarith
  · intro i hi; have := hb.2.2 i hi; simp only at this; linarith
  · intro i hi
    rw [hc.2 i hi]
    constructor <;> intro h <;> linarith
  · have e : sumSq M x = ∑ i ∈ range M, (f32 (x i) - mean M x) ^ 2 := (narrowed_eq hf).symm
    rw [dev_samples hM0, meanOf_samples hM0, normOfRow_samples, ← e,
      corrValue_samples hc.1 _ _ _ (fun i hi => by have := hc.1; split <;> omega) hv] at h2
    have e2 : (∑ i ∈ range c, weight ex wt α |t (if b + i < c then b + i else 0) - t 0 - (t i - t 0 + k)|
        * dev M x i * dev M x (if b + i < c then b + i else 0)) / sumSq M x
        = fastAcf M t x (weight ex wt α) b c (sumSq M x) k := by
      unfold fastAcf
      congr 1
      apply Finset.sum_congr rfl
      intro i _
      have e3 : ∀ s, t s - t 0 - (t i - t 0 + k) = t s - (t i + k) := fun s => by ring
      rw [e3]
    rw [e2] at h2
    exact h2

/-- **C36**: at and beyond the last time the value is 0. -/
theorem C36_beyond_partial (h : FastRun d g wt r M t j x α) (hf : ∀ i < M, f32 (x i) = x i) (hv : sumSq M x ≠ 0)
    (n : ℕ) (k : K) (hn : r.lags[n]? = some (.fin k)) (hk : t (M - 1) ≤ t 0 + k) : r.At j n (.fin k) (.fin 0) := by
  obtain ⟨hM0, hnt, _⟩ := built_times h.built h.times
  obtain ⟨ps, h1, h2⟩ := result_at h.built h.run h.row hn
  rw [h.alpha, hnt, (lagPlan_fast (dm := dm) (f32 := f32) (ex := ex) hM0
    (h.inc.sub_const (t 0)) h.wt_known h.alpha_pos k).1 (by linarith)] at h1
  simp only [Res.ok.injEq] at h1
  subst h1
  have e : sumSq M x = ∑ i ∈ range M, (f32 (x i) - mean M x) ^ 2 := (narrowed_eq hf).symm
  have := corrValue_samples (dm := dm) (f32 := f32) (ex := ex) (Nat.zero_le M) (dev M x) (fun _ => 0) (fun _ => 0)
    (by simp) hv
  rw [dev_samples hM0, meanOf_samples hM0, normOfRow_samples, ← e] at h2
  simp only [List.range_zero, List.map_nil] at this
  rw [this] at h2
  simpa using h2

/-- **C36**: at every negative lag each sample is paired with itself, so the value is just the weight of the lag. -/
theorem C36_negative_lag_partial (h : FastRun d g wt r M t j x α) (hf : ∀ i < M, f32 (x i) = x i) (hv : sumSq M x ≠ 0)
    (n : ℕ) (k : K) (hn : r.lags[n]? = some (.fin k)) (hM : 2 ≤ M) (hk : k < 0) :
    r.At j n (.fin k) (.fin (weight ex wt α |k|)) := by
  have h0 : t 0 ≤ t (M - 2) := h.inc.le (by omega) (by omega)
  obtain ⟨b, c, hb, hc, _, hat⟩ := C36_formula_partial h hf hv n k hn hM (by linarith)
  have hb0 : b = 0 := by
    by_contra hne
    have := hb.2.2 0 (by omega)
    linarith
  have hcM : c = M := by
    have h1 := hc.1
    have := (hc.2 (M - 1) (by omega)).2 (by linarith)
    omega
  subst hb0 hcM
  have e : fastAcf c t x (weight ex wt α) 0 c (sumSq c x) k = weight ex wt α |k| := by
    unfold fastAcf
    rw [div_eq_iff hv]
    unfold sumSq
    rw [Finset.mul_sum]
    apply Finset.sum_congr rfl
    intro i hi
    have hi := Finset.mem_range.1 hi
    rw [Nat.zero_add, if_pos hi]
    have : t i - (t i + k) = -k := by ring
    rw [this, abs_neg]
    ring
  rwa [e] at hat

/-- **C36**: the value at lag zero omits the last sample, so it is 1 only if that sample has the mean value. -/
theorem C36_zero_lag_partial (h : FastRun d g wt r M t j x α) (hf : ∀ i < M, f32 (x i) = x i) (hv : sumSq M x ≠ 0)
    (he : wt = "gaussian" → ex 0 = 1) (n : ℕ) (hn : r.lags[n]? = some (.fin 0)) (hM : 2 ≤ M) :
    r.At j n (.fin 0) (.fin (1 - dev M x (M - 1) ^ 2 / sumSq M x)) := by
  have h0 : t 0 ≤ t (M - 2) := h.inc.le (by omega) (by omega)
  obtain ⟨b, c, hb, hc, _, hat⟩ := C36_formula_partial h hf hv n 0 hn hM (by linarith)
  have hb0 : b = 0 := by
    by_contra hne
    have := hb.2.2 0 (by omega)
    linarith
  have hcM : c = M - 1 := by
    have h1 := hc.1
    have a1 := hc.2 (M - 1) (by omega)
    have a2 := (hc.2 (M - 2) (by omega)).2 (by have := h.inc (M - 2) (M - 1) (by omega) (by omega); linarith)
    have : ¬ M - 1 < c := fun hl => by have := a1.1 hl; simp at this
    omega
  subst hb0 hcM
  have e : fastAcf M t x (weight ex wt α) 0 (M - 1) (sumSq M x) 0 = 1 - dev M x (M - 1) ^ 2 / sumSq M x := by
    unfold fastAcf
    rw [eq_sub_iff_add_eq, ← add_div, div_eq_one_iff_eq hv]
    unfold sumSq
    conv_rhs => rw [show M = (M - 1) + 1 by omega, Finset.sum_range_succ]
    congr 1
    · apply Finset.sum_congr rfl
      intro i hi
      have hi := Finset.mem_range.1 hi
      rw [Nat.zero_add, if_pos hi]
      have e1 : t i - (t i + 0) = 0 := by ring
      have e2 : M - 1 + 1 = M := by omega
      rw [e1, abs_zero, weight_zero h.wt_known he, e2]
      ring
    · have e2 : M - 1 + 1 = M := by omega
      rw [e2]
  rwa [e] at hat

/-- **C36**: on a regular grid, at lag `m` steps (`0 < m ≤ M - 2`): the textbook sum stops at sample `M - 2 - 2m`, the
next `m` samples are matched with sample 0, and the last term of the textbook sum is missing. -/
theorem C36_regular_partial (t0 δ : K) (hδ : 0 < δ) (h : FastRun d g wt r M (fun i => t0 + i * δ) j x α)
    (hf : ∀ i < M, f32 (x i) = x i) (hv : sumSq M x ≠ 0) (he : wt = "gaussian" → ex 0 = 1) (n m : ℕ)
    (hn : r.lags[n]? = some (.fin (m * δ))) (hm : m + 2 ≤ M) :
    r.At j n (.fin (m * δ)) (.fin ((∑ i ∈ range (M - 1 - m),
      if m + i < M - 1 - m then dev M x i * dev M x (m + i)
      else weight ex wt α ((m + i : ℕ) * δ) * dev M x i * dev M x 0) / sumSq M x)) := by
  have cast : ((M - 2 : ℕ) : K) = M - 2 := by rw [Nat.cast_sub (by omega)]; norm_num
  have cast1 : ((M - 1 : ℕ) : K) = M - 1 := by rw [Nat.cast_sub (by omega)]; norm_num
  have hmle : (m : K) ≤ (M - 2 : ℕ) := by exact_mod_cast (by omega : m ≤ M - 2)
  have hmk : (m : K) * δ ≤ (M - 2 : ℕ) * δ := mul_le_mul_of_nonneg_right hmle hδ.le
  obtain ⟨b, c, hb, hc, _, hat⟩ := C36_formula_partial h hf hv n _ hn (by omega) (by simp only [Nat.cast_zero]; linarith)
  have hbm : b = m := by
    refine FirstFrom.unique (M := M) (u := fun i : ℕ => t0 + i * δ) (k := m * δ) hb ⟨by omega, by simp, ?_⟩
    intro i hi
    have : (i : K) * δ < m * δ := mul_lt_mul_of_pos_right (by exact_mod_cast hi) hδ
    simp only [Nat.cast_zero]; linarith
  have hcm : c = M - 1 - m := by
    refine ShiftedCount.unique (M := M) (u := fun i : ℕ => t0 + i * δ) (k := m * δ) hc ⟨by omega, ?_⟩
    intro i hi
    constructor
    · intro hi'
      have : ((i + m : ℕ) : K) * δ < (M - 1 : ℕ) * δ := mul_lt_mul_of_pos_right (by exact_mod_cast (by omega)) hδ
      push_cast at this ⊢; linarith
    · intro hi'
      have : ((i + m : ℕ) : K) * δ < (M - 1 : ℕ) * δ := by push_cast at hi' ⊢; linarith
      have := lt_of_mul_lt_mul_right this hδ.le
      have : i + m < M - 1 := by exact_mod_cast this
      omega
  subst hbm hcm
  have e : fastAcf M (fun i : ℕ => t0 + i * δ) x (weight ex wt α) b (M - 1 - b) (sumSq M x) (b * δ)
      = (∑ i ∈ range (M - 1 - b), if b + i < M - 1 - b then dev M x i * dev M x (b + i)
      else weight ex wt α ((b + i : ℕ) * δ) * dev M x i * dev M x 0) / sumSq M x := by
    unfold fastAcf
    congr 1
    apply Finset.sum_congr rfl
    intro i hi
    by_cases hc : b + i < M - 1 - b
    · rw [if_pos hc, if_pos hc]
      have : t0 + ((b + i : ℕ) : K) * δ - (t0 + i * δ + b * δ) = 0 := by push_cast; ring
      rw [this, abs_zero, weight_zero h.wt_known he]
      ring
    · rw [if_neg hc, if_neg hc]
      have : t0 + ((0 : ℕ) : K) * δ - (t0 + i * δ + b * δ) = -(((b + i : ℕ) : K) * δ) := by push_cast; ring
      rw [this, abs_neg, abs_of_nonneg (by positivity)]
  rwa [e] at hat

/-- **C36 is false of the code**: on a regular grid fast and natural selection give different correlations. -/
theorem C36_false : ((mkFlat (q [0, 1, 2, 3]) (q [1, 2, 6, 3])).bind fun d => acOut .fabs d {} "fast" "fractional")
    = .ok (q [-3, -2, -1, 0, 1, 2, 3], .flat (q [1/3, 3/7, 3/5, 1, 10/49, 6/49, 0])) ∧
  ((mkFlat (q [0, 1, 2, 3]) (q [1, 2, 6, 3])).bind fun d => acOut .fabs d {} "natural" "fractional")
    = .ok (q [-3, -2, -1, 0, 1, 2, 3], .flat (q [-74/735, -54/245, 1/10, 1, -1/14, -3/7, 0])) := by decide +kernel

end exact

end Sacf
