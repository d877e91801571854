import Verif.Props.FastRounded
import Verif.Props.MissingRounded
import Verif.Props.Api
import Verif.Props.Alpha

/-!
# C37 with fast selection; C55 and C56 in any rounding
-/

namespace Sacf

section lawfree
open Arith
variable {F : Type} [Arith F]

/-- **C37**: with fast selection and an unknown weight name `KeyError` is raised as soon as a lag is due, unless the selection itself raises
`IndexError`, as it then does with every known weight name, too. -/
theorem C37_unknown_weight_fast (d : DS F) (hd : Constructed d) (g : LagArgs F) (wt : String)
    (h1 : ¬ KnownWeight wt) (c0 : Corr F) (hc : Corr.new d = .ok c0)
    (hlag : le (g.minLag.getD c0.minLag) (g.maxLag.getD c0.maxLag) = true) :
    autocorrelation .fabs d g "fast" wt = .exn (.keyError wt) ∨
      (autocorrelation .fabs d g "fast" wt = .exn .indexError ∧
        ∀ wt', KnownWeight wt' → autocorrelation .fabs d g "fast" wt' = .exn .indexError) := by
  obtain ⟨n, hn, rfl, _⟩ := corrNew_good hd.wf hc
  simp only [Corr.fresh] at hlag
  have : ∃ k ks, lagsUpTo (g.maxLag.getD (lastD d.normT)) (g.lagRes.getD (findMinDiff d.normT)) (n + 1)
      (g.minLag.getD (neg (lastD d.normT))) false = k :: ks := by
    unfold lagsUpTo
    rw [if_pos hlag]
    generalize (if eq (g.minLag.getD (neg (lastD d.normT))) zero then true else false) = qq
    split
    · exact ⟨_, _, rfl⟩
    · exact ⟨_, _, rfl⟩
  obtain ⟨k, ks, hks⟩ := this
  rcases planFast_cases hd.wf.ne k with ⟨s, hs, hb⟩ | hs
  · left
    obtain ⟨c', _, he⟩ := autocorrelation_eq .fabs hd.wf g "fast" wt
    have hplan : lagPlan' .fabs "fast" wt d.normT (g.alpha.getD d.tMedian) k = .exn (.keyError wt) := by
      unfold lagPlan' lagPlan planSel
      rw [if_pos rfl, hs]
      simp only [Res.ok_bind]
      rw [planDelta_fabs hb, planWt_unknown h1]
      rfl
    rw [he, acPlan, hn]
    simp only [Res.ok_bind, planRun]
    rw [hks, List.take_succ_cons, Res.mapL_cons, hplan]
    rfl
  · right
    have key : ∀ wt', autocorrelation .fabs d g "fast" wt' = .exn .indexError := by
      intro wt'
      obtain ⟨c', _, he⟩ := autocorrelation_eq .fabs hd.wf g "fast" wt'
      have hplan : lagPlan' .fabs "fast" wt' d.normT (g.alpha.getD d.tMedian) k = .exn .indexError := by
        unfold lagPlan' lagPlan planSel
        rw [if_pos rfl, hs]
        rfl
      rw [he, acPlan, hn]
      simp only [Res.ok_bind, planRun]
      rw [hks, List.take_succ_cons, Res.mapL_cons, hplan]
      rfl
    exact ⟨key wt, fun wt' _ => key wt'⟩

end lawfree

section
variable {K : Type} [Field K] [LinearOrder K] [IsStrictOrderedRing K] [FloorRing K] {R : Rnd K}

/-- **C56, whatever the rounding**: if the last time is computed to be before the first, a default call returns no lag at all, and raises
`UnboundLocalError` with any other selection or weight function (provided the correlator can be created). -/
theorem C56_rounded (a : AbsFn) (d : DS (XF R)) (hd : Constructed d) (M : ℕ) (t : ℕ → K)
    (ht : d.timeseries = samples M t) (c0 : Corr (XF R)) (hc : Corr.new d = .ok c0)
    (hlast : Arith.lt (XF.round (t (M - 1) - t 0)) (.fin 0 : XF R) = true) (sel wt : String) :
    (sel = "natural" ∧ wt = "fractional" →
      ∃ r, autocorrelation a d {} sel wt = .ok r ∧ r.lags = [] ∧ r.corrs.rows = List.replicate d.N []) ∧
    (¬ (sel = "natural" ∧ wt = "fractional") → autocorrelation a d {} sel wt = .exn .unboundLocal) := by
  refine C38_empty_range_partial a d hd {} sel wt c0 hc ?_
  obtain ⟨n, hn, rfl, _⟩ := corrNew_good hd.wf hc
  obtain ⟨hM0, hnt⟩ := normT_rounded hd ht
  have e : lastD d.normT = XF.round (t (M - 1) - t 0) := by
    rw [hnt]
    unfold lastD
    rw [List.getLastD_eq_getLast?, List.getLast?_eq_getElem?]
    simp [show M - 1 < M by omega]
  simp only [Option.getD_none, Corr.fresh, e]
  generalize (XF.round (t (M - 1) - t 0) : XF R) = z at hlast
  cases z with
  | nan => exact absurd hlast Bool.false_ne_true
  | pinf => exact absurd hlast Bool.false_ne_true
  | ninf => rfl
  | fin z =>
    have hz : z < 0 := by simpa using hlast
    show decide (-z ≤ z) = false
    simp only [decide_eq_false_iff_not, not_le]
    linarith

/-- **C55, fast selection, whatever the rounding**: with `alpha = 0` (or `2 * alpha * alpha` computed as zero, Gaussian weight) the value at lag zero
is NaN in every row, whatever the values, unless all times are computed to be equal. -/
theorem C55_fast_rounded {M : ℕ} {t : ℕ → K} (d : DS (XF R)) (hd : Constructed d) (g : LagArgs (XF R)) (wt : String)
    (r : AcResult (XF R)) (hr : autocorrelation .fabs d g "fast" wt = .ok r)
    (hw : KnownWeight wt) (ht : d.timeseries = samples M t) (hinc : InOrder M t) (T : K)
    (hT : (XF.round (t (M - 1) - t 0) : XF R) = .fin T) (hT0 : 0 < T) (α : K) (ha : r.corr.alpha = .fin α)
    (h : α = 0 ∨ wt = "gaussian" ∧ Arith.mul (Arith.mul Arith.two (.fin α)) (.fin α) = (.fin 0 : XF R))
    (j : ℕ) (row : List (XF R)) (hrow : d.HasRow j row) (n : ℕ) (hn : r.lags[n]? = some (.fin 0)) :
    r.At j n (.fin 0) .nan := by
  obtain ⟨hM0, y, hy, hnt, hyo⟩ := normT_fin hd ht hinc hT
  obtain ⟨b, c, h1, h2, h3⟩ := fast_plan hd ht hinc hy hrow hw hr hn (by simp)
  have hy0 : y 0 = 0 := by
    have := hy 0 hM0
    rw [sub_self, round_zero] at this
    simpa using this.symm
  have hyT : y (M - 1) = T := by
    have := hy (M - 1) (by omega)
    rw [hT] at this
    simpa using this.symm
  have hadd : (Arith.add (.fin (y 0)) (.fin 0) : XF R) = .fin 0 := by
    rw [hy0]
    show XF.round (0 + 0) = _
    rw [add_zero, round_zero]
  have hc : 0 < c := by
    refine (h1.2 0 hM0).2 ?_
    rw [hadd, hyT]
    show decide (T ≤ 0) = false
    simpa using hT0
  have hb : b = 0 := by
    by_contra h0
    have h4 := (h2 hc).2.2 0 (by omega)
    rw [hadd, hy0] at h4
    simp at h4
  subst hb
  rw [corrValue_nan_weight _ _ _ 0] at h3
  · exact h3
  · refine List.mem_map.2 ⟨0, List.mem_range.2 hc, ?_⟩
    rw [Nat.add_zero, if_pos hc, hadd, hy0]
    have he : (Arith.fabs (Arith.sub (.fin 0) (.fin 0)) : XF R) = .fin 0 := by
      rw [dist_round, sub_self, abs_zero]; exact round_zero
    rw [he, ha, weight_exact_nan hw h]

end

end Sacf
