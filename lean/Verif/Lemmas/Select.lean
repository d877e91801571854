import Verif.Lemmas.Loop
import Verif.Spec.Reach

/-! `lower_bound` and natural selection in an arbitrary arithmetic (the list need not be sorted). -/

set_option linter.unusedSectionVars false
set_option linter.unusedSimpArgs false

namespace Sacf

open Arith

variable {F : Type} [Arith F]

/-- what `lower_bound` guarantees without any assumption on the list or the order -/
structure IsBoundary (v : List F) (val : F) (first last r : Nat) : Prop where
  ge : first ≤ r
  le : r ≤ last
  below : first < r → ∃ x, v[r - 1]? = some x ∧ lt x val = true
  above : r < last → ∃ x, v[r]? = some x ∧ lt x val = false

theorem lowerBoundGo_spec (v : List F) (val : F) (first len : Nat) (h : first + len ≤ v.length) :
    ∃ r, lowerBoundGo v val first len = .ok r ∧ IsBoundary v val first (first + len) r := by
  induction len using Nat.strong_induction_on generalizing first with
  | _ len ih =>
    unfold lowerBoundGo
    by_cases hl : len = 0
    · subst hl
      refine ⟨first, by simp, ⟨le_rfl, by omega, by omega, by omega⟩⟩
    · rw [dif_neg hl]
      have hmid : first + len / 2 < v.length := by omega
      rw [rawGet_of_lt hmid]
      simp only [Res.ok_bind]
      cases hc : lt v[first + len / 2] val with
      | true =>
        rw [if_pos rfl]
        obtain ⟨r, h1, h2⟩ := ih (len - len / 2 - 1) (by omega) (first + len / 2 + 1) (by omega)
        refine ⟨r, h1, ⟨by have := h2.ge; omega, by have := h2.le; omega, fun _ => ?_, fun hr => ?_⟩⟩
        · by_cases hr : first + len / 2 + 1 < r
          · exact h2.below hr
          · have : r - 1 = first + len / 2 := by have := h2.ge; omega
            rw [this]
            exact ⟨v[first + len / 2], by simp [hmid], hc⟩
        · exact h2.above (by omega)
      | false =>
        rw [if_neg (by simp)]
        obtain ⟨r, h1, h2⟩ := ih (len / 2) (by omega) first (by omega)
        refine ⟨r, h1, ⟨h2.ge, by have := h2.le; omega, h2.below, fun hr => ?_⟩⟩
        by_cases hr2 : r < first + len / 2
        · exact h2.above hr2
        · have : r = first + len / 2 := by have := h2.le; omega
          rw [this]
          exact ⟨v[first + len / 2], by simp [hmid], hc⟩

theorem lowerBound_spec (v : List F) (val : F) :
    ∃ r, lowerBound v val = .ok r ∧ IsBoundary v val 0 v.length r := by
  have := lowerBoundGo_spec v val 0 v.length (by omega)
  simpa [lowerBound] using this

theorem lastD_eq_getElem {l : List F} (h : l ≠ []) : l[l.length - 1]? = some (lastD l) := by
  have := rawGet_last h
  rwa [rawGet_eq_ok] at this

/-- a value not beyond the last element has its lower bound inside the list -/
theorem lowerBound_lt {v : List F} (hv : v ≠ []) {val : F} (h : lt (lastD v) val = false) :
    ∃ r, lowerBound v val = .ok r ∧ IsBoundary v val 0 v.length r ∧ r < v.length := by
  obtain ⟨r, h1, h2⟩ := lowerBound_spec v val
  refine ⟨r, h1, h2, ?_⟩
  by_contra hr
  have hpos := List.length_pos_iff.2 hv
  have : r = v.length := by have := h2.le; omega
  obtain ⟨x, hx, hlt⟩ := h2.below (by omega)
  rw [this, lastD_eq_getElem hv] at hx
  simp at hx
  rw [hx, hlt] at h
  simp at h

/-- what natural selection returns for one shifted time -/
theorem selectNat_fabs {nt : List F} (hne : nt ≠ []) {s : F} (h : lt (lastD nt) s = false) :
    ∃ r j, lowerBound nt s = .ok r ∧ IsBoundary nt s 0 nt.length r ∧ r < nt.length ∧
      Corr.selectNat .fabs nt s = .ok j ∧ j < nt.length ∧
      ((r = 0 ∧ j = 0) ∨
       (0 < r ∧ ∃ lo hi, nt[r - 1]? = some lo ∧ nt[r]? = some hi ∧
         j = if lt (Arith.fabs (sub s lo)) (Arith.fabs (sub s hi)) then r - 1 else r)) := by
  obtain ⟨r, h1, h2, h3⟩ := lowerBound_lt hne h
  unfold Corr.selectNat
  rw [h1]
  simp only [Res.ok_bind]
  by_cases hr : r = 0
  · subst hr
    exact ⟨0, 0, rfl, h2, h3, by simp, h3, Or.inl ⟨rfl, rfl⟩⟩
  · rw [if_pos hr]
    rw [atGet_of_lt (show r - 1 < nt.length by omega), atGet_of_lt h3]
    simp only [Res.ok_bind, AbsFn.app]
    refine ⟨r, _, rfl, h2, h3, rfl, ?_, Or.inr ⟨by omega, nt[r - 1], nt[r], by simp [show r - 1 < nt.length by omega],
      by simp [h3], rfl⟩⟩
    split <;> omega

theorem of_mem_takeWhile {α : Type} {p : α → Bool} {l : List α} {x : α} (h : x ∈ l.takeWhile p) :
    p x = true := by
  induction l with
  | nil => simp at h
  | cons a l ih =>
    rw [List.takeWhile_cons] at h
    split at h
    · rcases List.mem_cons.1 h with rfl | h
      · assumption
      · exact ih h
    · simp at h

theorem mem_shiftedNat {nt : List F} {k s : F} (h : s ∈ shiftedNat nt k) : lt (lastD nt) s = false := by
  have := of_mem_takeWhile h
  simpa using this

/-- natural selection with a floating-point `abs` always succeeds -/
theorem planNat_fabs {nt : List F} (hne : nt ≠ []) (k : F) :
    ∃ s, planNat .fabs nt k = .ok s ∧ s.length = (shiftedNat nt k).length ∧ ∀ j ∈ s, j < nt.length := by
  obtain ⟨s, h1, h2⟩ := Res.mapL_ok_of_forall (f := Corr.selectNat .fabs nt) (P := fun j => j < nt.length)
    (l := shiftedNat nt k) (fun x hx => by
      obtain ⟨_, j, _, _, _, h, hj, _⟩ := selectNat_fabs hne (mem_shiftedNat hx)
      exact ⟨j, h, hj⟩)
  exact ⟨s, h1, Res.mapL_length h1, h2⟩

theorem planDelta_fabs {nt : List F} {s : List Nat} {sh : List F} (hb : ∀ j ∈ s, j < nt.length) :
    planDelta .fabs nt s sh
      = .ok ((s.zip sh).map fun p => Arith.fabs (sub (nt.getD p.1 zero) p.2)) := by
  unfold planDelta
  apply Res.mapL_ok
  intro p hp
  have hlt := hb p.1 (List.of_mem_zip hp).1
  rw [atGet_of_lt hlt]
  simp [AbsFn.app, List.getD, hlt]

theorem planWt_known {wt : String} (h : KnownWeight wt) : ∃ w, planWt (F := F) wt = .ok w := by
  rcases h with rfl | rfl | rfl <;> exact ⟨_, rfl⟩

theorem planWt_unknown {wt : String} (h : ¬ KnownWeight wt) : planWt (F := F) wt = .exn (.keyError wt) := by
  unfold KnownWeight at h
  push Not at h
  unfold planWt
  rw [if_neg h.1, if_neg h.2.1, if_neg h.2.2]

/-- the natural plan with a floating-point `abs` always succeeds -/
theorem lagPlan_natural {nt : List F} (hne : nt ≠ []) {wt : String} {w : F → F → F}
    (hw : planWt wt = .ok w) (alpha k : F) :
    ∃ s, planNat .fabs nt k = .ok s ∧ s.length = (shiftedNat nt k).length ∧ (∀ j ∈ s, j < nt.length) ∧
      lagPlan .fabs "natural" wt nt alpha k
        = .ok ((((s.zip (shiftedNat nt k)).map fun p =>
            Arith.fabs (sub (nt.getD p.1 zero) p.2)).map (w alpha)).zip s) := by
  obtain ⟨s, h1, h2, h3⟩ := planNat_fabs hne k
  refine ⟨s, h1, h2, h3, ?_⟩
  unfold lagPlan planSel
  rw [if_neg (by decide), if_pos rfl, h1]
  simp only [Res.ok_bind]
  rw [planDelta_fabs h3, hw]
  rfl

/-- outcome of a run with natural selection, floating-point `abs` and a known weight -/
theorem planRun_natural {nt : List F} (hne : nt ≠ []) {wt : String} (hw : KnownWeight wt)
    (alpha lo hi res : F) (n : Nat) :
    (((lagsUpTo hi res (n + 1) lo false).length ≤ n ∧
      ∃ L, planRun .fabs "natural" wt nt alpha lo hi res n = .ok L ∧
        L.map Prod.fst = lagsUpTo hi res (n + 1) lo false)) ∨
    (n < (lagsUpTo hi res (n + 1) lo false).length ∧
      planRun .fabs "natural" wt nt alpha lo hi res n = .ub) := by
  obtain ⟨w, hw⟩ := planWt_known (F := F) hw
  have hok : ∀ k ∈ (lagsUpTo hi res (n + 1) lo false).take (n + 1), ∃ p,
      lagPlan' .fabs "natural" wt nt alpha k = .ok p ∧ True := by
    intro k _
    obtain ⟨s, _, _, _, h⟩ := lagPlan_natural hne hw alpha k
    exact ⟨(k, _), by unfold lagPlan'; rw [h]; rfl, trivial⟩
  obtain ⟨L, hL, _⟩ := Res.mapL_ok_of_forall hok
  by_cases hle : (lagsUpTo hi res (n + 1) lo false).length ≤ n
  · left
    refine ⟨hle, L, ?_, ?_⟩
    · unfold planRun; rw [hL]; simp [hle]
    · rw [List.take_of_length_le (by omega)] at hL
      apply List.ext_getElem?
      intro i
      rw [List.getElem?_map]
      cases hk : (lagsUpTo hi res (n + 1) lo false)[i]? with
      | none =>
        have hlen := Res.mapL_length hL
        rw [List.getElem?_eq_none_iff] at hk
        rw [List.getElem?_eq_none (by omega)]; rfl
      | some k =>
        obtain ⟨y, hy, hf⟩ := Res.mapL_eq_ok_getElem hL i k hk
        rw [hy]
        unfold lagPlan' at hf
        rw [Res.bind_eq_ok] at hf
        obtain ⟨ps, _, hps⟩ := hf
        simp at hps
        simp [← hps]
  · right
    refine ⟨by omega, ?_⟩
    unfold planRun; rw [hL]; simp [hle]

/-- the lags of a plan -/
theorem planRun_lags {a : AbsFn} {sel wt : String} {nt : List F} {alpha lo hi res : F} {n : Nat}
    {L : List (F × List (F × Nat))} (h : planRun a sel wt nt alpha lo hi res n = .ok L) :
    L.map Prod.fst = lagsUpTo hi res (n + 1) lo false ∧ L.length ≤ n ∧
    ∀ p ∈ L, lagPlan a sel wt nt alpha p.1 = .ok p.2 := by
  unfold planRun at h
  rw [Res.bind_eq_ok] at h
  obtain ⟨L', hL, h2⟩ := h
  split at h2
  · rename_i hle
    simp at h2
    subst h2
    rw [List.take_of_length_le (by omega)] at hL
    have hlen := Res.mapL_length hL
    have key : ∀ (i : Nat) k, (lagsUpTo hi res (n + 1) lo false)[i]? = some k →
        ∃ ps, L'[i]? = some (k, ps) ∧ lagPlan a sel wt nt alpha k = .ok ps := by
      intro i k hk
      obtain ⟨y, hy, hf⟩ := Res.mapL_eq_ok_getElem hL i k hk
      unfold lagPlan' at hf
      rw [Res.bind_eq_ok] at hf
      obtain ⟨ps, hps, he⟩ := hf
      simp at he
      exact ⟨ps, by rw [hy, ← he], hps⟩
    refine ⟨?_, by omega, ?_⟩
    · apply List.ext_getElem?
      intro i
      rw [List.getElem?_map]
      cases hk : (lagsUpTo hi res (n + 1) lo false)[i]? with
      | none =>
        rw [List.getElem?_eq_none_iff] at hk
        rw [List.getElem?_eq_none (by omega)]; rfl
      | some k =>
        obtain ⟨ps, hps, _⟩ := key i k hk
        rw [hps]; rfl
    · intro p hp
      obtain ⟨i, hi⟩ := List.mem_iff_getElem?.1 hp
      have hlt : i < L'.length := by rw [List.getElem?_eq_some_iff] at hi; exact hi.1
      obtain ⟨ps, hps, hl⟩ := key i _ (List.getElem?_eq_getElem (by omega))
      rw [hi] at hps
      simp only [Option.some.injEq] at hps
      rw [hps]; exact hl
  · simp at h2

end Sacf
