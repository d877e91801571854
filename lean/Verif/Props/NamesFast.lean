import Verif.Props.Contract
import Verif.Props.Fast

/-!
# C68 with fast selection: a weight function that is not given by a string
-/

set_option linter.unusedSectionVars false

namespace Sacf

open Arith

variable {F : Type} [Arith F]

/-- the step with fast selection either looks up the weight function or raises `IndexError` -/
theorem nameStep_fast {c : Corr F} (hw : c.ds.normT ≠ []) (k : F) :
    (∀ wt e, PyName.Error wt e → ∀ i, nameStep .fabs (.str "fast") wt c k i = .exn e) ∨
      ∀ wt i, nameStep .fabs (.str "fast") wt c k i = .exn .indexError := by
  have hlook : (PyName.str "fast").lookup (selectionFunction (F := F) .fabs) = .ok (Corr.fastSelection .fabs) := rfl
  rcases planFast_cases hw k with ⟨s, hs, hb⟩ | hs
  · left
    intro wt e he i
    have hplan : wt.lookup (weightFunction (F := F)) = .exn e := by
      cases wt with
      | str s => exact he.elim
      | obj r => simp only [PyName.Error] at he; subst he; rfl
      | unhashable => simp only [PyName.Error] at he; subst he; rfl
    have hl : s.length = (shiftedFast c.ds.normT k).length := by
      unfold planFast at hs
      split at hs
      · rename_i h0
        simp only [Res.ok.injEq] at hs
        rw [← hs, h0]; rfl
      · rename_i x rest h0
        obtain ⟨idx, _, h2⟩ := Res.bind_eq_ok.1 hs
        simp only [Res.ok.injEq] at h2
        rw [← h2, h0]
        simp [fastFill]
    obtain ⟨it', h2, _⟩ := deltaT_fabs_ok c (CorrIt.new k c.ds.N) s (shiftedFast c.ds.normT k) hl hb
    unfold nameStep
    rw [hlook, Res.ok_bind, fastSelection_eq .fabs c hw, hs, Res.ok_bind, Res.ok_bind, h2, Res.ok_bind, hplan]
    rfl
  · right
    intro wt i
    unfold nameStep
    rw [hlook, Res.ok_bind, fastSelection_eq .fabs c hw, hs]
    rfl

/-- **C68**: with fast selection and a floating-point `abs`, a weight function that is not given by a string raises the error of looking it up as
soon as a lag is due, unless the selection raises `IndexError` first, as it then does with every weight function; the correlator is as before. -/
theorem C68_weight_fast (a : AbsFn) (d : DS F) (hd : Constructed d) (c : Corr F) (h : Reached a d c) (hlag : le c.minLag c.maxLag = true) :
    (∀ wt e, PyName.Error wt e → findOn .fabs (.str "fast") wt c = .exn e c) ∨
      ∀ wt, findOn .fabs (.str "fast") wt c = .exn .indexError c := by
  have hne : c.ds.normT ≠ [] := by rw [(h.good hd).2.1]; exact hd.wf.ne
  have hfirst : ∃ k : F, ∀ wt e, nameStep .fabs (.str "fast") wt c k 0 = .exn e → findOn .fabs (.str "fast") wt c = .exn e c := by
    by_cases h : (lt zero c.minLag && !(if eq c.minLag zero then true else false)) = true
    · refine ⟨zero, fun wt e he => ?_⟩
      unfold findOn lagLoop
      rw [if_pos hlag]
      simp only [h, he]
      rfl
    · refine ⟨c.minLag, fun wt e he => ?_⟩
      unfold findOn lagLoop
      rw [if_pos hlag]
      simp only [h, he]
      rfl
  obtain ⟨k, hk⟩ := hfirst
  rcases nameStep_fast hne k with h1 | h1
  · exact .inl fun wt e he => hk _ _ (h1 wt e he 0)
  · exact .inr fun wt => hk _ _ (h1 wt 0)

end Sacf
