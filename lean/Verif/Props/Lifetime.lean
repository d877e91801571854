import Verif.Lemmas.Heap

/-!
# Object lifetimes (C44)
-/

namespace Sacf.Mem

/-- a state some history leads to -/
def Reached (h : Heap) : Prop := ∃ ops, run Heap.empty ops = .ok h

theorem run_append (h : Heap) (l l' : List Op) : run h (l ++ l') = (run h l).bind fun h => run h l' := by
  induction l generalizing h with
  | nil => rfl
  | cons o l ih =>
    simp only [List.cons_append, run]
    cases step h o with
    | ok h => exact ih h
    | _ => rfl

theorem run_inv {h : Heap} (i : Inv [] h) (ops : List Op) :
    (∃ h', run h ops = .ok h' ∧ Inv [] h') ∨
    (run h ops = .ub ∧ ∃ pre o post h', ops = pre ++ o :: post ∧ run h pre = .ok h' ∧ PassesNone h' o) := by
  induction ops generalizing h with
  | nil => exact Or.inl ⟨h, rfl, i⟩
  | cons o ops ih =>
    rcases inv_step i o with ⟨h1, h2⟩ | ⟨_, h', h2, i'⟩
    · exact Or.inr ⟨by unfold run; rw [h2]; rfl, [], o, ops, h, rfl, rfl, h1⟩
    · unfold run
      rw [h2]
      rcases ih i' with ⟨h3, h4, h5⟩ | ⟨h3, pre, o', post, h4, h5, h6, h7⟩
      · exact Or.inl ⟨h3, h4, h5⟩
      · exact Or.inr ⟨h3, o :: pre, o', post, h4, by rw [h5]; rfl, by
          show (step h o).bind _ = _
          rw [h2]; exact h6, h7⟩

theorem reached_inv {h : Heap} (hr : Reached h) : Inv [] h := by
  obtain ⟨ops, hr⟩ := hr
  rcases run_inv inv_empty ops with ⟨h', h1, h2⟩ | ⟨h1, _⟩
  · rw [hr] at h1
    simp only [Res.ok.injEq] at h1
    subst h1; exact h2
  · rw [hr] at h1; simp at h1

/-- **C44**: after any history of creating objects, taking, dropping and reassigning references, every `Correlator`
that exists points to a `DataStructure` that exists. -/
theorem C44_alive (h : Heap) (hr : Reached h) (c p : Nat) (ps : List Nat) (rc : Nat)
    (hc : h.cell c = some ⟨.corr p ps, rc⟩) : ∃ rc', h.cell p = some ⟨.ds, rc'⟩ :=
  (reached_inv hr).kids c _ p hc ((reached_inv hr).ptr c p ps rc hc)

/-- What the program holds exists: an object is destroyed only after the last reference to it is gone. -/
theorem C44_held (h : Heap) (hr : Reached h) (x : Nat) (hx : 0 < h.ext x) : h.cell x ≠ none := by
  obtain ⟨c, hc⟩ := (reached_inv hr).alive (x := x) (by omega)
  rw [hc]; simp

/-- **C44**: no history touches a destroyed object.  The only undefined behaviour is the null pointer of
`Correlator(None)`, or of `autocorrelation` after `sacf.data = None`. -/
theorem C44_no_dangling (ops : List Op) : (∃ h, run Heap.empty ops = .ok h) ∨
    (run Heap.empty ops = .ub ∧ ∃ pre o post h, ops = pre ++ o :: post ∧ run Heap.empty pre = .ok h ∧
      (o = .newCorr none ∨ ∃ s rc, o = .autocorrelation s ∧ 0 < h.ext s ∧ h.cell s = some ⟨.sacf none, rc⟩)) := by
  rcases run_inv inv_empty ops with ⟨h, h1, _⟩ | ⟨h1, pre, o, post, h, h2, h3, h4⟩
  · exact Or.inl ⟨h, h1⟩
  · refine Or.inr ⟨h1, pre, o, post, h, h2, h3, ?_⟩
    cases o with
    | newCorr d => cases d with
      | none => exact Or.inl rfl
      | some d => exact absurd h4 (by simp [PassesNone])
    | autocorrelation s =>
      obtain ⟨h5, rc, h6⟩ := h4
      exact Or.inr ⟨s, rc, rfl, h5, h6⟩
    | _ => exact absurd h4 (by simp [PassesNone])

/-- Nothing leaks: when the program holds nothing any more, no object is left. -/
theorem C44_no_leak (h : Heap) (hr : Reached h) (h0 : ∀ x, h.ext x = 0) (x : Nat) : h.cell x = none := by
  have i := reached_inv hr
  have notds : ∀ y c, h.cell y = some c → c.obj = .ds := by
    intro y c hy
    have hb := i.bal y
    have hp := i.pos y c hy
    rw [hy, h0] at hb
    simp only [rcC, List.count_nil] at hb
    have : h.refs y ≠ 0 := by omega
    unfold Heap.refs at this
    obtain ⟨z, _, hz⟩ := Finset.exists_ne_zero_of_sum_ne_zero this
    cases hc : h.cell z with
    | none => rw [hc] at hz; simp [kidsC] at hz
    | some d =>
      rw [hc] at hz
      simp only [kidsC] at hz
      obtain ⟨r, hd⟩ := i.kids z d y hc (List.count_pos_iff.1 (Nat.pos_of_ne_zero hz))
      rw [hy] at hd
      simp only [Option.some.injEq] at hd
      rw [hd]
  cases hx : h.cell x with
  | none => rfl
  | some c =>
    have hb := i.bal x
    have hp := i.pos x c hx
    rw [hx, h0] at hb
    simp only [rcC, List.count_nil] at hb
    have hz : h.refs x = 0 := by
      unfold Heap.refs
      apply Finset.sum_eq_zero
      intro y _
      cases hc : h.cell y with
      | none => simp [kidsC]
      | some d => simp [kidsC, notds y d hc, Obj.kids]
    omega

/-- `s = SACF(..); c = s.autocorrelation(return_correlator=True)[2]; del s; c.correlations(); del c` -/
def demo : List Op := [.newSACF, .autocorrelation 1, .drop 1, .useCorr 2]

example : (run Heap.empty demo).bind (fun h => .ok (h.cell 0, h.cell 1, h.cell 2))
    = .ok (some ⟨.ds, 1⟩, none, some ⟨.corr 0 [0], 1⟩) := by decide +kernel
example : (run Heap.empty (demo ++ [.drop 2])).bind (fun h => .ok (h.cell 0, h.cell 1, h.cell 2))
    = .ok (none, none, none) := by decide +kernel
example : (match run Heap.empty [.newSACF, .setData 1 none, .autocorrelation 1] with
    | .ub => true | _ => false) = true := by
  decide +kernel

end Sacf.Mem
