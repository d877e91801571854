import Verif.Model.Heap
import Mathlib.Algebra.BigOperators.Group.Finset.Basic
import Mathlib.Algebra.BigOperators.Intervals
import Mathlib.Algebra.Order.BigOperators.Group.Finset
import Mathlib.Tactic.Linarith

/-! The invariant of reference counting, with a list of references in flight. -/

set_option linter.unusedSectionVars false

namespace Sacf.Mem

open Finset

def kidsC : Option Cell → List Nat
  | some c => c.obj.kids
  | none => []

def rcC : Option Cell → Nat
  | some c => c.rc
  | none => 0

/-- number of references to `x` owned by objects -/
def Heap.refs (h : Heap) (x : Nat) : Nat := ∑ y ∈ range h.next, (kidsC (h.cell y)).count x

def Heap.isDS (h : Heap) (x : Nat) : Prop := ∃ rc, h.cell x = some ⟨.ds, rc⟩

structure Inv (W : List Nat) (h : Heap) : Prop where
  bal : ∀ x, rcC (h.cell x) = h.ext x + h.refs x + W.count x
  pos : ∀ x c, h.cell x = some c → 0 < c.rc
  lt : ∀ x, h.next ≤ x → h.cell x = none
  kids : ∀ y c z, h.cell y = some c → z ∈ c.obj.kids → h.isDS z
  ptr : ∀ y p ps rc, h.cell y = some ⟨.corr p ps, rc⟩ → p ∈ ps

theorem Inv.perm {W W' : List Nat} {h : Heap} (i : Inv W h) (hp : ∀ x, W'.count x = W.count x) : Inv W' h :=
  { i with bal := fun x => by rw [hp]; exact i.bal x }

theorem Inv.lt_next {W : List Nat} {h : Heap} (i : Inv W h) {x : Nat} {c : Cell} (hx : h.cell x = some c) : x < h.next := by
  by_contra hc
  rw [i.lt x (by omega)] at hx
  simp at hx

theorem refs_set {h : Heap} {s : Nat} (hs : s < h.next) (c : Option Cell) (x : Nat) :
    (h.set s c).refs x + (kidsC (h.cell s)).count x = h.refs x + (kidsC c).count x := by
  unfold Heap.refs Heap.set
  have hm : s ∈ range h.next := mem_range.2 hs
  rw [← add_sum_erase _ _ hm, ← add_sum_erase (range h.next) (fun y => (kidsC (h.cell y)).count x) hm]
  simp only [if_true]
  have : ∑ y ∈ (range h.next).erase s, (kidsC (if y = s then c else h.cell y)).count x
      = ∑ y ∈ (range h.next).erase s, (kidsC (h.cell y)).count x := by
    apply sum_congr rfl
    intro y hy
    rw [if_neg (Finset.ne_of_mem_erase hy)]
  rw [this]
  omega

theorem refs_pos {h : Heap} {y x : Nat} {c : Cell} (hy : h.cell y = some c) (hlt : y < h.next) (hx : x ∈ c.obj.kids) :
    0 < h.refs x := by
  unfold Heap.refs
  refine Nat.lt_of_lt_of_le (List.count_pos_iff.2 hx) ?_
  have := Finset.single_le_sum (f := fun y => (kidsC (h.cell y)).count x) (s := range h.next) (fun _ _ => Nat.zero_le _)
    (mem_range.2 hlt)
  simpa [hy, kidsC] using this

@[simp] theorem set_cell_self (h : Heap) (x : Nat) (c : Option Cell) : (h.set x c).cell x = c := by simp [Heap.set]

theorem set_cell_ne (h : Heap) {x y : Nat} (c : Option Cell) (hn : y ≠ x) : (h.set x c).cell y = h.cell y := by
  simp [Heap.set, hn]

@[simp] theorem set_ext (h : Heap) (x : Nat) (c : Option Cell) : (h.set x c).ext = h.ext := rfl
@[simp] theorem set_next (h : Heap) (x : Nat) (c : Option Cell) : (h.set x c).next = h.next := rfl

/-- changing only the count of a live object -/
theorem isDS_set_rc {h : Heap} {x z : Nat} {c : Cell} (hx : h.cell x = some c) (rc : Nat) :
    (h.set x (some { c with rc := rc })).isDS z ↔ h.isDS z := by
  unfold Heap.isDS
  by_cases hz : z = x
  · subst hz
    rw [set_cell_self, hx]
    obtain ⟨o, r⟩ := c
    simp
  · rw [set_cell_ne _ _ hz]

theorem inv_set_rc {W W' : List Nat} {h : Heap} {x : Nat} {c : Cell} (i : Inv W h) (hx : h.cell x = some c) (rc : Nat)
    (hpos : 0 < rc) (hw : ∀ y, y ≠ x → W'.count y = W.count y) (hrc : rc + W.count x = c.rc + W'.count x) :
    Inv W' (h.set x (some { c with rc := rc })) where
  bal := by
    intro y
    have hr := refs_set (i.lt_next hx) (some { c with rc := rc }) y
    rw [hx] at hr
    simp only [kidsC] at hr
    have := i.bal y
    by_cases hy : y = x
    · subst hy
      rw [set_cell_self]
      rw [hx] at this
      simp only [rcC, set_ext] at this ⊢
      omega
    · rw [set_cell_ne _ _ hy, hw y hy, set_ext]
      omega
  pos := by
    intro y d hy
    by_cases hyx : y = x
    · subst hyx
      rw [set_cell_self] at hy
      simp only [Option.some.injEq] at hy
      subst hy; exact hpos
    · rw [set_cell_ne _ _ hyx] at hy
      exact i.pos y d hy
  lt := by
    intro y hy
    have hne : y ≠ x := by
      rintro rfl
      have := i.lt_next hx
      simp at hy; omega
    rw [set_cell_ne _ _ hne]
    exact i.lt y hy
  kids := by
    intro y d z hy hz
    rw [isDS_set_rc hx]
    by_cases hyx : y = x
    · subst hyx
      rw [set_cell_self] at hy
      simp only [Option.some.injEq] at hy
      subst hy
      exact i.kids _ _ _ hx hz
    · rw [set_cell_ne _ _ hyx] at hy
      exact i.kids y d z hy hz
  ptr := by
    intro y p ps r hy
    by_cases hyx : y = x
    · subst hyx
      rw [set_cell_self] at hy
      simp only [Option.some.injEq, Cell.mk.injEq] at hy
      obtain ⟨o, rr⟩ := c
      simp only at hy
      obtain ⟨rfl, rfl⟩ := hy
      exact i.ptr y p ps rr hx
    · rw [set_cell_ne _ _ hyx] at hy
      exact i.ptr y p ps r hy

theorem inv_incref {W : List Nat} {h : Heap} {x : Nat} {c : Cell} (i : Inv W h) (hx : h.cell x = some c) :
    ∃ h', h.incref x = .ok h' ∧ Inv (x :: W) h' ∧ h'.ext = h.ext ∧ (∀ z, h'.isDS z ↔ h.isDS z) ∧
      h'.cell x = some { c with rc := c.rc + 1 } ∧ ∀ y, y ≠ x → h'.cell y = h.cell y := by
  refine ⟨_, by unfold Heap.incref; rw [hx], inv_set_rc i hx (c.rc + 1) (by omega) ?_ ?_, rfl,
    fun z => isDS_set_rc hx _, set_cell_self .., fun y hy => set_cell_ne _ _ hy⟩
  · intro y hy
    rw [List.count_cons, if_neg (by simpa using Ne.symm hy)]; rfl
  · rw [List.count_cons_self]; omega

/-- destroying an object whose only reference is in flight -/
theorem inv_erase {W : List Nat} {h : Heap} {x : Nat} {c : Cell} (i : Inv (x :: W) h) (hx : h.cell x = some c)
    (hrc : c.rc ≤ 1) : Inv (c.obj.kids ++ W) (h.set x none) ∧ (∀ z, z ≠ x → h.isDS z → (h.set x none).isDS z) ∧
      x ∉ c.obj.kids := by
  have hb := i.bal x
  have hp := i.pos x c hx
  rw [hx, List.count_cons_self] at hb
  simp only [rcC] at hb
  have href : h.refs x = 0 := by omega
  have hnk : ∀ y d, h.cell y = some d → x ∉ d.obj.kids := by
    intro y d hy hm
    have := refs_pos hy (i.lt_next hy) hm
    omega
  have hds : ∀ z, z ≠ x → h.isDS z → (h.set x none).isDS z := by
    rintro z hz ⟨rc, h1⟩
    exact ⟨rc, by rw [set_cell_ne _ _ hz, h1]⟩
  refine ⟨⟨?_, ?_, ?_, ?_, ?_⟩, hds, hnk x c hx⟩
  · intro y
    have hr := refs_set (i.lt_next hx) none y
    rw [hx] at hr
    simp only [kidsC, List.count_nil, Nat.add_zero] at hr
    rw [List.count_append, set_ext]
    by_cases hy : y = x
    · subst hy
      rw [set_cell_self]
      have : c.obj.kids.count y = 0 := List.count_eq_zero.2 (hnk y c hx)
      simp only [rcC]
      omega
    · rw [set_cell_ne _ _ hy]
      have := i.bal y
      rw [List.count_cons, if_neg (by simpa using Ne.symm hy)] at this
      omega
  · intro y d hy
    by_cases hyx : y = x
    · subst hyx; rw [set_cell_self] at hy; simp at hy
    · rw [set_cell_ne _ _ hyx] at hy; exact i.pos y d hy
  · intro y hy
    by_cases hyx : y = x
    · subst hyx; rw [set_cell_self]
    · rw [set_cell_ne _ _ hyx]; exact i.lt y hy
  · intro y d z hy hz
    by_cases hyx : y = x
    · subst hyx; rw [set_cell_self] at hy; simp at hy
    · rw [set_cell_ne _ _ hyx] at hy
      refine hds z ?_ (i.kids y d z hy hz)
      rintro rfl
      exact hnk y d hy hz
  · intro y p ps r hy
    by_cases hyx : y = x
    · subst hyx; rw [set_cell_self] at hy; simp at hy
    · rw [set_cell_ne _ _ hyx] at hy; exact i.ptr y p ps r hy

theorem Inv.alive {W : List Nat} {h : Heap} (i : Inv W h) {x : Nat} (hx : 0 < h.ext x + h.refs x + W.count x) :
    ∃ c, h.cell x = some c := by
  have := i.bal x
  cases hc : h.cell x with
  | none => rw [hc] at this; simp only [rcC] at this; omega
  | some c => exact ⟨c, rfl⟩

theorem inv_decrefLeaf {W : List Nat} {h : Heap} {x : Nat} (i : Inv (x :: W) h) (hx : h.isDS x) :
    ∃ h', h.decrefLeaf x = .ok h' ∧ Inv W h' ∧ h'.ext = h.ext ∧ (∀ z ∈ W, h.isDS z → h'.isDS z) := by
  obtain ⟨rc, hc⟩ := hx
  unfold Heap.decrefLeaf
  rw [hc]
  by_cases h1 : rc ≤ 1
  · obtain ⟨i', hd, _⟩ := inv_erase i hc h1
    simp only [h1, if_true]
    refine ⟨_, rfl, i', rfl, ?_⟩
    intro z hz hzd
    refine hd z ?_ hzd
    rintro rfl
    have := i.bal z
    rw [hc, List.count_cons_self] at this
    have := List.count_pos_iff.2 hz
    simp only [rcC] at *
    omega
  · simp only [h1, if_false]
    refine ⟨_, rfl, inv_set_rc i hc (rc - 1) (by omega) ?_ ?_, rfl, fun z _ hz => (isDS_set_rc hc _).2 hz⟩
    · intro y hy
      rw [List.count_cons, if_neg (by simpa using Ne.symm hy)]; rfl
    · rw [List.count_cons_self]; simp only; omega

theorem inv_releaseAll {W l : List Nat} {h : Heap} (i : Inv (l ++ W) h) (hl : ∀ z ∈ l, h.isDS z) :
    ∃ h', h.releaseAll l = .ok h' ∧ Inv W h' ∧ h'.ext = h.ext := by
  induction l generalizing h with
  | nil => exact ⟨h, rfl, i, rfl⟩
  | cons x l ih =>
    obtain ⟨h1, e1, i1, x1, d1⟩ := inv_decrefLeaf i (hl x (by simp))
    obtain ⟨h2, e2, i2, x2⟩ := ih i1 fun z hz => d1 z (by simp [hz]) (hl z (by simp [hz]))
    refine ⟨h2, ?_, i2, by rw [x2, x1]⟩
    unfold Heap.releaseAll
    rw [e1]; exact e2

theorem inv_decref {W : List Nat} {h : Heap} {x : Nat} (i : Inv (x :: W) h) :
    ∃ h', h.decref x = .ok h' ∧ Inv W h' ∧ h'.ext = h.ext := by
  obtain ⟨c, hc⟩ := i.alive (x := x) (by rw [List.count_cons_self]; omega)
  unfold Heap.decref
  rw [hc]
  by_cases h1 : c.rc ≤ 1
  · obtain ⟨i', hd, hn⟩ := inv_erase i hc h1
    simp only [h1, if_true]
    refine inv_releaseAll i' fun z hz => hd z ?_ (i.kids x c z hc hz)
    rintro rfl; exact hn hz
  · simp only [h1, if_false]
    refine ⟨_, rfl, inv_set_rc i hc (c.rc - 1) (by omega) ?_ ?_, rfl⟩
    · intro y hy
      rw [List.count_cons, if_neg (by simpa using Ne.symm hy)]; rfl
    · rw [List.count_cons_self]; omega

theorem inv_addExt {W : List Nat} {h : Heap} {x : Nat} (i : Inv (x :: W) h) : Inv W (h.addExt x) where
  bal := by
    intro y
    have := i.bal y
    have e : (h.addExt x).refs y = h.refs y := rfl
    rw [e]
    show rcC (h.cell y) = (if y = x then h.ext y + 1 else h.ext y) + _ + _
    rw [List.count_cons] at this
    by_cases hy : y = x
    · subst hy; simp at this ⊢; omega
    · rw [if_neg (by simpa using Ne.symm hy)] at this
      rw [if_neg hy]; omega
  pos := i.pos
  lt := i.lt
  kids := i.kids
  ptr := i.ptr

theorem inv_subExt {W : List Nat} {h : Heap} {x : Nat} (i : Inv W h) (hx : 0 < h.ext x) : Inv (x :: W) (h.subExt x) where
  bal := by
    intro y
    have := i.bal y
    have e : (h.subExt x).refs y = h.refs y := rfl
    rw [e]
    show rcC (h.cell y) = (if y = x then h.ext y - 1 else h.ext y) + _ + _
    rw [List.count_cons]
    by_cases hy : y = x
    · subst hy; simp; omega
    · rw [if_neg hy, if_neg (by simpa using Ne.symm hy)]; omega
  pos := i.pos
  lt := i.lt
  kids := i.kids
  ptr := i.ptr

theorem inv_alloc {W : List Nat} {h : Heap} {o : Obj} (i : Inv (o.kids ++ W) h) (hk : ∀ z ∈ o.kids, h.isDS z)
    (hp : ∀ p ps, o = .corr p ps → p ∈ ps) :
    Inv (h.next :: W) (h.alloc o) ∧ (∀ z, h.isDS z → (h.alloc o).isDS z) := by
  have hnext : h.cell h.next = none := i.lt _ le_rfl
  have hcell : ∀ y, (h.alloc o).cell y = if y = h.next then some ⟨o, 1⟩ else h.cell y := fun _ => rfl
  have hds : ∀ z, h.isDS z → (h.alloc o).isDS z := by
    rintro z ⟨rc, hz⟩
    refine ⟨rc, ?_⟩
    rw [hcell, if_neg, hz]
    rintro rfl
    rw [hnext] at hz; simp at hz
  have hrefs : ∀ x, (h.alloc o).refs x = h.refs x + o.kids.count x := by
    intro x
    unfold Heap.refs
    have : (h.alloc o).next = h.next + 1 := rfl
    rw [this, sum_range_succ, hcell, if_pos rfl]
    simp only [kidsC]
    congr 1
    apply sum_congr rfl
    intro y hy
    rw [hcell, if_neg (by have := mem_range.1 hy; omega)]
  refine ⟨⟨?_, ?_, ?_, ?_, ?_⟩, hds⟩
  · intro x
    have := i.bal x
    rw [List.count_append] at this
    rw [hrefs, hcell, List.count_cons]
    have e : (h.alloc o).ext = h.ext := rfl
    rw [e]
    by_cases hx : x = h.next
    · subst hx
      rw [hnext] at this
      simp only [rcC, if_true, beq_self_eq_true] at *
      omega
    · rw [if_neg hx, if_neg (by simpa using Ne.symm hx)]
      omega
  · intro y c hy
    rw [hcell] at hy
    split at hy
    · simp only [Option.some.injEq] at hy; subst hy; simp
    · exact i.pos y c hy
  · intro y hy
    have : (h.alloc o).next = h.next + 1 := rfl
    rw [this] at hy
    rw [hcell, if_neg (by omega)]
    exact i.lt y (by omega)
  · intro y c z hy hz
    rw [hcell] at hy
    split at hy
    · simp only [Option.some.injEq] at hy; subst hy; exact hds z (hk z hz)
    · exact hds z (i.kids y c z hy hz)
  · intro y p ps rc hy
    rw [hcell] at hy
    split at hy
    · simp only [Option.some.injEq, Cell.mk.injEq] at hy; exact hp p ps hy.1
    · exact i.ptr y p ps rc hy

/-- changing the attribute of a `SACF` -/
theorem inv_setObj {W : List Nat} {h : Heap} {s : Nat} {o o' : Option Nat} {rc : Nat} (i : Inv (o'.toList ++ W) h)
    (hs : h.cell s = some ⟨.sacf o, rc⟩) (hk : ∀ z ∈ o', h.isDS z) :
    Inv (o.toList ++ W) (h.set s (some ⟨.sacf o', rc⟩)) ∧ ∀ z, h.isDS z → (h.set s (some ⟨.sacf o', rc⟩)).isDS z := by
  have hds : ∀ z, h.isDS z → (h.set s (some ⟨.sacf o', rc⟩)).isDS z := by
    rintro z ⟨r, hz⟩
    refine ⟨r, ?_⟩
    rw [set_cell_ne, hz]
    rintro rfl
    rw [hs] at hz; simp at hz
  refine ⟨⟨?_, ?_, ?_, ?_, ?_⟩, hds⟩
  · intro y
    have hr := refs_set (i.lt_next hs) (some ⟨.sacf o', rc⟩) y
    rw [hs] at hr
    simp only [kidsC, Obj.kids] at hr
    have := i.bal y
    rw [List.count_append] at this ⊢
    rw [set_ext]
    by_cases hy : y = s
    · subst hy
      rw [set_cell_self]
      rw [hs] at this
      simp only [rcC] at *
      omega
    · rw [set_cell_ne _ _ hy]; omega
  · intro y d hy
    by_cases hyx : y = s
    · subst hyx
      rw [set_cell_self] at hy
      simp only [Option.some.injEq] at hy
      rw [← hy]
      exact i.pos y ⟨.sacf o, rc⟩ hs
    · rw [set_cell_ne _ _ hyx] at hy; exact i.pos y d hy
  · intro y hy
    have hne : y ≠ s := by
      rintro rfl
      have := i.lt_next hs
      simp at hy; omega
    rw [set_cell_ne _ _ hne]; exact i.lt y hy
  · intro y d z hy hz
    by_cases hyx : y = s
    · subst hyx
      rw [set_cell_self] at hy
      simp only [Option.some.injEq] at hy
      subst hy
      exact hds z (hk z (by simpa [Obj.kids] using hz))
    · rw [set_cell_ne _ _ hyx] at hy; exact hds z (i.kids y d z hy hz)
  · intro y p ps r hy
    by_cases hyx : y = s
    · subst hyx
      rw [set_cell_self] at hy
      simp at hy
    · rw [set_cell_ne _ _ hyx] at hy; exact i.ptr y p ps r hy

theorem inv_empty : Inv [] Heap.empty where
  bal := by intro x; simp [Heap.empty, Heap.refs, rcC]
  pos := by simp [Heap.empty]
  lt := by simp [Heap.empty]
  kids := by simp [Heap.empty]
  ptr := by simp [Heap.empty]

theorem inv_makeCorr {h : Heap} (i : Inv [] h) {d : Nat} (hd : h.isDS d) :
    ∃ h', h.makeCorr (some d) = .ok h' ∧ Inv [] h' := by
  obtain ⟨rc, hc⟩ := hd
  obtain ⟨h1, e1, i1, _, d1, c1, _⟩ := inv_incref i hc
  unfold Heap.makeCorr
  simp only
  rw [e1]
  simp only [Res.bind, c1]
  refine ⟨_, rfl, inv_addExt (inv_alloc (o := .corr d [d]) i1 ?_ ?_).1⟩
  · intro z hz
    simp only [Obj.kids, List.mem_singleton] at hz
    subst hz
    exact (d1 z).2 ⟨rc, hc⟩
  · intro p ps e
    simp only [Obj.corr.injEq] at e
    obtain ⟨rfl, rfl⟩ := e
    simp

/-- a step that passes `None` where a `DataStructure` is needed -/
def PassesNone (h : Heap) : Op → Prop
  | .newCorr none => True
  | .autocorrelation s => 0 < h.ext s ∧ ∃ rc, h.cell s = some ⟨.sacf none, rc⟩
  | _ => False

theorem inv_step {h : Heap} (i : Inv [] h) (o : Op) :
    (PassesNone h o ∧ step h o = .ub) ∨ (¬ PassesNone h o ∧ ∃ h', step h o = .ok h' ∧ Inv [] h') := by
  cases o with
  | newDS =>
    exact Or.inr ⟨id, _, rfl, inv_addExt (inv_alloc (o := .ds) i (by simp [Obj.kids]) (by simp)).1⟩
  | newSACF =>
    have i1 := (inv_alloc (o := .ds) i (by simp [Obj.kids]) (by simp)).1
    refine Or.inr ⟨id, _, rfl, inv_addExt (inv_alloc (o := .sacf (some h.next)) ?_ ?_ (by simp)).1⟩
    · exact i1
    · intro z hz
      simp only [Obj.kids, Option.toList_some, List.mem_singleton] at hz
      subst hz
      exact ⟨1, by simp [Heap.alloc]⟩
  | getData s =>
    right
    refine ⟨id, ?_⟩
    unfold step
    simp only
    split
    · exact ⟨_, rfl, i⟩
    · split
      · rename_i d _ hs
        obtain ⟨rc, hc⟩ := i.kids s _ d hs (by simp [Obj.kids])
        obtain ⟨h1, e1, i1, _⟩ := inv_incref i hc
        rw [e1]
        exact ⟨_, rfl, inv_addExt i1⟩
      · exact ⟨_, rfl, i⟩
  | setData s d =>
    right
    refine ⟨id, ?_⟩
    unfold step
    simp only
    split
    · exact ⟨_, rfl, i⟩
    · split
      · rename_i old rc hs
        cases d with
        | none =>
          simp only
          obtain ⟨i1, d1⟩ := inv_setObj (o' := none) i hs (by simp)
          cases old with
          | none => exact ⟨_, rfl, i1⟩
          | some x =>
            obtain ⟨h2, e2, i2, _⟩ := inv_decrefLeaf i1 (d1 x (i.kids s _ x hs (by simp [Obj.kids])))
            exact ⟨h2, e2, i2⟩
        | some y =>
          simp only
          split
          · exact ⟨_, rfl, i⟩
          · split
            · rename_i rcy hy
              obtain ⟨h1, e1, i1, _, d1, _, c1⟩ := inv_incref i hy
              rw [e1]
              have hne : s ≠ y := by
                rintro rfl
                rw [hs] at hy; simp at hy
              obtain ⟨i2, d2⟩ := inv_setObj (W := []) (o' := some y) i1 ((c1 s hne).trans hs)
                (by rintro z hz; simp only [Option.mem_def, Option.some.injEq] at hz; subst hz; exact (d1 _).2 ⟨_, hy⟩)
              cases old with
              | none => exact ⟨_, rfl, i2⟩
              | some x =>
                obtain ⟨h3, e3, i3, _⟩ := inv_decrefLeaf i2
                  (d2 x ((d1 x).2 (i.kids s _ x hs (by simp [Obj.kids]))))
                exact ⟨h3, e3, i3⟩
            · exact ⟨_, rfl, i⟩
      · exact ⟨_, rfl, i⟩
  | newCorr d =>
    cases d with
    | none => exact Or.inl ⟨trivial, rfl⟩
    | some d =>
      right
      refine ⟨id, ?_⟩
      unfold step
      simp only
      split
      · exact ⟨_, rfl, i⟩
      · split
        · rename_i rc hd
          exact inv_makeCorr i ⟨rc, hd⟩
        · exact ⟨_, rfl, i⟩
  | autocorrelation s =>
    unfold step PassesNone
    simp only
    by_cases hs0 : h.ext s = 0
    · right
      rw [if_pos hs0]
      exact ⟨by rintro ⟨h1, _⟩; omega, _, rfl, i⟩
    · rw [if_neg hs0]
      cases hs : h.cell s with
      | none => exact Or.inr ⟨by simp, _, rfl, i⟩
      | some c =>
        obtain ⟨o, rc⟩ := c
        cases o with
        | ds => exact Or.inr ⟨by simp, _, rfl, i⟩
        | corr p ps => exact Or.inr ⟨by simp, _, rfl, i⟩
        | sacf d =>
          cases d with
          | none => exact Or.inl ⟨⟨by omega, rc, rfl⟩, rfl⟩
          | some d =>
            right
            exact ⟨by simp, inv_makeCorr i (i.kids s _ d hs (by simp [Obj.kids]))⟩
  | useCorr c =>
    right
    refine ⟨id, ?_⟩
    unfold step
    simp only
    split
    · exact ⟨_, rfl, i⟩
    · split
      · rename_i p ps rc hc
        obtain ⟨r, hp⟩ := i.kids c _ p hc (i.ptr c p ps rc hc)
        rw [hp]
        exact ⟨_, rfl, i⟩
      · exact ⟨_, rfl, i⟩
  | reinit c d => exact Or.inr ⟨id, _, rfl, i⟩
  | dup x =>
    right
    refine ⟨id, ?_⟩
    unfold step
    simp only
    split
    · exact ⟨_, rfl, i⟩
    · obtain ⟨c, hc⟩ := i.alive (x := x) (by omega)
      obtain ⟨h1, e1, i1, _⟩ := inv_incref i hc
      rw [e1]
      exact ⟨_, rfl, inv_addExt i1⟩
  | drop x =>
    right
    refine ⟨id, ?_⟩
    unfold step
    simp only
    split
    · exact ⟨_, rfl, i⟩
    · obtain ⟨h1, e1, i1, _⟩ := inv_decref (inv_subExt i (x := x) (by omega))
      exact ⟨h1, e1, i1⟩

end Sacf.Mem
