import Verif.Spec.PyArgs
import Verif.Props.Construct

/-!
# Python arguments: C48, C63, C64
-/

namespace Sacf

open Arith

section casters
variable {F : Type}

/-! ### the casters -/

theorem asNum_iff (x : PyVal F) (a : F) : x.asNum true = some a ↔ IsNum x a := by
  cases x <;> simp only [PyVal.asNum, if_true, reduceCtorEq, false_iff, Option.some.injEq] <;>
    first
    | (constructor
       · rintro rfl; constructor
       · rintro ⟨⟩; rfl)
    | (rintro ⟨⟩)

theorem asNum_false {x : PyVal F} {a : F} (h : x.asNum false = some a) : x = .float a := by
  cases x <;> simp [PyVal.asNum] at h
  rw [h]

theorem items_iff (x : PyVal F) (xs : List (Option (PyVal F))) : x.items = some xs ↔ HasItems x xs := by
  cases x with
  | cell fl a =>
    cases fl <;> simp only [PyVal.items, Option.some.injEq, if_true, if_false, Bool.false_eq_true] <;> constructor
    · rintro rfl; exact .cellInt a
    · rintro ⟨⟩; rfl
    · rintro rfl; exact .cellFloat a
    · rintro ⟨⟩; rfl
  | list l =>
    simp only [PyVal.items, Option.some.injEq]
    constructor
    · rintro rfl; exact .list _
    · rintro ⟨⟩; rfl
  | seq l =>
    simp only [PyVal.items, Option.some.injEq]
    constructor
    · rintro rfl; exact .seq _
    · rintro ⟨⟩; rfl
  | _ => simp only [PyVal.items, reduceCtorEq, false_iff]; rintro ⟨⟩

theorem mapM_iff {α β : Type} {f : α → Option β} {P : α → β → Prop} (h : ∀ x y, f x = some y ↔ P x y) (xs : List α)
    (ys : List β) : xs.mapM f = some ys ↔ List.Forall₂ P xs ys := by
  induction xs generalizing ys with
  | nil => cases ys <;> simp
  | cons x xs ih =>
    cases ys with
    | nil => simp [List.mapM_cons, Option.bind_eq_some_iff]
    | cons y ys => simp [List.mapM_cons, Option.bind_eq_some_iff, h, ih]

/-- all items can be looked up, and load -/
theorem mapM_slots {β : Type} {f : PyVal F → Option β} {P : PyVal F → β → Prop} (h : ∀ x y, f x = some y ↔ P x y) (l : List (Option (PyVal F)))
    (ys : List β) : (l.mapM fun o => o.bind f) = some ys ↔ ∃ xs : List (PyVal F), l = xs.map some ∧ List.Forall₂ P xs ys := by
  rw [mapM_iff (P := fun o y => ∃ x, o = some x ∧ P x y) (by
    intro o y
    cases o with
    | none => simp
    | some x => simp [h])]
  induction l generalizing ys with
  | nil =>
    constructor
    · rintro ⟨⟩; exact ⟨[], rfl, .nil⟩
    · rintro ⟨xs, e, hx⟩
      cases xs with
      | nil => cases hx; exact .nil
      | cons => simp at e
  | cons o l ih =>
    constructor
    · rintro (_ | ⟨⟨x, rfl, hx⟩, hl⟩)
      obtain ⟨xs, rfl, h2⟩ := (ih _).1 hl
      exact ⟨x :: xs, rfl, .cons hx h2⟩
    · rintro ⟨xs, e, hx⟩
      cases xs with
      | nil => simp at e
      | cons x xs =>
        cases hx with
        | cons h1 h2 =>
          simp only [List.map_cons, List.cons.injEq] at e
          exact .cons ⟨x, e.1, h1⟩ ((ih _).2 ⟨xs, e.2, h2⟩)

theorem asVec_iff (x : PyVal F) (l : List F) : x.asVec true = some l ↔ FlatOf x l := by
  unfold PyVal.asVec FlatOf
  simp only [Option.bind_eq_some_iff, mapM_slots (asNum_iff (F := F))]
  constructor
  · rintro ⟨_, h, xs, rfl, h2⟩; exact ⟨xs, (items_iff _ _).1 h, h2⟩
  · rintro ⟨xs, h, h2⟩; exact ⟨_, (items_iff _ _).2 h, xs, rfl, h2⟩

theorem asTable_iff (x : PyVal F) (rows : List (List F)) : x.asTable true = some rows ↔ TableOf x rows := by
  unfold PyVal.asTable TableOf
  simp only [Option.bind_eq_some_iff, mapM_slots (asVec_iff (F := F))]
  constructor
  · rintro ⟨_, h, xs, rfl, h2⟩; exact ⟨xs, (items_iff _ _).1 h, h2⟩
  · rintro ⟨xs, h, h2⟩; exact ⟨_, (items_iff _ _).2 h, xs, rfl, h2⟩

theorem mapM_le {α β : Type} {f g : α → Option β} (h : ∀ x y, f x = some y → g x = some y) {xs : List α} {ys : List β}
    (hx : xs.mapM f = some ys) : xs.mapM g = some ys := by
  induction xs generalizing ys with
  | nil => simpa using hx
  | cons x xs ih =>
    simp only [List.mapM_cons, Option.bind_eq_bind, Option.bind_eq_some_iff, Option.pure_def] at hx ⊢
    obtain ⟨y, h1, zs, h2, h3⟩ := hx
    exact ⟨y, h _ _ h1, zs, ih h2, h3⟩

theorem asNum_le {x : PyVal F} {a : F} (h : x.asNum false = some a) : x.asNum true = some a := by
  rw [asNum_false h]; rfl

theorem asVec_le {x : PyVal F} {l : List F} (h : x.asVec false = some l) : x.asVec true = some l := by
  unfold PyVal.asVec at h ⊢
  obtain ⟨xs, h1, h2⟩ := Option.bind_eq_some_iff.1 h
  exact Option.bind_eq_some_iff.2 ⟨xs, h1, mapM_le (fun o _ h => by cases o with | none => simp at h | some x => exact asNum_le h) h2⟩

theorem asTable_le {x : PyVal F} {l : List (List F)} (h : x.asTable false = some l) : x.asTable true = some l := by
  unfold PyVal.asTable at h ⊢
  obtain ⟨xs, h1, h2⟩ := Option.bind_eq_some_iff.1 h
  exact Option.bind_eq_some_iff.2 ⟨xs, h1, mapM_le (fun o _ h => by cases o with | none => simp at h | some x => exact asVec_le h) h2⟩

/-- an empty table is an empty flat list -/
theorem asVec_of_empty {x : PyVal F} {c : Bool} (h : x.asTable c = some []) (c' : Bool) : x.asVec c' = some [] := by
  unfold PyVal.asTable at h
  unfold PyVal.asVec
  obtain ⟨xs, h1, h2⟩ := Option.bind_eq_some_iff.1 h
  cases xs with
  | nil => rw [h1]; rfl
  | cons y ys => simp [List.mapM_cons, Option.bind_eq_some_iff] at h2

/-! ### arguments that raise -/

theorem itemsRaise_none {l : List (Option (PyVal F))} (h : none ∉ l) (c : Bool) : itemsRaise c l = none := by
  induction l with
  | nil => rfl
  | cons o l ih =>
    cases o with
    | none => simp at h
    | some y =>
      simp only [itemsRaise]
      split
      · exact ih (fun h' => h (by simp [h']))
      · rfl

theorem Plain.vecRaises {x : PyVal F} (h : Plain x) (c : Bool) : x.vecRaises c = none := by
  unfold PyVal.vecRaises
  split
  · exact absurd rfl (h.1 _)
  · cases hi : x.items with
    | none => rfl
    | some l => exact itemsRaise_none (h.2 l ((items_iff _ _).1 hi)) c

theorem plain_of_flat {x : PyVal F} {l : List F} (h : FlatOf x l) : Plain x := by
  obtain ⟨xs, h, -⟩ := h
  refine ⟨?_, fun l' h' => ?_⟩
  · rintro a rfl; cases h
  · rw [← items_iff] at h h'
    rw [h] at h'
    rw [← Option.some.inj h']
    simp

theorem rowsRaise_none {l : List (Option (PyVal F))} (h0 : none ∉ l)
    (h : ¬ ∃ (ys : List (PyVal F)) (y : PyVal F) (zs : List (Option (PyVal F))), l = ys.map some ++ some y :: zs ∧ (∀ y ∈ ys, ∃ l, FlatOf y l) ∧ ¬ Plain y) (c : Bool) : rowsRaise c l = none := by
  induction l with
  | nil => rfl
  | cons o l ih =>
    cases o with
    | none => simp at h0
    | some y =>
      have hy : Plain y := by
        by_contra hy
        exact h ⟨[], y, l, rfl, by simp, hy⟩
      simp only [rowsRaise, hy.vecRaises]
      split
      · rename_i hs
        obtain ⟨v, hv⟩ := Option.isSome_iff_exists.1 hs
        have hv' : FlatOf y v := by
          rw [← asVec_iff]
          cases c
          · exact asVec_le hv
          · exact hv
        refine ih (fun h' => h0 (by simp [h'])) ?_
        rintro ⟨ys, z, zs, rfl, h1, h2⟩
        exact h ⟨y :: ys, z, zs, rfl, by simpa using ⟨⟨v, hv'⟩, h1⟩, h2⟩
      · rfl

theorem Plain.tableRaises {x : PyVal F} (h : Plain x) (hr : ¬ BrokenRow x) (c : Bool) : x.tableRaises c = none := by
  unfold PyVal.tableRaises
  split
  · exact absurd rfl (h.1 _)
  · cases hi : x.items with
    | none => rfl
    | some l =>
      refine rowsRaise_none (h.2 l ((items_iff _ _).1 hi)) ?_ c
      rintro ⟨ys, y, zs, rfl, h1, h2⟩
      exact hr ⟨ys, y, zs, (items_iff _ _).1 hi, h1, h2⟩

theorem plain_list (l : List (PyVal F)) : Plain (.list l) :=
  ⟨by simp [Sized], fun l' h => by cases h; simp⟩

theorem plain_cell (fl : Bool) (a : F) : Plain (.cell fl a) :=
  ⟨by simp [Sized], fun l' h => by cases h <;> simp⟩

theorem plain_other {x : PyVal F} (h1 : ∀ a, x ≠ .point a) (h2 : x.items = none) : Plain x :=
  ⟨h1, fun l h => by rw [← items_iff, h2] at h; simp at h⟩

theorem plain_none : Plain (.none : PyVal F) := plain_other (by simp) rfl
theorem plain_str (s : String) : Plain (.str s : PyVal F) := plain_other (by simp) rfl
theorem plain_bytes (s : String) : Plain (.bytes s : PyVal F) := plain_other (by simp) rfl

/-- no row that cannot be read -/
theorem not_broken_list {l : List (PyVal F)} (h : ∀ y ∈ l, Plain y) : ¬ BrokenRow (.list l) := by
  rintro ⟨ys, y, zs, hi, -, hy⟩
  rw [← items_iff] at hi
  have : some y ∈ l.map some := by
    rw [show l.map some = ys.map some ++ some y :: zs from Option.some.inj hi]; simp
  exact hy (h y (by simpa using this))

theorem not_broken_other {x : PyVal F} (h2 : x.items = none) : ¬ BrokenRow x := by
  rintro ⟨ys, y, zs, hi, -⟩
  rw [← items_iff, h2] at hi
  simp at hi

theorem not_broken_none : ¬ BrokenRow (.none : PyVal F) := not_broken_other rfl

theorem plain_floatList (l : List F) : Plain (floatList l) := plain_list _
theorem plain_intList (l : List F) : Plain (intList l) := plain_list _
theorem plain_column (fl : Bool) (l : List F) : Plain (columnArray fl l) := plain_list _
theorem plain_floatTable (l : List (List F)) : Plain (floatTable l) := plain_list _

theorem not_broken_floatList (l : List F) : ¬ BrokenRow (floatList l) :=
  not_broken_list fun y hy => by
    obtain ⟨a, _, rfl⟩ := List.mem_map.1 hy
    exact plain_other (by simp) rfl

theorem not_broken_floatTable (rows : List (List F)) : ¬ BrokenRow (floatTable rows) :=
  not_broken_list fun y hy => by
    obtain ⟨a, _, rfl⟩ := List.mem_map.1 hy
    exact plain_floatList a

/-! ### lists as a user writes them -/

theorem forall₂_map {α β : Type} {P : α → β → Prop} {f : β → α} (h : ∀ b, P (f b) b) (l : List β) :
    List.Forall₂ P (l.map f) l := by
  induction l with
  | nil => exact .nil
  | cons x xs ih => exact .cons (h x) ih

theorem flatOf_floatList (l : List F) : FlatOf (floatList l) l := ⟨_, .list _, forall₂_map IsNum.float l⟩
theorem flatOf_intList (l : List F) : FlatOf (intList l) l := ⟨_, .list _, forall₂_map IsNum.int l⟩
theorem tableOf_floatTable (rows : List (List F)) : TableOf (floatTable rows) rows :=
  ⟨_, .list _, forall₂_map flatOf_floatList rows⟩

theorem items_list {l xs : List (PyVal F)} (h : HasItems (.list l) (xs.map some)) : xs = l := by
  rw [← items_iff] at h
  exact (List.map_injective_iff.2 (Option.some_injective _) (Option.some.inj h)).symm

theorem not_flatOf_floatTable (r : List F) (rs : List (List F)) (v : List F) : ¬ FlatOf (floatTable (r :: rs)) v := by
  rintro ⟨xs, h0, h⟩
  cases items_list h0
  rcases h with _ | ⟨h, _⟩
  nomatch h

theorem not_tableOf_floatList (x : F) (xs : List F) (rows : List (List F)) : ¬ TableOf (floatList (x :: xs)) rows := by
  rintro ⟨ys, h0, h⟩
  cases items_list h0
  rcases h with _ | ⟨⟨_, h, _⟩, _⟩
  nomatch h

theorem mapM_list {β : Type} (f : PyVal F → Option β) (l : List (PyVal F)) : ((l.map some).mapM fun o => o.bind f) = l.mapM f := by
  induction l with
  | nil => rfl
  | cons x xs ih => simp [List.mapM_cons, ih]

theorem floatList_asVec (l : List F) (c : Bool) : (floatList l).asVec c = some l := by
  show ((l.map PyVal.float).map some).mapM _ = _
  rw [mapM_list]
  induction l with
  | nil => rfl
  | cons x xs ih => simp [List.mapM_cons, PyVal.asNum, ih]

theorem column_asTable (l : List F) : (columnArray true l).asTable false = some (l.map fun a => [a]) := by
  show ((l.map (PyVal.cell true)).map some).mapM _ = _
  rw [mapM_list]
  induction l with
  | nil => rfl
  | cons x xs ih =>
    simp only [List.map_cons, List.mapM_cons, ih]
    rfl

theorem not_broken_column (fl : Bool) (l : List F) : ¬ BrokenRow (columnArray fl l) :=
  not_broken_list fun y hy => by
    obtain ⟨a, _, rfl⟩ := List.mem_map.1 hy
    exact plain_cell fl a

theorem flatOf_columnArray (fl : Bool) (l : List F) : FlatOf (columnArray fl l) l := ⟨_, .list _, forall₂_map (IsNum.cell fl) l⟩

end casters

variable {F : Type} [Arith F]

/-- the overloads of `DataStructure(t, v)` where no caster raises -/
theorem pass2_eq {t v : PyVal F} (c : Bool) (ht : Plain t) (hv : Plain v) (hu : ¬ BrokenRow v) :
    pass2 c t v = match t.asVec c, v.asVec c with
      | some t, some v => some (mkFlat t v)
      | _, _ => match t.asVec c, v.asTable c with
        | some t, some v => some (mkTable t v)
        | _, _ => none := by
  unfold pass2
  simp only [ht.vecRaises, hv.vecRaises, hv.tableRaises hu]
  rfl

/-- the overloads of `DataStructure(t, v, e)` where no caster raises -/
theorem pass3_eq {t v e : PyVal F} (c : Bool) (ht : Plain t) (hv : Plain v) (he : Plain e) (hu : ¬ BrokenRow v) (hw : ¬ BrokenRow e) :
    pass3 c t v e = match t.asVec c, v.asVec c, e.asVec c with
      | some t, some v, some e => some (mkFlatErr t v e)
      | _, _, _ => match t.asVec c, v.asTable c, e.asTable c with
        | some t, some v, some e => some (mkTableErr t v e)
        | _, _, _ => none := by
  unfold pass3
  simp only [ht.vecRaises, hv.vecRaises, he.vecRaises, hv.tableRaises hu, he.tableRaises hw]
  rfl

theorem pass2_le {t v : PyVal F} {t' v' : List F} (ht : t.asVec true = some t') (hv : v.asVec true = some v')
    (hu : ¬ BrokenRow v)
    (hn : ∀ rows, v.asTable true = some rows → rows = []) : pyDS2 t v = mkFlat t' v' := by
  have hs := fun c => pass2_eq c (plain_of_flat ((asVec_iff _ _).1 ht)) (plain_of_flat ((asVec_iff _ _).1 hv)) hu
  have h2 : pass2 true t v = some (mkFlat t' v') := by rw [hs, ht, hv]
  unfold pyDS2 dispatch
  beta_reduce
  split
  · rename_i r hr
    rw [hs] at hr
    split at hr
    · rename_i a b ha hb
      cases (asVec_le ha).symm.trans ht
      cases (asVec_le hb).symm.trans hv
      exact (Option.some.inj hr).symm
    · rename_i hno
      split at hr
      · rename_i a b ha hb
        have := hn _ (asTable_le hb)
        subst this
        exact absurd (asVec_of_empty hb false) (hno a [] ha)
      · exact absurd hr (by simp)
  · simp only [h2]

theorem pass2_table {t v : PyVal F} {t' : List F} {rows : List (List F)} (ht : t.asVec true = some t')
    (hs' : Plain v) (hu : ¬ BrokenRow v)
    (hv : v.asTable true = some rows) (hn : v.asVec true = none) : pyDS2 t v = mkTable t' rows := by
  have hs := fun c => pass2_eq c (plain_of_flat ((asVec_iff _ _).1 ht)) hs' hu
  have h2 : pass2 true t v = some (mkTable t' rows) := by rw [hs]; simp only [ht, hv, hn]
  unfold pyDS2 dispatch
  beta_reduce
  split
  · rename_i r hr
    rw [hs] at hr
    split at hr
    · rename_i a b ha hb
      rw [asVec_le hb] at hn
      exact absurd hn (by simp)
    · split at hr
      · rename_i a b ha hb
        cases (asVec_le ha).symm.trans ht
        cases (asTable_le hb).symm.trans hv
        exact (Option.some.inj hr).symm
      · exact absurd hr (by simp)
  · simp only [h2]

/-- **C48**: `SACF(t, v)`: times must be a sequence of numbers; values that can only be read as a sequence of numbers are one dataset, values
that can only be read as a sequence of sequences are one dataset each, anything else is a `TypeError`.  Which numeric types occur does not
matter.  (Values that can be read both ways: C63.  The empty sequence can; both readings raise.  Arguments that cannot
be read to their end: C105, C106.) -/
theorem C48_two_arguments (fs : String → Option (List Char)) (ts vs : PyVal F) (hts : Plain ts) (hvs : Plain vs) (hrow : ¬ BrokenRow vs) :
    (∀ t v, FlatOf ts t → FlatOf vs v → (∀ rows, TableOf vs rows → rows = []) →
      pyInit fs ts vs .none .none = mkFlat t v) ∧
    (∀ t rows, FlatOf ts t → TableOf vs rows → (∀ v, ¬ FlatOf vs v) →
      pyInit fs ts vs .none .none = mkTable t rows) ∧
    ((¬ ∃ t v, FlatOf ts t ∧ FlatOf vs v) → (¬ ∃ t rows, FlatOf ts t ∧ TableOf vs rows) →
      pyInit fs ts vs .none .none = .exn .typeError) := by
  have e : pyInit fs ts vs .none .none = pyDS2 ts vs := rfl
  rw [e]
  simp only [← asVec_iff, ← asTable_iff]
  refine ⟨fun t v ht hv => pass2_le ht hv hrow, fun t rows ht hv hn => pass2_table ht hvs hrow hv ?_, fun h1 h2 => ?_⟩
  · cases h : vs.asVec true with
    | none => rfl
    | some v => exact absurd h (hn v)
  · have key : ∀ c, pass2 c ts vs = none := by
      intro c
      have le1 : ∀ {x : PyVal F} {l}, x.asVec c = some l → x.asVec true = some l := by
        cases c
        · exact asVec_le
        · exact id
      have le2 : ∀ {x : PyVal F} {l}, x.asTable c = some l → x.asTable true = some l := by
        cases c
        · exact asTable_le
        · exact id
      rw [pass2_eq c hts hvs hrow]
      split
      · rename_i t v ht hv
        exact absurd ⟨t, v, le1 ht, le1 hv⟩ h1
      · split
        · rename_i t v ht hv
          exact absurd ⟨t, v, le1 ht, le2 hv⟩ h2
        · rfl
    unfold pyDS2 dispatch
    beta_reduce
    rw [key, key]

theorem pyInit_three (fs : String → Option (List Char)) (ts vs es : PyVal F) (he : es ≠ .none) :
    pyInit fs ts vs es .none = pyDS3 ts vs es := by
  unfold pyInit
  rw [if_neg (by simp [PyVal.truthy]), if_neg]
  cases es <;> simp_all [PyVal.isNone]

/-- **C48**: `SACF(t, v, e)` with errors. -/
theorem C48_three_arguments (fs : String → Option (List Char)) (ts vs es : PyVal F) (he : es ≠ .none)
    (hts : Plain ts) (hvs : Plain vs) (hes : Plain es) (hv0 : ¬ BrokenRow vs) (he0 : ¬ BrokenRow es) :
    (∀ t v e, FlatOf ts t → FlatOf vs v → FlatOf es e → (∀ rows errs, TableOf vs rows → TableOf es errs → rows = []) →
      pyInit fs ts vs es .none = mkFlatErr t v e) ∧
    (∀ t rows errs, FlatOf ts t → TableOf vs rows → TableOf es errs → (∀ v e, FlatOf vs v → ¬ FlatOf es e) →
      pyInit fs ts vs es .none = mkTableErr t rows errs) ∧
    ((¬ ∃ t v e, FlatOf ts t ∧ FlatOf vs v ∧ FlatOf es e) →
      (¬ ∃ t rows errs, FlatOf ts t ∧ TableOf vs rows ∧ TableOf es errs) →
      pyInit fs ts vs es .none = .exn .typeError) := by
  have hs := fun c => pass3_eq c hts hvs hes hv0 he0
  rw [pyInit_three fs ts vs es he]
  simp only [← asVec_iff, ← asTable_iff]
  refine ⟨fun t v e ht hv hee hn => ?_, fun t rows errs ht hv hee hn => ?_, fun h1 h2 => ?_⟩
  · have h2 : pass3 true ts vs es = some (mkFlatErr t v e) := by rw [hs, ht, hv, hee]
    unfold pyDS3 dispatch
    beta_reduce
    split
    · rename_i r hr
      rw [hs] at hr
      split at hr
      · rename_i a b c ha hb hc
        cases (asVec_le ha).symm.trans ht
        cases (asVec_le hb).symm.trans hv
        cases (asVec_le hc).symm.trans hee
        exact (Option.some.inj hr).symm
      · split at hr
        · rename_i a b c ha hb hc
          have := hn _ _ (asTable_le hb) (asTable_le hc)
          subst this
          cases (asVec_of_empty hb true).symm.trans hv
          rw [← Option.some.inj hr]
          simp [mkFlatErr, mkTableErr, setUp_empty]
        · exact absurd hr (by simp)
    · simp only [h2]
  · have h3 : ∀ v e, vs.asVec true = some v → es.asVec true = some e → False := fun v e a b => hn v e a b
    have h2 : pass3 true ts vs es = some (mkTableErr t rows errs) := by
      rw [hs]
      split
      · rename_i a b c ha hb hc
        exact (h3 _ _ hb hc).elim
      · simp only [ht, hv, hee]
    unfold pyDS3 dispatch
    beta_reduce
    split
    · rename_i r hr
      rw [hs] at hr
      split at hr
      · rename_i a b c ha hb hc
        exact (h3 _ _ (asVec_le hb) (asVec_le hc)).elim
      · split at hr
        · rename_i a b c ha hb hc
          cases (asVec_le ha).symm.trans ht
          cases (asTable_le hb).symm.trans hv
          cases (asTable_le hc).symm.trans hee
          exact (Option.some.inj hr).symm
        · exact absurd hr (by simp)
    · simp only [h2]
  · have key : ∀ c, pass3 c ts vs es = none := by
      intro c
      have le1 : ∀ {x : PyVal F} {l}, x.asVec c = some l → x.asVec true = some l := by
        cases c
        · exact asVec_le
        · exact id
      have le2 : ∀ {x : PyVal F} {l}, x.asTable c = some l → x.asTable true = some l := by
        cases c
        · exact asTable_le
        · exact id
      rw [hs]
      split
      · rename_i t v e ht hv hee
        exact absurd ⟨t, v, e, le1 ht, le1 hv, le1 hee⟩ h1
      · split
        · rename_i t v e ht hv hee
          exact absurd ⟨t, v, e, le1 ht, le2 hv, le2 hee⟩ h2
        · rfl
    unfold pyDS3 dispatch
    beta_reduce
    rw [key, key]

/-- **C48**: flat values with nested errors, or nested values with flat errors, are a `TypeError`;
so is a missing time list or value list, and text or bytes in place of a list. -/
theorem C48_mixed (fs : String → Option (List Char)) (ts vs es : PyVal F) (x y : F) (v e : List F)
    (r s : List F) (rows errs : List (List F)) (str : String)
    (hts : Plain ts) (hvs : Plain vs) (hes : Plain es) (hv0 : ¬ BrokenRow vs) (he0 : ¬ BrokenRow es) :
    pyInit fs ts (floatList (x :: v)) (floatTable (s :: errs)) .none = .exn .typeError ∧
    pyInit fs ts (floatTable (r :: rows)) (floatList (y :: e)) .none = .exn .typeError ∧
    pyInit fs .none vs es .none = .exn .typeError ∧
    pyInit fs ts .none es .none = .exn .typeError ∧
    pyInit fs ts (.str str) es .none = .exn .typeError ∧
    pyInit fs ts (.bytes str) es .none = .exn .typeError := by
  have n1 : ∀ l, ¬ FlatOf (.none : PyVal F) l := by rintro l ⟨_, ⟨⟩, _⟩
  have n2 : ∀ l, ¬ TableOf (.none : PyVal F) l := by rintro l ⟨_, ⟨⟩, _⟩
  have n3 : ∀ l, ¬ FlatOf (.str str : PyVal F) l := by rintro l ⟨_, ⟨⟩, _⟩
  have n4 : ∀ l, ¬ TableOf (.str str : PyVal F) l := by rintro l ⟨_, ⟨⟩, _⟩
  have n5 : ∀ l, ¬ FlatOf (.bytes str : PyVal F) l := by rintro l ⟨_, ⟨⟩, _⟩
  have n6 : ∀ l, ¬ TableOf (.bytes str : PyVal F) l := by rintro l ⟨_, ⟨⟩, _⟩
  have any : ∀ ts vs es : PyVal F, Plain ts → Plain vs → Plain es → ¬ BrokenRow vs → ¬ BrokenRow es → (∀ t, ¬ FlatOf ts t) ∨ (∀ v, ¬ FlatOf vs v) ∧ (∀ v, ¬ TableOf vs v) →
      pyInit fs ts vs es .none = .exn .typeError := by
    intro ts vs es hts hvs hes hv0 he0 h
    by_cases he : es = .none
    · subst he
      refine (C48_two_arguments fs ts vs hts hvs hv0).2.2 ?_ ?_
      · rintro ⟨t, v, h1, h2⟩
        rcases h with h | h
        · exact h _ h1
        · exact h.1 _ h2
      · rintro ⟨t, v, h1, h2⟩
        rcases h with h | h
        · exact h _ h1
        · exact h.2 _ h2
    · refine (C48_three_arguments fs ts vs es he hts hvs hes hv0 he0).2.2 ?_ ?_
      · rintro ⟨t, v, e, h1, h2, _⟩
        rcases h with h | h
        · exact h _ h1
        · exact h.1 _ h2
      · rintro ⟨t, v, e, h1, h2, _⟩
        rcases h with h | h
        · exact h _ h1
        · exact h.2 _ h2
  refine ⟨?_, ?_, any _ _ _ plain_none hvs hes hv0 he0 (.inl n1),
    any _ _ _ hts plain_none hes not_broken_none he0 (.inr ⟨n1, n2⟩), any _ _ _ hts (plain_str _) hes (not_broken_other rfl) he0 (.inr ⟨n3, n4⟩),
    any _ _ _ hts (plain_bytes _) hes (not_broken_other rfl) he0 (.inr ⟨n5, n6⟩)⟩
  · refine (C48_three_arguments fs _ _ _ (by simp [floatTable]) hts (plain_floatList _) (plain_floatTable _)
      (not_broken_floatList _) (not_broken_floatTable _)).2.2 ?_ ?_
    · rintro ⟨_, _, e', _, _, h⟩
      exact not_flatOf_floatTable _ _ _ h
    · rintro ⟨_, rows', _, _, h, _⟩
      exact not_tableOf_floatList _ _ _ h
  · refine (C48_three_arguments fs _ _ _ (by simp [floatList]) hts (plain_floatTable _) (plain_floatList _)
      (not_broken_floatTable _) (not_broken_floatList _)).2.2 ?_ ?_
    · rintro ⟨_, v', _, _, h, _⟩
      exact not_flatOf_floatTable _ _ _ h
    · rintro ⟨_, _, errs', _, _, h⟩
      exact not_tableOf_floatList _ _ _ h

/-- **C48**: a non-empty file name, as text or as bytes, takes precedence and nothing else is looked at. -/
theorem C48_filename (fs : String → Option (List Char)) (ts vs es : PyVal F) (s : String) (hs : s ≠ "") :
    pyInit fs ts vs es (.str s) = mkFile (fs s) ∧
    pyInit fs ts vs es (.bytes s) = mkFile (fs s) ∧
    pyInit fs ts vs es (.str "") = pyInit fs ts vs es .none := by
  refine ⟨?_, ?_, ?_⟩
  · unfold pyInit
    rw [if_pos (by simp [PyVal.truthy, hs])]; rfl
  · unfold pyInit
    rw [if_pos (by simp [PyVal.truthy, hs])]; rfl
  · unfold pyInit
    have h1 : (PyVal.str "" : PyVal F).truthy = false := by simp [PyVal.truthy]
    have h2 : (PyVal.none : PyVal F).truthy = false := rfl
    rw [h1, h2]; rfl

/-- two datasets; the times are `int`s -/
example : pyInit (fun _ => none) (intList (q [0, 1])) (floatTable [q [1, 2], q [3, 4]]) .none .none
    = mkTable (q [0, 1]) [q [1, 2], q [3, 4]] :=
  (C48_two_arguments _ _ _ (plain_intList _) (plain_floatTable _) (not_broken_floatTable _)).2.1 _ _ (flatOf_intList _) (tableOf_floatTable _) (not_flatOf_floatTable _ _)

example : pyInit (fun _ => none) (intList (q [0, 1])) (floatList (q [1, 2])) .none .none = mkFlat (q [0, 1]) (q [1, 2]) :=
  (C48_two_arguments _ _ _ (plain_intList _) (plain_floatList _) (not_broken_floatList _)).1 _ _ (flatOf_intList _) (flatOf_floatList _) (fun _ h => absurd h (not_tableOf_floatList _ _ _))

/-! ## C63 -/

/-- **C63**: values given as an array of one column.  If times and values are floats, each value becomes a dataset of its own; if the times
are integers, or the values are, the column is one dataset. -/
theorem C63_column_partial (fs : String → Option (List Char)) (t v : List F) (hv : v ≠ []) :
    pyInit fs (floatList t) (columnArray true v) .none .none = mkTable t (v.map fun a => [a]) ∧
    (t ≠ [] → pyInit fs (intList t) (columnArray true v) .none .none = mkFlat t v) ∧
    pyInit fs (floatList t) (columnArray false v) .none .none = mkFlat t v := by
  obtain ⟨x, xs, rfl⟩ := List.exists_cons_of_ne_nil hv
  have e : ∀ ts vs : PyVal F, pyInit fs ts vs .none .none = pyDS2 ts vs := fun _ _ => rfl
  have n1 : ∀ fl, (columnArray fl (x :: xs)).asVec false = none := fun fl => rfl
  have n2 : (columnArray false (x :: xs)).asTable false = none := rfl
  refine ⟨?_, ?_, ?_⟩
  · rw [e]
    have : pass2 false (floatList t) (columnArray true (x :: xs)) = some (mkTable t ((x :: xs).map fun a => [a])) := by
      rw [pass2_eq _ (plain_floatList _) (plain_column _ _) (not_broken_column _ _)]
      simp only [floatList_asVec, n1, column_asTable]
    unfold pyDS2 dispatch
    beta_reduce
    simp only [this]
  · intro ht
    obtain ⟨y, ys, rfl⟩ := List.exists_cons_of_ne_nil ht
    rw [e]
    have h1 : (intList (y :: ys)).asVec false = none := rfl
    have h2 : pass2 false (intList (y :: ys)) (columnArray true (x :: xs)) = none := by
      rw [pass2_eq _ (plain_intList _) (plain_column _ _) (not_broken_column _ _)]
      simp only [h1]
    have h3 : pass2 true (intList (y :: ys)) (columnArray true (x :: xs)) = some (mkFlat (y :: ys) (x :: xs)) := by
      rw [pass2_eq _ (plain_intList _) (plain_column _ _) (not_broken_column _ _)]
      simp only [(asVec_iff _ _).2 (flatOf_intList (y :: ys)), (asVec_iff _ _).2 (flatOf_columnArray true (x :: xs))]
    unfold pyDS2 dispatch
    beta_reduce
    simp only [h2, h3]
  · rw [e]
    have h2 : pass2 false (floatList t) (columnArray false (x :: xs)) = none := by
      rw [pass2_eq _ (plain_floatList _) (plain_column _ _) (not_broken_column _ _)]
      simp only [floatList_asVec, n1, n2]
    have h3 : pass2 true (floatList t) (columnArray false (x :: xs)) = some (mkFlat t (x :: xs)) := by
      rw [pass2_eq _ (plain_floatList _) (plain_column _ _) (not_broken_column _ _)]
      simp only [floatList_asVec, (asVec_iff _ _).2 (flatOf_columnArray false (x :: xs))]
    unfold pyDS2 dispatch
    beta_reduce
    simp only [h2, h3]

/-- **C63**: hence a column of `M ≥ 2` floats at `M` float times makes the constructor read out of bounds, while the same call with
integer times builds the single dataset the user meant. -/
theorem C63_false (fs : String → Option (List Char)) (t v : List F) (ht : 2 ≤ t.length) (hv : v.length = t.length) :
    pyInit fs (floatList t) (columnArray true v) .none .none = .ub ∧
    ∃ d, pyInit fs (intList t) (columnArray true v) .none .none = .ok d ∧ d.timeseries = t ∧ d.data2d = .ok [v] := by
  have hv0 : v ≠ [] := by rintro rfl; simp at hv; omega
  have ht0 : t ≠ [] := by rintro rfl; simp at ht
  obtain ⟨h1, h2, _⟩ := C63_column_partial fs t v hv0
  constructor
  · rw [h1, (C08_ub_iff_partial t _ []).2.2]
    have e1 : (v.map fun a => [a]).flatten = v := by
      induction v with
      | nil => rfl
      | cons x xs _ => simp [← List.flatMap_def]
    refine (C08_ub_iff_partial t _ []).1.2 ⟨ht0, ?_, ?_, ?_⟩
    · rw [e1]; exact hv0
    · rw [e1, hv]
    · rw [e1, List.length_map, hv]
      nlinarith
  · rw [h2 ht0]
    obtain ⟨d, hd, e1, e2, _⟩ := C03_round_trip t [v] ht0 (by simp) (by simpa [Rect] using hv)
    exact ⟨d, (C03_flat_is_one_row t v []).1.trans hd, e1, e2⟩

example : (2 : ℕ) ≤ (q [0, 1, 2]).length ∧ (q [5, 6, 8]).length = (q [0, 1, 2]).length := by decide

/-! ## C64 -/

/-- the `None`-or-number reading of a keyword argument -/
def OptNum (x : PyVal F) (o : Option F) : Prop :=
  match o with
  | none => x = .none
  | some a => IsNum x a

/-- an attribute after an assignment that may not take place -/
def upd (set : Corr F → F → Corr F) (c : Corr F) : Option F → Corr F
  | some a => set c a
  | none => c

omit [Arith F] in
theorem setArg_ok {set : Corr F → F → Corr F} {x : PyVal F} {o : Option F} (h : OptNum x o) (c : Corr F) :
    setArg set x c = .ok (upd set c o) := by
  cases o with
  | none => rw [show x = .none from h]; rfl
  | some a =>
    have h' := (asNum_iff x a).2 h
    have hn : x.isNone = false := by cases x <;> first | rfl | (nomatch h)
    unfold setArg
    simp only [hn, h', Bool.false_eq_true, if_false]
    rfl

omit [Arith F] in
theorem setArg_bad {set : Corr F → F → Corr F} {x : PyVal F} (h : ∀ o, ¬ OptNum x o) (c : Corr F) :
    setArg set x c = .exn .typeError := by
  have h1 : x.isNone = false := by
    cases x <;> first | rfl | exact absurd rfl (h none)
  have h2 : x.asNum true = none := by
    cases e : x.asNum true with
    | none => rfl
    | some a => exact absurd ((asNum_iff x a).1 e) (h (some a))
  unfold setArg
  simp only [h1, h2, Bool.false_eq_true, if_false]

omit [Arith F] in
theorem setArg_total (set : Corr F → F → Corr F) (x : PyVal F) (c : Corr F) :
    (∃ o, OptNum x o) ∨ setArg set x c = .exn .typeError := by
  by_cases h : ∃ o, OptNum x o
  · exact .inl h
  · exact .inr (setArg_bad (fun o ho => h ⟨o, ho⟩) c)

/-- what the caller gets from a completed computation -/
def AcResult.toPy (r : AcResult F) (retCorr : Bool) : PyResult F :=
  if retCorr then .triple r.lags r.corrs r.corr else .pair r.lags r.corrs

/-- **C64**: keyword arguments of `autocorrelation` that are `None` or numbers of any type act as their values, and the call is the one
the other theorems are about; `return_correlator` only decides whether the correlator is returned as well. -/
theorem C64_numbers (a : AbsFn) (d : DS F) (x1 x2 x3 x4 rc : PyVal F) (g : LagArgs F) (sel wt : String)
    (h1 : OptNum x1 g.minLag) (h2 : OptNum x2 g.maxLag) (h3 : OptNum x3 g.lagRes) (h4 : OptNum x4 g.alpha) :
    pyAutocorrelation a d x1 x2 x3 x4 sel wt rc
      = (autocorrelation a d g sel wt).bind fun r => .ok (r.toPy rc.truthy) := by
  unfold pyAutocorrelation autocorrelation pySetUpCorrelation
  have e : ∀ c : Corr F, upd Corr.setAlpha (upd Corr.setLagResolution (upd Corr.setMinLag (upd Corr.setMaxLag c g.maxLag)
      g.minLag) g.lagRes) g.alpha = setUpCorrelation c g := fun c => by
    obtain ⟨o1, o2, o3, o4⟩ := g
    cases o1 <;> cases o2 <;> cases o3 <;> cases o4 <;> rfl
  simp only [setArg_ok h1, setArg_ok h2, setArg_ok h3, setArg_ok h4, Res.ok_bind, Res.bind_assoc, e]
  rfl

/-- **C64**: any other argument is a `TypeError`, whatever else is passed – provided the correlator itself can be created. -/
theorem C64_type_error (a : AbsFn) (d : DS F) (x1 x2 x3 x4 rc : PyVal F) (sel wt : String) (c : Corr F) (hc : Corr.new d = .ok c)
    (h : ∃ x ∈ [x1, x2, x3, x4], ∀ o, ¬ OptNum x o) :
    pyAutocorrelation a d x1 x2 x3 x4 sel wt rc = .exn .typeError := by
  have key : pySetUpCorrelation c x1 x2 x3 x4 = .exn .typeError := by
    unfold pySetUpCorrelation
    rcases setArg_total Corr.setMaxLag x2 c with ⟨o2, h2⟩ | h2
    · rw [setArg_ok h2, Res.ok_bind]
      generalize upd Corr.setMaxLag c o2 = c2
      rcases setArg_total Corr.setMinLag x1 c2 with ⟨o1, h1⟩ | h1
      · rw [setArg_ok h1, Res.ok_bind]
        generalize upd Corr.setMinLag c2 o1 = c1
        rcases setArg_total Corr.setLagResolution x3 c1 with ⟨o3, h3⟩ | h3
        · rw [setArg_ok h3, Res.ok_bind]
          refine setArg_bad ?_ _
          obtain ⟨x, hx, hb⟩ := h
          simp only [List.mem_cons, List.not_mem_nil, or_false] at hx
          rcases hx with rfl | rfl | rfl | rfl
          · exact absurd h1 (hb _)
          · exact absurd h2 (hb _)
          · exact absurd h3 (hb _)
          · exact hb
        · rw [h3]; rfl
      · rw [h1]; rfl
    · rw [h2]; rfl
  unfold pyAutocorrelation
  rw [hc, Res.ok_bind, key]
  rfl

-- `max_lag=2` (an `int`), `lag_resolution=1.0`; `alpha="1"` is refused
example : OptNum (.int (some (2 : Int))) (some 2) ∧ OptNum (.float (1 : Int)) (some 1) ∧
    ∀ o, ¬ OptNum (.str "1" : PyVal Int) o := by
  refine ⟨.int 2, .float 1, ?_⟩
  rintro (_ | a) h
  · exact absurd (show PyVal.str "1" = .none from h) (by simp)
  · nomatch (show IsNum (.str "1") a from h)

end Sacf
