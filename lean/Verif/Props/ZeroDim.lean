import Verif.Props.PyArgs
import Verif.Model.Session
import Verif.Model.Iterator

/-!
# Zero-dimensional arrays: C105

`numpy.array(3.0)` passes Python's test for a sequence but has no length.
-/

namespace Sacf

open Arith

variable {F : Type} [Arith F]

omit [Arith F] in
theorem unsized {x : PyVal F} (h : ¬ Sized x) : ∃ a, x = .point a := by
  unfold Sized at h; push Not at h; exact h

omit [Arith F] in
/-- what loading a complete argument raises -/
theorem vecRaises_complete {x : PyVal F} (h : Complete x) (c : Bool) :
    Sized x ∧ x.vecRaises c = none ∨ ¬ Sized x ∧ x.vecRaises c = some .lengthError := by
  by_cases hs : Sized x
  · exact .inl ⟨hs, Plain.vecRaises ⟨hs, h⟩ c⟩
  · obtain ⟨a, rfl⟩ := unsized hs
    exact .inr ⟨hs, rfl⟩

omit [Arith F] in
theorem tableRaises_complete {x : PyVal F} (h : CompleteRows x) (c : Bool) :
    x.tableRaises c = none ∨ x.tableRaises c = some .lengthError := by
  unfold PyVal.tableRaises
  split
  · exact .inr rfl
  · cases hi : x.items with
    | none => exact .inl rfl
    | some l =>
      have h1 := h.1 l ((items_iff _ _).1 hi)
      have h2 := h.2 l ((items_iff _ _).1 hi)
      show rowsRaise c l = none ∨ rowsRaise c l = some .lengthError
      clear hi
      induction l with
      | nil => exact .inl rfl
      | cons o l ih =>
        cases o with
        | none => simp at h1
        | some y =>
          simp only [rowsRaise]
          rcases vecRaises_complete (h2 y (by simp)) c with ⟨_, e⟩ | ⟨_, e⟩
          · simp only [e]
            split
            · exact ih (fun h' => h1 (by simp [h'])) fun z hz => h2 z (by simp [hz])
            · exact .inl rfl
          · simp only [e]; simp

omit [Arith F] in
theorem tableRaises_unsizedRow {x : PyVal F} (h : UnsizedRow x) : x.tableRaises true = some .lengthError := by
  obtain ⟨ys, a, zs, h, hy⟩ := h
  rw [← items_iff] at h
  have e : x.tableRaises true = rowsRaise true (ys.map some ++ some (.point a) :: zs) := by
    unfold PyVal.tableRaises
    split
    · simp [PyVal.items] at h
    · rw [h]; rfl
  rw [e]
  clear h e
  induction ys with
  | nil => rfl
  | cons y ys ih =>
    obtain ⟨l, hl⟩ := hy y (by simp)
    simp only [List.map_cons, List.cons_append, rowsRaise, (plain_of_flat hl).vecRaises, (asVec_iff _ _).2 hl, Option.isSome_some, if_true]
    exact ih fun z hz => hy z (by simp [hz])

omit [Arith F] in
theorem asTable_of_row {x : PyVal F} (h : UnsizedRow x) (c : Bool) : x.asTable c = none := by
  obtain ⟨ys, a, zs, h, -⟩ := h
  rw [← items_iff] at h
  unfold PyVal.asTable
  rw [h, Option.bind_some]
  clear h
  induction ys with
  | nil => rfl
  | cons y ys ih =>
    rw [List.map_cons, List.cons_append, List.mapM_cons]
    cases e : PyVal.asVec c y with
    | none => simp [e]
    | some l => simp [ih]

omit [Arith F] in
theorem tableRaises_first {x : PyVal F} {a : F} {zs : List (Option (PyVal F))} (h : HasItems x (some (.point a) :: zs)) (c : Bool) :
    x.tableRaises c = some .lengthError ∧ x.asVec false = none ∧ Sized x := by
  rw [← items_iff] at h
  refine ⟨?_, ?_, ?_⟩
  · unfold PyVal.tableRaises
    split
    · rfl
    · rw [h]; rfl
  · unfold PyVal.asVec
    rw [h]; rfl
  · rintro b rfl
    simp [PyVal.items] at h

/-- **C105**: a zero-dimensional array in the place of the times, the values or the errors is a `ValueError`, whatever the other arguments. -/
theorem C105_argument (fs : String → Option (List Char)) (ts vs es f : PyVal F) (hf : f.truthy = false)
    (hts : Complete ts) (hvs : Complete vs) (hes : Complete es)
    (h : ¬ Sized ts ∨ ¬ Sized vs ∨ ¬ Sized es) : pyInit fs ts vs es f = .exn .lengthError := by
  unfold pyInit
  rw [if_neg (by simp [hf])]
  have h1 := vecRaises_complete hts false
  have h2 := vecRaises_complete hvs false
  have h3 := vecRaises_complete hes false
  split
  · rename_i he
    have hes : Sized es := by cases es <;> simp_all [PyVal.isNone, Sized]
    unfold pyDS2 dispatch pass2
    rcases h1 with ⟨s1, e1⟩ | ⟨s1, e1⟩
    · rcases h2 with ⟨s2, e2⟩ | ⟨s2, e2⟩
      · simp_all
      · simp [e1, e2]
    · simp [e1]
  · unfold pyDS3 dispatch pass3
    rcases h1 with ⟨s1, e1⟩ | ⟨s1, e1⟩
    · rcases h2 with ⟨s2, e2⟩ | ⟨s2, e2⟩
      · rcases h3 with ⟨s3, e3⟩ | ⟨s3, e3⟩
        · simp_all
        · simp [e1, e2, e3]
      · simp [e1, e2]
    · simp [e1]

/-- **C105**: values or errors that begin with a zero-dimensional array are a `ValueError`, even if all their items are numbers. -/
theorem C105_first_item (fs : String → Option (List Char)) (ts vs es f : PyVal F) (hf : f.truthy = false)
    (hts : Complete ts) (hvs : CompleteRows vs) (hes : Complete es) (a : F) (zs : List (Option (PyVal F)))
    (h : HasItems vs (some (.point a) :: zs) ∨ HasItems es (some (.point a) :: zs)) : pyInit fs ts vs es f = .exn .lengthError := by
  by_cases hs : Sized ts ∧ Sized vs ∧ Sized es
  · have h1 := Plain.vecRaises ⟨hs.1, hts⟩ false
    have h2 := Plain.vecRaises ⟨hs.2.1, hvs.1⟩ false
    have h3 := Plain.vecRaises ⟨hs.2.2, hes⟩ false
    unfold pyInit
    rw [if_neg (by simp [hf])]
    split
    · rename_i he
      have hv : HasItems vs (some (.point a) :: zs) := by
        rcases h with h | h
        · exact h
        · generalize some (PyVal.point a) :: zs = l at h
          cases h <;> simp [PyVal.isNone] at he
      obtain ⟨h4, h5, -⟩ := tableRaises_first hv false
      unfold pyDS2 dispatch pass2
      simp [h1, h2, h4, h5]
    · unfold pyDS3 dispatch pass3
      rcases h with h | h
      · obtain ⟨h4, h5, -⟩ := tableRaises_first h false
        simp [h1, h2, h3, h4, h5]
      · obtain ⟨h4, h5, -⟩ := tableRaises_first h false
        rcases tableRaises_complete hvs false with h6 | h6 <;> simp [h1, h2, h3, h4, h5, h6]
  · refine C105_argument fs ts vs es f hf hts hvs.1 hes ?_
    by_contra h0
    push Not at h0
    exact hs h0

/-- **C105**: a zero-dimensional array among the rows of a table, after rows that are sequences of numbers, is a `ValueError`. -/
theorem C105_row (fs : String → Option (List Char)) (ts vs es f : PyVal F) (hf : f.truthy = false)
    (hts : Complete ts) (hvs : CompleteRows vs) (hes : CompleteRows es) :
    (UnsizedRow vs → (∀ v, ¬ FlatOf vs v) → pyInit fs ts vs .none f = .exn .lengthError) ∧
    (es ≠ .none → UnsizedRow vs ∨ UnsizedRow es → (∀ v e, FlatOf vs v → ¬ FlatOf es e) → pyInit fs ts vs es f = .exn .lengthError) := by
  constructor
  · intro h hn
    by_cases hs : Sized ts ∧ Sized vs
    · have h1 := tableRaises_unsizedRow h
      have h2 : vs.asVec true = none := by
        cases e : vs.asVec true with
        | none => rfl
        | some v => exact absurd ((asVec_iff _ _).1 e) (hn v)
      have h3 : vs.asVec false = none := by
        cases e : vs.asVec false with
        | none => rfl
        | some v => rw [asVec_le e] at h2; simp at h2
      have h4 := asTable_of_row h
      have h5 := Plain.vecRaises ⟨hs.1, hts⟩
      have h6 := Plain.vecRaises ⟨hs.2, hvs.1⟩
      unfold pyInit
      rw [if_neg (by simp [hf])]
      show pyDS2 ts vs = _
      unfold pyDS2 dispatch pass2
      rcases tableRaises_complete hvs false with h0 | h0 <;> simp [h0, h1, h2, h3, h4, h5, h6]
    · refine C105_argument fs ts vs .none f hf hts hvs.1 plain_none.2 ?_
      by_contra h0
      push Not at h0
      exact hs ⟨h0.1, h0.2.1⟩
  · intro he h hn
    by_cases hs : Sized ts ∧ Sized vs ∧ Sized es
    · have h2 : ∀ c v e, vs.asVec c = some v → es.asVec c = some e → False := by
        intro c v e a b
        cases c
        · exact hn v e ((asVec_iff _ _).1 (asVec_le a)) ((asVec_iff _ _).1 (asVec_le b))
        · exact hn v e ((asVec_iff _ _).1 a) ((asVec_iff _ _).1 b)
      have h4 : ∀ c v e, vs.asTable c = some v → es.asTable c = some e → False := by
        intro c v e a b
        rcases h with h | h
        · rw [asTable_of_row h] at a; simp at a
        · rw [asTable_of_row h] at b; simp at b
      have h5 := Plain.vecRaises ⟨hs.1, hts⟩
      have h6 := Plain.vecRaises ⟨hs.2.1, hvs.1⟩
      have h7 := Plain.vecRaises ⟨hs.2.2, hes.1⟩
      have hen : es.isNone = false := by cases es <;> simp_all [PyVal.isNone]
      unfold pyInit
      rw [if_neg (by simp [hf]), if_neg (by simp [hen])]
      have key : ∀ c, pass3 c ts vs es = some (.exn .lengthError) ∨
          pass3 c ts vs es = none ∧ vs.tableRaises c = none ∧ es.tableRaises c = none := by
        intro c
        unfold pass3
        simp only [h5, h6, h7]
        split
        · rename_i b c _ hb hc
          exact (h2 _ _ _ hb hc).elim
        · rcases tableRaises_complete hvs c with a1 | a1
          · rcases tableRaises_complete hes c with a2 | a2
            · simp only [a1, a2]
              split
              · rename_i b c _ hb hc
                exact (h4 _ _ _ hb hc).elim
              · simp
            · simp only [a1, a2]; simp
          · simp only [a1]; simp
      unfold pyDS3 dispatch
      beta_reduce
      rcases key false with k | ⟨k, -⟩
      · rw [k]
      · rw [k]
        rcases key true with k | ⟨-, k1, k2⟩
        · rw [k]
        · rcases h with h | h
          · rw [tableRaises_unsizedRow h] at k1; simp at k1
          · rw [tableRaises_unsizedRow h] at k2; simp at k2
    · refine C105_argument fs ts vs es f hf hts hvs.1 hes.1 ?_
      by_contra h0
      push Not at h0
      exact hs h0

/-- **C105**: otherwise it stands for its number: among the times, and among the values behind a number that is not an array. -/
theorem C105_item (fs : String → Option (List Char)) (ts y : PyVal F) (ys : List (PyVal F)) (t : List F) (x : F) (v : List F)
    (ht : FlatOf ts t) (hy : y = .float x ∨ y = .int (some x)) (hv : List.Forall₂ IsNum ys v) :
    pyInit fs ts (.list (y :: ys)) .none .none = mkFlat t (x :: v) := by
  have hn : ∀ l, ¬ FlatOf y l := by
    rintro l ⟨xs, h, -⟩
    rcases hy with rfl | rfl <;> cases h
  have hy' : IsNum y x := by
    rcases hy with rfl | rfl
    · exact .float x
    · exact .int x
  refine (C48_two_arguments fs ts (.list (y :: ys)) (plain_of_flat ht) (plain_list _) ?_).1 t (x :: v) ht ⟨_, .list _, .cons hy' hv⟩ ?_
  · rintro ⟨zs, a, ws, h, hz, ha⟩
    rw [← items_iff] at h
    replace h : some y :: ys.map some = zs.map some ++ some a :: ws := Option.some.inj h
    cases zs with
    | nil =>
      simp only [List.map_nil, List.nil_append, List.cons.injEq, Option.some.injEq] at h
      rw [← h.1] at ha
      rcases hy with rfl | rfl
      · exact ha (plain_other (by simp) rfl)
      · exact ha (plain_other (by simp) rfl)
    | cons z zs =>
      simp only [List.map_cons, List.cons_append, List.cons.injEq, Option.some.injEq] at h
      obtain ⟨l, hl⟩ := hz z (by simp)
      rw [← h.1] at hl
      exact hn l hl
  · rintro rows ⟨xs, h, hr⟩
    cases items_list h
    cases hr with
    | cons h _ => exact absurd h (hn _)

/-- the same number, as a zero-dimensional array or as a `float` -/
inductive SameNum : PyVal F → PyVal F → Prop
  | refl (x : PyVal F) : SameNum x x
  | point (a : F) : SameNum (.point a) (.float a)

omit [Arith F] in
theorem SameNum.asNum {x y : PyVal F} (h : SameNum x y) : x.asNum true = y.asNum true ∧ x.isNone = y.isNone := by
  cases h <;> exact ⟨rfl, rfl⟩

theorem SameNum.truthy {x y : PyVal F} (h : SameNum x y) : x.truthy = y.truthy := by cases h <;> rfl

omit [Arith F] in
theorem SameNum.setArg {x y : PyVal F} (h : SameNum x y) (set : Corr F → F → Corr F) : setArg set x = Sacf.setArg set y := by
  funext c
  unfold Sacf.setArg
  rw [h.asNum.1, h.asNum.2]

/-- **C105**: as an argument of `autocorrelation` or of `CorrelationIterator`, or assigned to an attribute of a correlator, a zero-dimensional
array is its number. -/
theorem C105_number (a : AbsFn) (ds : DS F) (mn mx lr al rc mn' mx' lr' al' rc' k n k' n' : PyVal F) (sel wt : PyName)
    (h1 : SameNum mn mn') (h2 : SameNum mx mx') (h3 : SameNum lr lr') (h4 : SameNum al al') (h5 : SameNum rc rc')
    (h6 : SameNum k k') (h7 : SameNum n n') :
    anyAutocorrelation a ds mn mx lr al sel wt rc = anyAutocorrelation a ds mn' mx' lr' al' sel wt rc' ∧
    newItOn k n = newItOn k' n' ∧ ∀ set c, assignOn set k c = assignOn set k' c := by
  refine ⟨?_, ?_, fun set c => ?_⟩
  · unfold anyAutocorrelation pySetUpCorrelation
    rw [h1.setArg, h2.setArg, h3.setArg, h4.setArg, h5.truthy]
  · unfold newItOn
    rw [h6.asNum.1, h7.asNum.1]
  · unfold assignOn
    rw [h6.asNum.1]

end Sacf
