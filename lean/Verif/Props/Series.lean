import Verif.Props.ZeroDim
import Verif.Props.Construct

/-!
# Sequences with their own look-up: C106

pybind11 reads a sequence by `s[0]`, `s[1]`, …; a `pandas.Series` with integer labels answers by label, not by row.
-/

namespace Sacf

open Arith

variable {F : Type} [Arith F]

/-! ### only the look-ups count -/

/-- the same argument, or two sequences whose look-ups give the same -/
def SameItems (x y : PyVal F) : Prop := x = y ∨ ∃ l, HasItems x l ∧ HasItems y l

omit [Arith F] in
theorem HasItems.not_point {x : PyVal F} {l : List (Option (PyVal F))} (h : HasItems x l) : Sized x := by
  rintro a rfl; cases h

omit [Arith F] in
theorem HasItems.not_none {x : PyVal F} {l : List (Option (PyVal F))} (h : HasItems x l) : x.isNone = false := by
  cases h <;> rfl

omit [Arith F] in
theorem HasItems.vecRaises {x : PyVal F} {l : List (Option (PyVal F))} (h : HasItems x l) (c : Bool) : x.vecRaises c = itemsRaise c l := by
  have h' := (items_iff _ _).2 h
  unfold PyVal.vecRaises
  split
  · cases h
  · rw [h']; rfl

omit [Arith F] in
theorem HasItems.tableRaises {x : PyVal F} {l : List (Option (PyVal F))} (h : HasItems x l) (c : Bool) : x.tableRaises c = rowsRaise c l := by
  have h' := (items_iff _ _).2 h
  unfold PyVal.tableRaises
  split
  · cases h
  · rw [h']; rfl

omit [Arith F] in
theorem SameItems.all {x y : PyVal F} (h : SameItems x y) (c : Bool) : x.vecRaises c = y.vecRaises c ∧ x.tableRaises c = y.tableRaises c ∧
    x.asVec c = y.asVec c ∧ x.asTable c = y.asTable c ∧ x.isNone = y.isNone := by
  rcases h with rfl | ⟨l, h1, h2⟩
  · exact ⟨rfl, rfl, rfl, rfl, rfl⟩
  · refine ⟨by rw [h1.vecRaises, h2.vecRaises], by rw [h1.tableRaises, h2.tableRaises], ?_, ?_, by rw [h1.not_none, h2.not_none]⟩
    · unfold PyVal.asVec; rw [(items_iff _ _).2 h1, (items_iff _ _).2 h2]
    · unfold PyVal.asTable; rw [(items_iff _ _).2 h1, (items_iff _ _).2 h2]

theorem pyInit_items (fs : String → Option (List Char)) {ts ts' vs vs' es es' : PyVal F} (f : PyVal F) (ht : SameItems ts ts') (hv : SameItems vs vs')
    (he : SameItems es es') : pyInit fs ts vs es f = pyInit fs ts' vs' es' f := by
  have t := ht.all
  have v := hv.all
  have e := he.all
  have h2 : ∀ c, pass2 c ts vs = pass2 c ts' vs' := fun c => by
    unfold pass2
    rw [(t c).1, (t c).2.2.1, (v c).1, (v c).2.1, (v c).2.2.1, (v c).2.2.2.1]
  have h3 : ∀ c, pass3 c ts vs es = pass3 c ts' vs' es' := fun c => by
    unfold pass3
    rw [(t c).1, (t c).2.2.1, (v c).1, (v c).2.1, (v c).2.2.1, (v c).2.2.2.1, (e c).1, (e c).2.1, (e c).2.2.1, (e c).2.2.2.1]
  unfold pyInit pyDS2 pyDS3
  simp only [h2, h3, (e true).2.2.2.2]

/-! ### series -/

omit [Arith F] in
theorem lookup_labels (labels : List ℕ) (x : ℕ → F) (i : ℕ) :
    (labels.map fun k : ℕ => ((k : ℤ), x k)).lookup (i : ℤ) = if i ∈ labels then some (x i) else none := by
  induction labels with
  | nil => rfl
  | cons k ks ih =>
    rw [List.map_cons, List.lookup_cons, ih]
    by_cases h : i = k
    · subst h; simp
    · have : ((i : ℤ) == (k : ℤ)) = false := by simpa using h
      simp [this, h]

omit [Arith F] in
theorem series_items (fl : Bool) (labels : List ℕ) (x : ℕ → F) (n : ℕ) (h : labels.Perm (List.range n)) :
    HasItems (series fl (labels.map Nat.cast) (labels.map x)) (((List.range n).map fun i => num fl (x i)).map some) := by
  have e : (labels.map (Nat.cast : ℕ → ℤ)).zip (labels.map x) = labels.map fun k : ℕ => ((k : ℤ), x k) := by
    rw [List.zip_map']
  have el : (labels.map x).length = n := by rw [List.length_map, h.length_eq, List.length_range]
  unfold series
  rw [e, el, List.map_map]
  have : (List.range n).map (fun i : ℕ => (List.lookup (i : ℤ) (labels.map fun k : ℕ => ((k : ℤ), x k))).map (num fl))
      = (List.range n).map (some ∘ fun i => num fl (x i)) := by
    refine List.map_congr_left fun i hi => ?_
    rw [lookup_labels, if_pos (h.mem_iff.2 hi)]
    rfl
  rw [this]
  exact .seq _

/-- **C106**: times, values and errors given as Series whose labels are 0, …, n-1 in any order (the rows in the order `labels`, the row labelled `i` holding `t i`, `v i`, `e i`):
they are read in the order of the labels, whatever the order of the rows.  If the labels are in order, that is the order of the rows. -/
theorem C106_by_label_partial (fs : String → Option (List Char)) (n : ℕ) (lt lv le : List ℕ) (ht : lt.Perm (List.range n)) (hv : lv.Perm (List.range n))
    (he : le.Perm (List.range n)) (ft fv fe : Bool) (t v e : ℕ → F) (es f : PyVal F) :
    pyInit fs (series ft (lt.map Nat.cast) (lt.map t)) (series fv (lv.map Nat.cast) (lv.map v)) es f
      = pyInit fs (.list ((List.range n).map fun i => num ft (t i))) (.list ((List.range n).map fun i => num fv (v i))) es f ∧
    pyInit fs (series ft (lt.map Nat.cast) (lt.map t)) (series fv (lv.map Nat.cast) (lv.map v)) (series fe (le.map Nat.cast) (le.map e)) f
      = pyInit fs (.list ((List.range n).map fun i => num ft (t i))) (.list ((List.range n).map fun i => num fv (v i)))
          (.list ((List.range n).map fun i => num fe (e i))) f :=
  ⟨pyInit_items fs f (.inr ⟨_, series_items _ _ _ _ ht, .list _⟩) (.inr ⟨_, series_items _ _ _ _ hv, .list _⟩) (.inl rfl),
    pyInit_items fs f (.inr ⟨_, series_items _ _ _ _ ht, .list _⟩) (.inr ⟨_, series_items _ _ _ _ hv, .list _⟩) (.inr ⟨_, series_items _ _ _ _ he, .list _⟩)⟩

/-! ### look-ups that raise -/

omit [Arith F] in
theorem itemsRaise_broken {ys : List (PyVal F)} {zs : List (Option (PyVal F))} (h : ∀ y ∈ ys, Plain y ∧ ∃ a, IsNum y a) :
    itemsRaise true (ys.map some ++ none :: zs) = some .itemError ∧
    ∀ c, (itemsRaise c (ys.map some ++ none :: zs) = none ∨ itemsRaise c (ys.map some ++ none :: zs) = some .itemError) ∧
      (rowsRaise c (ys.map some ++ none :: zs) = none ∨ rowsRaise c (ys.map some ++ none :: zs) = some .itemError) := by
  induction ys with
  | nil => exact ⟨rfl, fun c => ⟨.inr rfl, .inr rfl⟩⟩
  | cons y ys ih =>
    obtain ⟨hp, a, ha⟩ := h y (by simp)
    obtain ⟨h1, h2⟩ := ih fun z hz => h z (by simp [hz])
    simp only [List.map_cons, List.cons_append, itemsRaise, rowsRaise, hp.vecRaises]
    refine ⟨by rw [(asNum_iff _ _).2 ha]; exact h1, fun c => ⟨?_, ?_⟩⟩
    · split
      · exact (h2 c).1
      · exact .inl rfl
    · split
      · exact (h2 c).2
      · exact .inl rfl

omit [Arith F] in
theorem mapM_broken {β : Type} (f : PyVal F → Option β) (l : List (Option (PyVal F))) (h : none ∈ l) : (l.mapM fun o => o.bind f) = none := by
  cases e : l.mapM fun o => o.bind f with
  | none => rfl
  | some ys =>
    obtain ⟨xs, rfl, -⟩ := (mapM_slots (P := fun x y => f x = some y) (fun _ _ => Iff.rfl) l ys).1 e
    simp at h

omit [Arith F] in
theorem BrokenItem.all {x : PyVal F} (h : BrokenItem x) : x.vecRaises true = some .itemError ∧ x.isNone = false ∧
    ∀ c, (x.vecRaises c = none ∨ x.vecRaises c = some .itemError) ∧ (x.tableRaises c = none ∨ x.tableRaises c = some .itemError) ∧
      x.asVec c = none ∧ x.asTable c = none := by
  obtain ⟨ys, zs, h, hy⟩ := h
  have hk := itemsRaise_broken (zs := zs) hy
  refine ⟨by rw [h.vecRaises]; exact hk.1, h.not_none, fun c => ⟨?_, ?_, ?_, ?_⟩⟩
  · rw [h.vecRaises]; exact (hk.2 c).1
  · rw [h.tableRaises]; exact (hk.2 c).2
  · unfold PyVal.asVec
    rw [(items_iff _ _).2 h]
    exact mapM_broken _ _ (by simp)
  · unfold PyVal.asTable
    rw [(items_iff _ _).2 h]
    exact mapM_broken _ _ (by simp)

/-- an argument that can be read to its end, as numbers and as rows -/
def Readable (x : PyVal F) : Prop := Plain x ∧ ¬ BrokenRow x

omit [Arith F] in
theorem raises_of {x : PyVal F} (h : Readable x ∨ BrokenItem x) (c : Bool) :
    (x.vecRaises c = none ∨ x.vecRaises c = some .itemError) ∧ (x.tableRaises c = none ∨ x.tableRaises c = some .itemError) := by
  rcases h with h | h
  · exact ⟨.inl (h.1.vecRaises c), .inl (h.1.tableRaises h.2 c)⟩
  · exact ⟨(h.all.2.2 c).1, (h.all.2.2 c).2.1⟩

/-- **C106**: if a look-up in the times, the values or the errors raises after numbers only, and the other arguments can be read, the exception of that look-up surfaces and nothing
is built. -/
theorem C106_missing (fs : String → Option (List Char)) (ts vs es f : PyVal F) (hf : f.truthy = false) (ht : Readable ts ∨ BrokenItem ts)
    (hv : Readable vs ∨ BrokenItem vs) (he : Readable es ∨ BrokenItem es) (h : BrokenItem ts ∨ BrokenItem vs ∨ BrokenItem es) :
    pyInit fs ts vs es f = .exn .itemError := by
  unfold pyInit
  rw [if_neg (by simp [hf])]
  split
  · rename_i hn
    have h' : BrokenItem ts ∨ BrokenItem vs := by
      rcases h with h | h | h
      · exact .inl h
      · exact .inr h
      · rw [h.all.2.1] at hn; simp at hn
    have key : ∀ c, pass2 c ts vs = some (.exn .itemError) ∨ pass2 c ts vs = none ∧ ts.vecRaises c = none ∧ vs.vecRaises c = none := by
      intro c
      unfold pass2
      rcases (raises_of ht c).1 with a1 | a1
      · rcases (raises_of hv c).1 with a2 | a2
        · simp only [a1, a2]
          rcases h' with h' | h'
          all_goals
            have hh := (h'.all.2.2 c).2.2
            rcases (raises_of hv c).2 with a3 | a3 <;> simp [hh.1, hh.2, a3]
        · simp [a1, a2]
      · simp [a1]
    unfold pyDS2 dispatch
    beta_reduce
    rcases key false with k | ⟨k, -⟩
    · rw [k]
    · rw [k]
      rcases key true with k | ⟨-, k1, k2⟩
      · rw [k]
      · rcases h' with h' | h'
        · rw [h'.all.1] at k1; simp at k1
        · rw [h'.all.1] at k2; simp at k2
  · have key : ∀ c, pass3 c ts vs es = some (.exn .itemError) ∨
        pass3 c ts vs es = none ∧ ts.vecRaises c = none ∧ vs.vecRaises c = none ∧ es.vecRaises c = none := by
      intro c
      unfold pass3
      rcases (raises_of ht c).1 with a1 | a1
      · rcases (raises_of hv c).1 with a2 | a2
        · rcases (raises_of he c).1 with a3 | a3
          · simp only [a1, a2, a3]
            rcases h with h | h | h
            all_goals
              have hh := (h.all.2.2 c).2.2
              rcases (raises_of hv c).2 with a4 | a4 <;> rcases (raises_of he c).2 with a5 | a5 <;> simp [hh.1, hh.2, a4, a5]
          · simp [a1, a2, a3]
        · simp [a1, a2]
      · simp [a1]
    unfold pyDS3 dispatch
    beta_reduce
    rcases key false with k | ⟨k, -⟩
    · rw [k]
    · rw [k]
      rcases key true with k | ⟨-, k1, k2, k3⟩
      · rw [k]
      · rcases h with h | h | h
        · rw [h.all.1] at k1; simp at k1
        · rw [h.all.1] at k2; simp at k2
        · rw [h.all.1] at k3; simp at k3

omit [Arith F] in
theorem split_none {α : Type} (l : List (Option α)) (h : none ∈ l) : ∃ (ys : List α) (zs : List (Option α)), l = ys.map some ++ none :: zs := by
  induction l with
  | nil => simp at h
  | cons o l ih =>
    cases o with
    | none => exact ⟨[], l, rfl⟩
    | some y =>
      obtain ⟨ys, zs, rfl⟩ := ih (by simpa using h)
      exact ⟨y :: ys, zs, rfl⟩

omit [Arith F] in
theorem plain_num (fl : Bool) (a : F) : Plain (num fl a) ∧ IsNum (num fl a) a := by
  cases fl
  · exact ⟨plain_other (by simp [num]) rfl, .int a⟩
  · exact ⟨plain_other (by simp [num]) rfl, .float a⟩

omit [Arith F] in
/-- a Series of `n` rows in which some label below `n` does not occur, as after rows have been dropped -/
theorem series_broken (fl : Bool) (labels : List ℤ) (vals : List F) (i : ℕ) (hi : i < vals.length) (h : (i : ℤ) ∉ labels) : BrokenItem (series fl labels vals) := by
  have hn : (labels.zip vals).lookup (i : ℤ) = none := by
    rw [List.lookup_eq_none_iff]
    rintro ⟨k, a⟩ hk
    have := (List.of_mem_zip hk).1
    simp only [bne_iff_ne, ne_eq]
    rintro rfl
    exact h this
  obtain ⟨ys, zs, e⟩ := split_none ((List.range vals.length).map fun i : ℕ => ((labels.zip vals).lookup (i : ℤ)).map (num fl))
    (List.mem_map.2 ⟨i, List.mem_range.2 hi, by rw [hn]; rfl⟩)
  refine ⟨ys, zs, e ▸ .seq _, fun y hy => ?_⟩
  have : some y ∈ (List.range vals.length).map fun i : ℕ => ((labels.zip vals).lookup (i : ℤ)).map (num fl) := by rw [e]; simp [hy]
  obtain ⟨k, -, hk⟩ := List.mem_map.1 this
  obtain ⟨a, -, rfl⟩ := Option.map_eq_some_iff.1 hk
  exact ⟨(plain_num fl a).1, a, (plain_num fl a).2⟩

/-- **C106**: times and values given as Series of which some row has been dropped (a label below the number of rows does not occur): the look-up error surfaces. -/
theorem C106_dropped (fs : String → Option (List Char)) (ft fv : Bool) (lt lv : List ℤ) (t v : List F) (f : PyVal F) (hf : f.truthy = false) (i : ℕ)
    (hi : i < t.length) (hit : (i : ℤ) ∉ lt) (vs : PyVal F) (hv : Readable vs ∨ vs = series fv lv v ∧ ∃ k < v.length, (k : ℤ) ∉ lv) :
    pyInit fs (series ft lt t) vs .none f = .exn .itemError :=
  C106_missing fs _ _ _ f hf (.inr (series_broken ft lt t i hi hit))
    (hv.imp id fun ⟨e, k, hk, hkl⟩ => e ▸ series_broken fv lv v k hk hkl) (.inl ⟨plain_none, not_broken_none⟩) (.inl (series_broken ft lt t i hi hit))

/-- both calls return, and the two objects satisfy `P` -/
def bothThen (P : DS Q → DS Q → Bool) : Res (DS Q) → Res (DS Q) → Bool
  | .ok d, .ok d' => P d d'
  | _, _ => false

theorem bothThen_ok {P : DS Q → DS Q → Bool} {x y : Res (DS Q)} (h : bothThen P x y = true) : ∃ d d', x = .ok d ∧ y = .ok d' ∧ P d d' = true := by
  unfold bothThen at h
  split at h
  · exact ⟨_, _, rfl, rfl, h⟩
  · simp at h

/-- **C106 is false of the code**: the rows 0, 1, 3 of a table sorted by time, whose rows had been in the order 1, 0, 3 before: the object has the times 1, 0, 3. -/
theorem C106_false : ∃ (labels : List ℤ) (t v : List Q) (d d' : DS Q), labels.Nodup ∧ t = q [0, 1, 3] ∧
    pyInit (fun _ => none) (series true labels t) (series true labels v) .none .none = .ok d ∧
    pyInit (fun _ => none) (floatList t) (floatList v) .none .none = .ok d' ∧ d'.timeseries = t ∧ d.timeseries = q [1, 0, 3] := by
  obtain ⟨d, d', h1, h2, h3⟩ := bothThen_ok (P := fun d d' => d'.timeseries = q [0, 1, 3] ∧ d.timeseries = q [1, 0, 3])
    (x := pyInit (fun _ => none) (series true [1, 0, 2] (q [0, 1, 3])) (series true [1, 0, 2] (q [5, 6, 8])) .none .none)
    (y := pyInit (fun _ => none) (floatList (q [0, 1, 3])) (floatList (q [5, 6, 8])) .none .none) (by decide +kernel)
  simp only [decide_eq_true_eq] at h3
  exact ⟨[1, 0, 2], q [0, 1, 3], q [5, 6, 8], d, d', by decide, rfl, h1, h2, h3⟩

/-- C106_by_label_partial: that table -/
example : pyInit (fun _ => none) (series true [1, 0, 2] (q [0, 1, 3])) (series true [1, 0, 2] (q [5, 6, 8])) .none .none
    = pyInit (fun _ => none) (.list [.float (.fin 1), .float (.fin 0), .float (.fin 3)]) (.list [.float (.fin 6), .float (.fin 5), .float (.fin 8)]) .none .none :=
  (C106_by_label_partial (F := Q) (fun _ => none) 3 [1, 0, 2] [1, 0, 2] [0, 1, 2] (by decide) (by decide) (by decide) true true true
    (fun i => (q [1, 0, 3]).getD i (.fin 0)) (fun i => (q [6, 5, 8]).getD i (.fin 0)) (fun _ => .fin 0) .none .none).1

/-- C106_dropped, C106_missing: the row labelled 1 has been dropped -/
example : pyInit (fun _ => none) (series true [0, 2, 3] (q [0, 1, 3])) (floatList (q [5, 6, 8])) .none .none = .exn .itemError ∧
    pyInit (fun _ => none) (floatList (q [0, 1, 3])) (series false [0, 2, 3] (q [5, 6, 8])) .none .none = .exn .itemError := by
  have r : ∀ l : List Q, Readable (floatList l) := fun l => ⟨plain_floatList l, not_broken_floatList l⟩
  have b : BrokenItem (series false [0, 2, 3] (q [5, 6, 8])) := series_broken _ _ _ 1 (by decide) (by decide)
  exact ⟨C106_dropped _ true true _ [] _ [] .none rfl 1 (by decide) (by decide) _ (.inl (r _)),
    C106_missing _ _ _ _ _ rfl (.inl (r _)) (.inr b) (.inl ⟨plain_none, not_broken_none⟩) (.inr (.inl b))⟩

end Sacf
