import Verif.Lemmas.Iterator
import Verif.Props.Contract
import Verif.Props.Api

/-!
# The calls on an iterator, in any state of the iterator (C72)
-/

set_option linter.unusedSectionVars false
set_option linter.unusedSimpArgs false

namespace Sacf

open Arith

section lawfree
variable {F : Type} [Arith F]

theorem shiftNat_full (k last : F) (l : List F) (v : Vec F) :
    Corr.shiftNat k last l v
      = ⟨v.elems ++ (l.map fun t => add t k).takeWhile (fun s => !lt last s),
         v.stale.drop ((l.map fun t => add t k).takeWhile (fun s => !lt last s)).length⟩ := by
  induction l generalizing v with
  | nil => cases v; simp [Corr.shiftNat]
  | cons t ts ih =>
    unfold Corr.shiftNat
    cases h : lt last (add t k) with
    | true => cases v; simp_all
    | false =>
      rw [if_neg (by simp), ih]
      simp [Vec.push, h]

theorem shiftFast_full (k last : F) (l : List F) (v : Vec F) :
    Corr.shiftFast k last l v
      = ⟨v.elems ++ (l.map fun t => add t k).takeWhile (fun s => !le last s),
         v.stale.drop ((l.map fun t => add t k).takeWhile (fun s => !le last s)).length⟩ := by
  induction l generalizing v with
  | nil => cases v; simp [Corr.shiftFast]
  | cons t ts ih =>
    unfold Corr.shiftFast
    cases h : le last (add t k) with
    | true => cases v; simp_all
    | false =>
      rw [if_neg (by simp), ih]
      simp [Vec.push, h]

theorem mapL_range_raw {β : Type} (v : Vec F) (f : F → Res β) :
    Res.mapL (fun i => (v.raw i).bind f) (List.range v.elems.length) = Res.mapL f v.elems := by
  rw [← mapL_range_get v.elems f]
  apply Res.mapL_congr
  intro i hi
  have hi := List.mem_range.1 hi
  unfold Vec.raw
  rw [rawGet_of_lt (by simp; omega), rawGet_of_lt hi, List.getElem_append_left hi]

/-- **C72** (any arithmetic), natural selection on any iterator, of which shifted times may be left over from a call that raised: one index is
appended for each of those, and then the indices that a new iterator gets at the same lag.  Nothing else changes, and nothing is raised. -/
theorem C72_natural (d : DS F) (hd : Constructed d) (c : Corr F) (hc : c.ds = d) (it : CorrIt F)
    (hleft : ∀ s ∈ it.shifted.elems, ∀ t, d.normT.getLast? = some t → lt t s = false) :
    ∃ (old new : List Nat) (sh : Vec F),
      c.naturalOn .fabs it = .ok () { it with selection := it.selection ++ (old ++ new), shifted := sh } ∧
      old.length = it.shifted.elems.length ∧ (∀ s ∈ old ++ new, s < d.M) ∧ sh.elems = [] ∧
      ∀ n, ∃ f, c.naturalSelection .fabs (CorrIt.new it.k n) = .ok f ∧ f.selection = new := by
  subst hc
  have hw := hd.wf
  have hl := rawGet_last hw.ne
  have hlast : c.ds.normT.getLast? = some (lastD c.ds.normT) := by
    rw [List.getLast?_eq_getElem?]
    rw [rawGet_eq_ok] at hl
    exact hl
  obtain ⟨new, hnew, hnl, hnb⟩ := planNat_fabs hw.ne it.k
  obtain ⟨old, hold, hob⟩ := Res.mapL_ok_of_forall (f := Corr.selectNat .fabs c.ds.normT) (P := fun j => j < c.ds.normT.length)
    (l := it.shifted.elems) (fun x hx => by
      obtain ⟨_, j, _, _, _, h, hj, _⟩ := selectNat_fabs hw.ne (hleft x hx _ hlast)
      exact ⟨j, h, hj⟩)
  refine ⟨old, new, (Corr.shiftNat it.k (lastD c.ds.normT) c.ds.normT it.shifted).clear, ?_, Res.mapL_length hold, ?_, rfl, ?_⟩
  · rw [naturalOn_eq .fabs c it hl]
    simp only
    rw [mapL_range_raw]
    have e : Res.mapL (Corr.selectNat .fabs c.ds.normT) (Corr.shiftNat it.k (lastD c.ds.normT) c.ds.normT it.shifted).elems
        = .ok (old ++ new) := by
      rw [shiftNat_full]
      simp only
      rw [Res.mapL_append, hold]
      simp only [Res.ok_bind]
      unfold planNat shiftedNat at hnew
      rw [hnew]
      rfl
    rw [show (fun s => Corr.selectNat .fabs c.ds.normT s) = Corr.selectNat .fabs c.ds.normT from rfl, e]
  · intro s hs
    rw [hw.M_eq]
    rcases List.mem_append.1 hs with h | h
    · exact hob s h
    · exact hnb s h
  · intro n
    rw [naturalSelection_eq .fabs c hw.ne, hnew]
    exact ⟨_, rfl, rfl⟩

/-- an index for the time left over from before, then the two at lag 1, behind what was there -/
example : (((mkFlat (q [0, 1, 3]) (q [1, 2, 6])).bind Corr.new).bind fun c =>
    (c.naturalOn .fabs { CorrIt.new (.fin 1) 1 with selection := [7], shifted := ⟨q [2], []⟩ }).res.bind fun it => .ok it.selection)
    = .ok [7, 2, 1, 2] := by decide +kernel

/-- index `i` of a list, `0` beyond its end -/
theorem resizeZero_getElem? (l : List Nat) (n i : Nat) (hi : i < n) : (Corr.resizeZero l n)[i]? = some (l.getD i 0) := by
  unfold Corr.resizeZero
  by_cases h : i < l.length
  · rw [List.getElem?_append_left (by simp; omega), List.getElem?_take_of_lt hi]
    simp [h]
  · rw [List.getElem?_append_right (by simp; omega), List.getElem?_replicate, if_pos (by simp; omega)]
    simp [List.getD, show l[i]? = none from List.getElem?_eq_none (by omega)]

theorem resizeZero_length (l : List Nat) (n : Nat) : (Corr.resizeZero l n).length = n := by
  unfold Corr.resizeZero
  simp
  omega

/-- the filling loop of fast selection on any list -/
theorem fastFill_any (l : List Nat) (idx : Nat) :
    ∃ l', Res.foldL (fun sel i => rawSet sel i (idx + i)) l (List.range (l.length - idx)) = .ok l' ∧ l'.length = l.length ∧
      ∀ i < l.length, (i + idx < l.length → l'[i]? = some (idx + i)) ∧ (l.length ≤ i + idx → l'[i]? = l[i]?) := by
  have key : ∀ J ≤ l.length - idx, ∃ l', Res.foldL (fun sel i => rawSet sel i (idx + i)) l (List.range J) = .ok l' ∧
      l'.length = l.length ∧ ∀ i < l.length, (i < J → l'[i]? = some (idx + i)) ∧ (J ≤ i → l'[i]? = l[i]?) := by
    intro J
    induction J with
    | zero => intro _; exact ⟨l, rfl, rfl, fun i hi => ⟨fun h => absurd h (by omega), fun _ => rfl⟩⟩
    | succ J ih =>
      intro hJ
      obtain ⟨l', h1, h2, h3⟩ := ih (by omega)
      refine ⟨l'.set J (idx + J), ?_, by simpa using h2, ?_⟩
      · rw [List.range_succ, Res.foldL_append, h1]
        simp only [Res.ok_bind, Res.foldL_cons, Res.foldL_nil]
        rw [rawSet_of_lt (by omega)]
        rfl
      · intro i hi
        rw [List.getElem?_set]
        constructor
        · intro h
          by_cases e : J = i
          · subst e; simp [show J < l'.length by omega]
          · rw [if_neg e]; exact (h3 i hi).1 (by omega)
        · intro h
          rw [if_neg (by omega)]
          exact (h3 i hi).2 (by omega)
  obtain ⟨l', h1, h2, h3⟩ := key _ le_rfl
  exact ⟨l', h1, h2, fun i hi => ⟨fun h => (h3 i hi).1 (by omega), fun h => (h3 i hi).2 (by omega)⟩⟩

/-- `fastOn` on an iterator without pending times, in one equation -/
theorem fastOn_eq (a : AbsFn) (c : Corr F) (h : c.ds.normT ≠ []) (it : CorrIt F) (he : it.shifted.elems = []) :
    c.fastOn a it =
      match shiftedFast c.ds.normT it.k with
      | [] => .ok () { it with shifted := ⟨[], it.shifted.stale⟩ }
      | s :: rest =>
        match fastFirst a c.ds.normT s with
        | .ok idx =>
          match Res.foldL (fun sel i => rawSet sel i (idx + i)) (Corr.resizeZero it.selection (rest.length + 1))
            (List.range (rest.length + 1 - idx)) with
          | .ok sel => .ok () { it with shifted := ⟨[], (s :: rest) ++ it.shifted.stale.drop (rest.length + 1)⟩, selection := sel }
          | _ => .ub
        | .exn e => .exn e { it with shifted := ⟨s :: rest, it.shifted.stale.drop (rest.length + 1)⟩ }
        | .ub => .ub
        | .diverge => .diverge := by
  unfold Corr.fastOn
  simp only
  rw [rawGet_last h]
  simp only [Out.lift_ok, Out.ok_bind, shiftFast_full, he, List.nil_append]
  change (if ((shiftedFast c.ds.normT it.k).isEmpty = true) then _ else _) = _
  rw [show (List.takeWhile (fun s => !le (lastD c.ds.normT) s) (List.map (fun t => add t it.k) c.ds.normT)) = shiftedFast c.ds.normT it.k from rfl]
  cases hs : shiftedFast c.ds.normT it.k with
  | nil => simp [Vec.clear]
  | cons s rest =>
    simp only [List.isEmpty_cons, Bool.false_eq_true, if_false, Vec.raw, List.cons_append]
    have h0 : rawGet (s :: (rest ++ List.drop (s :: rest).length it.shifted.stale)) 0 = .ok s := rfl
    rw [h0, Res.ok_bind]
    change (Out.lift _ (fastFirst a c.ds.normT s)).bind _ = _
    cases hf : fastFirst a c.ds.normT s with
    | exn e => simp
    | ub => simp
    | diverge => simp
    | ok idx =>
      simp only [Out.lift_ok, Out.ok_bind, List.length_cons, Nat.add_sub_cancel]
      generalize List.drop (rest.length + 1) it.shifted.stale = st
      obtain ⟨l', h1, h2, _⟩ := fastFill_any (Corr.resizeZero it.selection (rest.length + 1)) idx
      rw [resizeZero_length] at h1 h2
      rw [h1]
      have key : ∀ (l : List Nat) (sel sel' : List Nat), Res.foldL (fun sel i => rawSet sel i (idx + i)) sel l = .ok sel' →
          Out.forL (fun (it : CorrIt F) i => (Out.lift it (rawSet it.selection i (idx + i))).bind fun sel it =>
            .ok () { it with selection := sel }) l { it with shifted := ⟨s :: rest, st⟩, selection := sel }
          = .ok () { it with shifted := ⟨s :: rest, st⟩, selection := sel' } := by
        intro l
        induction l with
        | nil => intro sel sel' h; simp only [Res.foldL_nil, Res.ok.injEq] at h; subst h; rfl
        | cons x xs ih =>
          intro sel sel' h
          rw [Res.foldL_cons, Res.bind_eq_ok] at h
          obtain ⟨s1, h1, h2⟩ := h
          rw [Out.forL_cons]
          simp only
          rw [h1]
          simp only [Out.lift_ok, Out.ok_bind]
          exact ih s1 sel' h2
      rw [key _ _ _ h1]
      simp [Vec.clear]

/-- **C72** (any arithmetic), fast selection on any iterator without pending times.  It raises if it raises for a new iterator at the same lag,
and then leaves the shifted times in the iterator.  Otherwise the selection gets the length of that of a new iterator, and it has the same entries, except that
entries at the end, which are `0` for a new iterator, are what they were. -/
theorem C72_fast (a : AbsFn) (d : DS F) (hd : Constructed d) (c : Corr F) (hc : c.ds = d) (it : CorrIt F) (he : it.shifted.elems = []) (n : ℕ) :
    (∀ e, c.fastSelection a (CorrIt.new it.k n) = .exn e → ∃ sh : Vec F, sh.elems ≠ [] ∧ c.fastOn a it = .exn e { it with shifted := sh }) ∧
    (∀ f, c.fastSelection a (CorrIt.new it.k n) = .ok f → ∃ (sh : Vec F) (sel : List ℕ) (m : ℕ),
      c.fastOn a it = .ok () { it with shifted := sh, selection := sel } ∧ sh.elems = [] ∧
      (f.selection = [] → sel = it.selection) ∧
      (f.selection ≠ [] → sel.length = f.selection.length) ∧
      ∀ i < f.selection.length, (i < m → sel[i]? = f.selection[i]?) ∧ (m ≤ i → f.selection[i]? = some 0 ∧ sel[i]? = some (it.selection.getD i 0))) := by
  subst hc
  have hw := hd.wf
  rw [fastSelection_eq a c hw.ne, fastOn_eq a c hw.ne it he]
  unfold planFast
  cases hs : shiftedFast c.ds.normT it.k with
  | nil =>
    refine ⟨fun e h => by simp at h, fun f h => ?_⟩
    simp only [Res.ok_bind, Res.ok.injEq] at h
    subst h
    exact ⟨_, _, 0, rfl, rfl, fun _ => rfl, fun h => absurd rfl h, fun i hi => absurd hi (by simp)⟩
  | cons s rest =>
    simp only
    cases hf : fastFirst a c.ds.normT s with
    | exn e =>
      refine ⟨fun e' h => ?_, fun f h => by simp at h⟩
      simp only [Res.exn_bind, Res.exn.injEq] at h
      subst h
      exact ⟨_, by simp, rfl⟩
    | ub => exact ⟨fun e h => by simp at h, fun f h => by simp at h⟩
    | diverge => exact ⟨fun e h => by simp at h, fun f h => by simp at h⟩
    | ok idx =>
      refine ⟨fun e h => by simp at h, fun f h => ?_⟩
      simp only [Res.ok_bind, Res.ok.injEq] at h
      subst h
      obtain ⟨l', h1, h2, h3⟩ := fastFill_any (Corr.resizeZero it.selection (rest.length + 1)) idx
      rw [resizeZero_length] at h1 h2 h3
      simp only
      rw [h1]
      have hlen : (fastFill (rest.length + 1) idx).length = rest.length + 1 := by simp [fastFill]
      refine ⟨_, l', rest.length + 1 - idx, rfl, rfl, fun h => ?_, fun _ => by simp [h2, hlen], ?_⟩
      · exfalso
        have := congrArg List.length h
        simp [hlen] at this
      · intro i hi
        simp only [hlen] at hi
        have hfi : (fastFill (rest.length + 1) idx)[i]? = some (if i + idx < rest.length + 1 then idx + i else 0) := by
          simp [fastFill, hi]
        refine ⟨fun h => ?_, fun h => ?_⟩
        · rw [(h3 i hi).1 (by omega), hfi, if_pos (by omega)]
        · rw [(h3 i hi).2 (by omega), hfi, if_neg (by omega), resizeZero_getElem? _ _ _ hi]
          exact ⟨rfl, rfl⟩

/-- the second entry, `0` for a new iterator, is what it was -/
example : (((mkFlat (q [0, 1, 3]) (q [1, 2, 6])).bind Corr.new).bind fun c =>
    (c.fastOn .fabs { CorrIt.new (.fin 1) 1 with selection := [7, 8, 9] }).res.bind fun it => .ok it.selection) = .ok [1, 8] := by decide +kernel
example : (((mkFlat (q [0, 1, 3]) (q [1, 2, 6])).bind Corr.new).bind fun c =>
    (c.fastOn .fabs (CorrIt.new (.fin 1) 1)).res.bind fun it => .ok it.selection) = .ok [1, 0] := by decide +kernel

/-! ### deltaT -/

theorem goodPrefix_append {α β : Type} {f : α → Res β} {l l' : List α} {ys : List β} (h : Res.mapL f l = .ok ys) {x : α}
    (hx : ∀ y, f x ≠ .ok y) : goodPrefix f (l ++ x :: l') = ys := by
  induction l generalizing ys with
  | nil =>
    simp only [Res.mapL_nil, Res.ok.injEq] at h
    subst h
    rw [List.nil_append]
    unfold goodPrefix
    cases hf : f x with
    | ok y => exact absurd hf (hx y)
    | exn e => rfl
    | ub => rfl
    | diverge => rfl
  | cons z l ih =>
    rw [Res.mapL_cons, Res.bind_eq_ok] at h
    obtain ⟨y, h1, h⟩ := h
    rw [Res.bind_eq_ok] at h
    obtain ⟨ys', h2, h3⟩ := h
    simp only [Res.ok.injEq] at h3
    subst h3
    rw [List.cons_append]
    unfold goodPrefix
    rw [h1]
    simp only
    rw [ih h2]

theorem mapL_first_bad {α β : Type} {f : α → Res β} {l l' : List α} {ys : List β} (h : Res.mapL f l = .ok ys) {x : α}
    (hx : ∀ y, f x ≠ .ok y) : Res.mapL f (l ++ x :: l') = (f x).bind fun _ => .ok [] := by
  rw [Res.mapL_append, h]
  simp only [Res.ok_bind, Res.mapL_cons]
  cases hf : f x with
  | ok y => exact absurd hf (hx y)
  | exn e => rfl
  | ub => rfl
  | diverge => rfl

/-- the storage of the shifted times, cleared or not -/
def Vec.storage (v : Vec F) : List F := v.elems ++ v.stale

/-- the first `p` distances of an iterator: those of the selected samples from the shifted times -/
structure Distances (d : DS F) (it : CorrIt F) (p : ℕ) (ds : List F) : Prop where
  length : ds.length = p
  entry : ∀ i < p, ∃ s t x, it.selection[i]? = some s ∧ d.normT[s]? = some t ∧ it.shifted.storage[i]? = some x ∧
    ds[i]? = some (fabs (sub t x))

theorem distAt_ok {nt : List F} {sh : Vec F} {s i : ℕ} {t x : F} (ht : nt[s]? = some t) (hx : sh.storage[i]? = some x) :
    distAt .fabs nt sh (s, i) = .ok (fabs (sub t x)) := by
  unfold distAt Vec.raw
  rw [atGet_eq_ok.2 ht]
  simp only [Res.ok_bind]
  rw [show sh.elems ++ sh.stale = sh.storage from rfl, rawGet_eq_ok.2 hx]
  rfl

theorem distances_mapL {d : DS F} {it : CorrIt F} (p : ℕ) (hp : p ≤ it.selection.length)
    (hgood : ∀ i < p, ∀ s, it.selection[i]? = some s → s < d.normT.length ∧ i < it.shifted.storage.length) :
    ∃ ds, Res.mapL (distAt .fabs d.normT it.shifted) (it.selection.zipIdx.take p) = .ok ds ∧ Distances d it p ds := by
  obtain ⟨ds, h1, _⟩ := Res.mapL_ok_of_forall (f := distAt .fabs d.normT it.shifted) (P := fun _ => True) (l := it.selection.zipIdx.take p)
    (fun q hq => by
      obtain ⟨i, hi, rfl⟩ := List.getElem_of_mem hq
      simp only [List.length_take, List.length_zipIdx, lt_inf_iff] at hi
      simp only [List.getElem_take, List.getElem_zipIdx, Nat.zero_add]
      obtain ⟨g1, g2⟩ := hgood i hi.1 _ (List.getElem?_eq_getElem hi.2)
      exact ⟨_, distAt_ok (List.getElem?_eq_getElem g1) (List.getElem?_eq_getElem g2), trivial⟩)
  refine ⟨ds, h1, ?_, ?_⟩
  · rw [Res.mapL_length h1]; simp; omega
  · intro i hi
    have hi' : i < it.selection.length := by omega
    obtain ⟨g1, g2⟩ := hgood i hi _ (List.getElem?_eq_getElem hi')
    obtain ⟨y, hy, h2⟩ := Res.mapL_eq_ok_getElem h1 i (it.selection[i], i) (by simp [hi, hi'])
    rw [distAt_ok (List.getElem?_eq_getElem g1) (List.getElem?_eq_getElem g2)] at h2
    simp only [Res.ok.injEq] at h2
    exact ⟨_, _, _, List.getElem?_eq_getElem hi', List.getElem?_eq_getElem g1, List.getElem?_eq_getElem g2, by rw [hy, h2]⟩

/-- **C72** (any arithmetic, floating-point `abs`), `deltaT` on any iterator.  Each selected index is looked up among the times, with a check, and its
position in the storage of the shifted times, without.  If all are there, the distances are appended; at the first index that is no sample `IndexError` is
raised, with the distances before it appended; if there is none, but the storage is too short, the behaviour is undefined. -/
theorem C72_deltaT (d : DS F) (hd : Constructed d) (c : Corr F) (hc : c.ds = d) (it : CorrIt F) :
    ((∀ s ∈ it.selection, s < d.M) → it.selection.length ≤ it.shifted.storage.length → ∃ (ds : List F) (sh : Vec F),
      Distances d it it.selection.length ds ∧ sh.elems = [] ∧ sh.storage = it.shifted.storage ∧
      c.deltaOn .fabs it = .ok () { it with deltaT := it.deltaT ++ ds, shifted := sh }) ∧
    (∀ p s, it.selection[p]? = some s → d.M ≤ s → (∀ i < p, ∀ s', it.selection[i]? = some s' → s' < d.M) → p ≤ it.shifted.storage.length →
      ∃ ds, Distances d it p ds ∧ c.deltaOn .fabs it = .exn .indexError { it with deltaT := it.deltaT ++ ds }) ∧
    (it.shifted.storage.length < it.selection.length → (∀ i ≤ it.shifted.storage.length, ∀ s, it.selection[i]? = some s → s < d.M) →
      c.deltaOn .fabs it = .ub) := by
  subst hc
  have hM := hd.wf.M_eq
  rw [deltaOn_eq, hM]
  have split : ∀ p (hp : p < it.selection.length), it.selection.zipIdx
      = it.selection.zipIdx.take p ++ (it.selection[p], p) :: it.selection.zipIdx.drop (p + 1) := by
    intro p hp
    rw [show (it.selection[p], p) = it.selection.zipIdx[p]'(by simpa using hp) by simp, ← List.drop_eq_getElem_cons, List.take_append_drop]
  refine ⟨fun hs hlen => ?_, fun p s hp hs hbef hlen => ?_, fun hlen hs => ?_⟩
  · obtain ⟨ds, h1, h2⟩ := distances_mapL (d := c.ds) (it := it) it.selection.length le_rfl
      (fun i hi s h => ⟨hs s (List.mem_iff_getElem?.2 ⟨i, h⟩), by omega⟩)
    rw [List.take_of_length_le (by simp)] at h1
    rw [h1]
    exact ⟨ds, it.shifted.clear, h2, rfl, rfl, rfl⟩
  · have hp' : p < it.selection.length := (List.getElem?_eq_some_iff.1 hp).1
    have hps : it.selection[p] = s := (List.getElem?_eq_some_iff.1 hp).2
    obtain ⟨ds, h1, h2⟩ := distances_mapL (d := c.ds) (it := it) p hp'.le (fun i hi s' h => ⟨hbef i hi s' h, by omega⟩)
    have hx : distAt .fabs c.ds.normT it.shifted (it.selection[p], p) = .exn .indexError := by
      unfold distAt
      rw [hps, atGet_of_ge hs]
      rfl
    have hne : ∀ y, distAt .fabs c.ds.normT it.shifted (it.selection[p], p) ≠ .ok y := by rw [hx]; intro y h; cases h
    have e1 := mapL_first_bad (l' := it.selection.zipIdx.drop (p + 1)) h1 hne
    have e2 := goodPrefix_append (l' := it.selection.zipIdx.drop (p + 1)) h1 hne
    rw [← split p hp'] at e1 e2
    rw [e1, e2, hx]
    exact ⟨ds, h2, rfl⟩
  · obtain ⟨ds, h1, h2⟩ := distances_mapL (d := c.ds) (it := it) it.shifted.storage.length hlen.le (fun i hi s' h => ⟨hs i hi.le s' h, hi⟩)
    have hb := hs _ le_rfl _ (List.getElem?_eq_getElem hlen)
    have hx : distAt .fabs c.ds.normT it.shifted (it.selection[it.shifted.storage.length], it.shifted.storage.length) = .ub := by
      unfold distAt Vec.raw
      rw [atGet_of_lt hb]
      simp only [Res.ok_bind]
      rw [rawGet_of_ge (by rfl)]
      rfl
    have e1 := mapL_first_bad (l' := it.selection.zipIdx.drop (it.shifted.storage.length + 1)) h1
      (x := (it.selection[it.shifted.storage.length], it.shifted.storage.length)) (by rw [hx]; intro y h; cases h)
    rw [← split _ hlen] at e1
    rw [e1, hx]
    rfl

/-! ### findCorrelation -/

/-- all there; an index that is no sample; a storage that is too short -/
example : (((mkFlat (q [0, 1, 3]) (q [1, 2, 6])).bind Corr.new).bind fun c =>
    .ok (c.deltaOn .fabs { CorrIt.new (.fin 1) 1 with selection := [1, 2], shifted := ⟨[], q [1, 2]⟩ }))
    = .ok (.ok () { CorrIt.new (.fin 1) 1 with selection := [1, 2], shifted := ⟨[], q [1, 2]⟩, deltaT := q [0, 1] }) := by decide +kernel
example : (((mkFlat (q [0, 1, 3]) (q [1, 2, 6])).bind Corr.new).bind fun c =>
    .ok (c.deltaOn .fabs { CorrIt.new (.fin 1) 1 with selection := [1, 5], shifted := ⟨[], q [1, 2]⟩ }))
    = .ok (.exn .indexError { CorrIt.new (.fin 1) 1 with selection := [1, 5], shifted := ⟨[], q [1, 2]⟩, deltaT := q [0] }) := by decide +kernel
example : (((mkFlat (q [0, 1, 3]) (q [1, 2, 6])).bind Corr.new).bind fun c =>
    .ok (c.deltaOn .fabs { CorrIt.new (.fin 1) 1 with selection := [1, 2], shifted := ⟨[], q [1]⟩ })) = .ok .ub := by decide +kernel

theorem zipIdx_eq_map (l : List F) : l.zipIdx = (List.range l.length).map fun i => (l.getD i zero, i) := by
  apply List.ext_getElem
  · simp
  · intro i h1 h2
    simp at h1
    simp [h1]

/-- a loop whose steps fail or not whatever the state -/
theorem foldL_kind {σ α : Type} {f : σ → α → Res σ} {l : List α} {good : α → Prop} {e : Exc}
    (h1 : ∀ s, ∀ x ∈ l, good x → ∃ s', f s x = .ok s') (h2 : ∀ s, ∀ x ∈ l, ¬ good x → f s x = .exn e) (s : σ) :
    ((∀ x ∈ l, good x) → ∃ s', Res.foldL f s l = .ok s') ∧ ((∃ x ∈ l, ¬ good x) → Res.foldL f s l = .exn e) := by
  induction l generalizing s with
  | nil => exact ⟨fun _ => ⟨s, rfl⟩, fun ⟨x, hx, _⟩ => absurd hx (by simp)⟩
  | cons x xs ih =>
    have ih := ih (fun s y hy => h1 s y (List.mem_cons_of_mem _ hy)) (fun s y hy => h2 s y (List.mem_cons_of_mem _ hy))
    rw [Res.foldL_cons]
    by_cases hx : good x
    · obtain ⟨s', hs'⟩ := h1 s x (by simp) hx
      rw [hs', Res.ok_bind]
      refine ⟨fun h => (ih s').1 fun y hy => h y (List.mem_cons_of_mem _ hy), fun ⟨y, hy, hyg⟩ => (ih s').2 ⟨y, ?_, hyg⟩⟩
      rcases List.mem_cons.1 hy with rfl | hy
      · exact absurd hx hyg
      · exact hy
    · rw [h2 s x (by simp) hx]
      exact ⟨fun h => absurd (h x (by simp)) hx, fun _ => rfl⟩

/-- the products for dataset `j` of an iterator are within the normalised values: sample `i` and the one selected for it -/
def InData (d : DS F) (it : CorrIt F) (j : ℕ) : Prop :=
  ∀ i < it.weights.length, i + j * d.M < d.normData.length ∧ it.selection.getD i 0 + j * d.M < d.normData.length

theorem InData.mono {d : DS F} {it : CorrIt F} {j j' : ℕ} (h : InData d it j') (hj : j ≤ j') : InData d it j := by
  intro i hi
  have := h i hi
  have := Nat.mul_le_mul_right d.M hj
  omega

theorem sumCorrelation_kind (c : Corr F) (it : CorrIt F) (hw : it.weights.length ≤ it.selection.length) (j : ℕ) (acc : F) :
    (InData c.ds it j → ∃ v, c.sumCorrelation it j acc = .ok v) ∧
    (¬ InData c.ds it j → c.sumCorrelation it j acc = .exn .indexError) := by
  unfold Corr.sumCorrelation
  rw [zipIdx_eq_map, Res.foldL_map]
  simp only
  have key := foldL_kind (l := List.range it.weights.length) (e := .indexError)
    (f := fun acc i => (atGet c.ds.normData (vecIdx c.ds.M i j)).bind fun x =>
      (rawGet it.selection i).bind fun s =>
      (atGet c.ds.normData (vecIdx c.ds.M s j)).bind fun y => .ok (addMul acc (mul (it.weights.getD i zero) x) y))
    (good := fun i => i + j * c.ds.M < c.ds.normData.length ∧ it.selection.getD i 0 + j * c.ds.M < c.ds.normData.length)
    (fun s i hi hg => by
      have hi := List.mem_range.1 hi
      have hsel : it.selection.getD i 0 = it.selection[i] := by simp [List.getD, show i < it.selection.length by omega]
      rw [hsel] at hg
      unfold vecIdx
      rw [atGet_of_lt hg.1, Res.ok_bind, rawGet_of_lt (show i < it.selection.length by omega), Res.ok_bind, atGet_of_lt hg.2]
      exact ⟨_, rfl⟩)
    (fun s i hi hg => by
      have hi := List.mem_range.1 hi
      have hsel : it.selection.getD i 0 = it.selection[i] := by simp [List.getD, show i < it.selection.length by omega]
      rw [hsel] at hg
      unfold vecIdx
      by_cases h1 : i + j * c.ds.M < c.ds.normData.length
      · rw [atGet_of_lt h1, Res.ok_bind, rawGet_of_lt (show i < it.selection.length by omega), Res.ok_bind, atGet_of_ge (by
          by_contra h2; exact hg ⟨h1, by omega⟩)]
        rfl
      · rw [atGet_of_ge (by omega)]
        rfl) acc
  refine ⟨fun h => key.1 fun i hi => h i (List.mem_range.1 hi), fun h => key.2 ?_⟩
  unfold InData at h
  push Not at h
  obtain ⟨i, hi, h⟩ := h
  exact ⟨i, List.mem_range.2 hi, fun hg => absurd hg.2 (by have := h hg.1; omega)⟩

/-- one dataset in `findCorrelation` -/
def corrStep (c : Corr F) (it : CorrIt F) (out : List F) (j : ℕ) : Res (List F) :=
  (rawGet out j).bind fun acc0 =>
  (Corr.sumCorrelation c it j acc0).bind fun acc =>
  (rawGet c.norm j).bind fun n =>
  rawSet out j (mul acc (div one n))

theorem findCorrelation_steps (c : Corr F) (it : CorrIt F) :
    c.findCorrelation it = (Res.foldL (corrStep c it) it.correlation (List.range c.ds.N)).bind fun out => .ok { it with correlation := out } := rfl

theorem corrStep_kind {c : Corr F} (hn : c.norm.length = c.ds.N) (it : CorrIt F) (hw : it.weights.length ≤ it.selection.length) (l : List ℕ) :
    ∀ out : List F, (∀ j ∈ l, j < c.ds.N ∧ j < out.length) →
      ((∀ j ∈ l, InData c.ds it j) → ∃ out', Res.foldL (corrStep c it) out l = .ok out' ∧ out'.length = out.length) ∧
      ((∃ j ∈ l, ¬ InData c.ds it j) → Res.foldL (corrStep c it) out l = .exn .indexError) := by
  induction l with
  | nil => intro out _; exact ⟨fun _ => ⟨out, rfl, rfl⟩, fun ⟨j, hj, _⟩ => absurd hj (by simp)⟩
  | cons j js ih =>
    intro out hl
    obtain ⟨hj, hjo⟩ := hl j (by simp)
    rw [Res.foldL_cons]
    unfold corrStep
    rw [rawGet_of_lt hjo, Res.ok_bind, rawGet_of_lt (show j < c.norm.length by omega)]
    simp only [Res.ok_bind]
    obtain ⟨k1, k2⟩ := sumCorrelation_kind c it hw j out[j]
    by_cases hd : InData c.ds it j
    · obtain ⟨v, hv⟩ := k1 hd
      rw [hv, Res.ok_bind, rawSet_of_lt hjo, Res.ok_bind]
      obtain ⟨i1, i2⟩ := ih (out.set j (mul v (div one c.norm[j]))) (fun i hi => by
        simpa using hl i (List.mem_cons_of_mem _ hi))
      refine ⟨fun h => ?_, fun ⟨i, hi, hg⟩ => i2 ⟨i, ?_, hg⟩⟩
      · obtain ⟨o, h1, h2⟩ := i1 fun i hi => h i (List.mem_cons_of_mem _ hi)
        exact ⟨o, h1, by simpa using h2⟩
      · rcases List.mem_cons.1 hi with rfl | hi
        · exact absurd hd hg
        · exact hi
    · rw [k2 hd]
      exact ⟨fun h => absurd (h j (by simp)) hd, fun _ => rfl⟩

theorem Out.of_res_ok {σ : Type} {x : Out σ Unit} {s : σ} (h : x.res = .ok s) : x = .ok () s := by
  cases x <;> simp_all [Out.res]

theorem Out.of_res_exn {σ : Type} {x : Out σ Unit} {e : Exc} (h : x.res = .exn e) : ∃ s, x = .exn e s := by
  cases x <;> simp_all [Out.res]

theorem Out.of_res_ub {σ : Type} {x : Out σ Unit} (h : x.res = .ub) : x = .ub := by
  cases x <;> simp_all [Out.res]

/-- **C72** (any arithmetic), `findCorrelation` on any iterator with a slot for each dataset and an index for each weight: it returns exactly if all samples
needed for the last dataset are within the values, and raises `IndexError` otherwise. -/
theorem C72_find (a : AbsFn) (d : DS F) (hd : Constructed d) (c : Corr F) (h : Reached a d c) (it : CorrIt F) (hcl : d.N ≤ it.correlation.length)
    (hw : it.weights.length ≤ it.selection.length) :
    (InData d it (d.N - 1) → ∃ out, c.correlateOn it = .ok () { it with correlation := out }) ∧
    (¬ InData d it (d.N - 1) → ∃ it', c.correlateOn it = .exn .indexError it') := by
  obtain ⟨hg, hds, _⟩ := h.good hd
  subst hds
  have hN := hg.wf.npos
  obtain ⟨k1, k2⟩ := corrStep_kind hg.norm_len it hw (List.range c.ds.N) it.correlation (fun j hj => by
    have := List.mem_range.1 hj
    omega)
  refine ⟨fun h => ?_, fun h => ?_⟩
  · obtain ⟨out, ho, _⟩ := k1 fun j hj => h.mono (by have := List.mem_range.1 hj; omega)
    refine ⟨out, Out.of_res_ok ?_⟩
    rw [correlateOn_res, findCorrelation_steps, ho]
    rfl
  · refine Out.of_res_exn ?_
    rw [correlateOn_res, findCorrelation_steps, k2 ⟨c.ds.N - 1, List.mem_range.2 (by omega), h⟩]
    rfl

/-- Two datasets, `-2, -1, 3` and `2/3, -1/3, -1/3` after normalisation.  With four weights the sum of the first dataset takes a value of the second one; only
the second dataset raises.  The first slot holds a number by then. -/
example : (((mkTable (q [0, 1, 3]) [q [1, 2, 6], q [1, 0, 0]]).bind Corr.new).bind fun c =>
    .ok (c.correlateOn { CorrIt.new (.fin 1) 2 with selection := [1, 2, 0, 0], weights := q [1, 1, 1, 1] }))
    = .ok (.exn .indexError { CorrIt.new (.fin 1) 2 with selection := [1, 2, 0, 0], weights := q [1, 1, 1, 1], correlation := q [-25/42, -1/3] }) := by
  decide +kernel

theorem inData_of_lt {d : DS F} (hd : d.WF) {it : CorrIt F} (hM : it.weights.length ≤ d.M) (hs : ∀ s ∈ it.selection, s < d.M) {j : ℕ} (hj : j < d.N) :
    InData d it j := by
  have h1 : (j + 1) * d.M ≤ d.N * d.M := Nat.mul_le_mul_right _ hj
  rw [Nat.succ_mul] at h1
  have h2 := hd.norm_len
  have hMp : 0 < d.M := by rw [hd.M_eq]; exact List.length_pos_of_ne_nil hd.ne
  intro i hi
  refine ⟨by omega, ?_⟩
  have : it.selection.getD i 0 < d.M := by
    by_cases h : i < it.selection.length
    · simp only [List.getD, List.getElem?_eq_getElem h, Option.getD_some]
      exact hs _ (List.getElem_mem _)
    · simp only [List.getD, List.getElem?_eq_none (show it.selection.length ≤ i by omega), Option.getD_none]
      exact hMp
  omega

theorem range_split {a n : ℕ} (h : a < n) : List.range n = List.range a ++ a :: List.range' (a + 1) (n - a - 1) := by
  obtain ⟨k, rfl⟩ : ∃ k, n = a + (k + 1) := ⟨n - a - 1, by omega⟩
  have e : a + (k + 1) - a - 1 = k := by omega
  rw [e, ← List.range'_succ, List.range_eq_range', List.range_eq_range', ← List.range'_append_1 (s := 0), Nat.zero_add]

/-- **C72** (any arithmetic): the two ways in which `findCorrelation` leaves the iterator – fewer slots than datasets, or fewer indices than weights – are undefined behaviour,
for selections of samples of the data. -/
theorem C72_find_unsafe (a : AbsFn) (d : DS F) (hd : Constructed d) (c : Corr F) (h : Reached a d c) (it : CorrIt F) (hs : ∀ s ∈ it.selection, s < d.M)
    (hbad : (it.correlation.length < d.N ∧ it.weights.length ≤ it.selection.length ∧ it.weights.length ≤ d.M) ∨
      (it.selection.length < it.weights.length ∧ it.selection.length < d.M)) :
    c.correlateOn it = .ub := by
  obtain ⟨hg, hds, _⟩ := h.good hd
  subst hds
  have hN := hg.wf.npos
  apply Out.of_res_ub
  rw [correlateOn_res, findCorrelation_steps]
  rcases hbad with ⟨h1, h2, h3⟩ | ⟨h1, h2⟩
  · obtain ⟨out, ho, hol⟩ := (corrStep_kind hg.norm_len it h2 (List.range it.correlation.length) it.correlation (fun j hj => by
      have := List.mem_range.1 hj
      omega)).1 fun j hj => inData_of_lt hg.wf h3 hs (by have := List.mem_range.1 hj; omega)
    rw [range_split h1, Res.foldL_append, ho, Res.ok_bind, Res.foldL_cons]
    unfold corrStep
    rw [rawGet_of_ge (by omega)]
    rfl
  · have hsum : ∀ acc, c.sumCorrelation it 0 acc = .ub := by
      intro acc
      unfold Corr.sumCorrelation
      rw [zipIdx_eq_map, Res.foldL_map]
      simp only
      have hNM : c.ds.M ≤ c.ds.normData.length := by
        have := hg.wf.norm_len
        have := Nat.mul_le_mul_right c.ds.M (show 1 ≤ c.ds.N from hN)
        omega
      obtain ⟨v, hv⟩ := (foldL_kind (l := List.range it.selection.length) (e := .indexError)
        (f := fun acc i => (atGet c.ds.normData (vecIdx c.ds.M i 0)).bind fun x =>
          (rawGet it.selection i).bind fun s =>
          (atGet c.ds.normData (vecIdx c.ds.M s 0)).bind fun y => .ok (addMul acc (mul (it.weights.getD i zero) x) y))
        (good := fun _ => True)
        (fun s i hi _ => by
          have hi := List.mem_range.1 hi
          have := hs _ (List.getElem_mem hi)
          unfold vecIdx
          rw [atGet_of_lt (show i + 0 * c.ds.M < _ by omega), Res.ok_bind, rawGet_of_lt hi, Res.ok_bind,
            atGet_of_lt (show it.selection[i] + 0 * c.ds.M < _ by omega)]
          exact ⟨_, rfl⟩)
        (fun s i _ h => absurd trivial h) acc).1 (fun _ _ => trivial)
      rw [range_split h1, Res.foldL_append, hv, Res.ok_bind, Res.foldL_cons]
      unfold vecIdx
      rw [atGet_of_lt (show it.selection.length + 0 * c.ds.M < _ by omega), Res.ok_bind, rawGet_of_ge le_rfl]
      rfl
    obtain ⟨n, hn⟩ : ∃ n, c.ds.N = n + 1 := ⟨c.ds.N - 1, by omega⟩
    rw [hn, List.range_succ_eq_map, Res.foldL_cons]
    unfold corrStep
    cases h0 : rawGet it.correlation 0 with
    | ok v => rw [Res.ok_bind, hsum]; rfl
    | ub => rfl
    | exn e => unfold rawGet at h0; split at h0 <;> cases h0
    | diverge => unfold rawGet at h0; split at h0 <;> cases h0

/-- one index for two weights; one slot for two datasets -/
example : (((mkTable (q [0, 1, 3]) [q [1, 2, 6], q [1, 0, 0]]).bind Corr.new).bind fun c =>
    .ok (c.correlateOn { CorrIt.new (.fin 1) 2 with selection := [1], weights := q [1, 1] })) = .ok .ub := by decide +kernel
example : (((mkTable (q [0, 1, 3]) [q [1, 2, 6], q [1, 0, 0]]).bind Corr.new).bind fun c =>
    .ok (c.correlateOn { CorrIt.new (.fin 1) 1 with selection := [1], weights := q [1] })) = .ok .ub := by decide +kernel

/-- `acc + Σ w_i x_i x_sel(i)`, from the left -/
def products (x ws : List F) (sel : List ℕ) (acc : F) : F :=
  (List.range ws.length).foldl (fun acc i => addMul acc (mul (ws.getD i zero) (x.getD i zero)) (x.getD (sel.getD i 0) zero)) acc

/-- **C72** (any arithmetic), what `findCorrelation` computes: the products are added to what is in the slots, and the sums are multiplied by the
reciprocal of the normaliser.  So a second call adds to the result of the first. -/
theorem C72_find_value (a : AbsFn) (d : DS F) (hd : Constructed d) (c : Corr F) (h : Reached a d c) (it : CorrIt F) (hcl : d.N ≤ it.correlation.length)
    (hw : it.weights.length ≤ it.selection.length) (hM : it.weights.length ≤ d.M) (hs : ∀ s ∈ it.selection, s < d.M) :
    ∃ out, c.correlateOn it = .ok () { it with correlation := out } ∧ out.length = it.correlation.length ∧
      (∀ j < d.N, ∀ v, it.correlation[j]? = some v →
        out[j]? = some (mul (products (d.nrow j) it.weights it.selection v) (div one (c.norm.getD j zero)))) ∧
      ∀ j, d.N ≤ j → out[j]? = it.correlation[j]? := by
  obtain ⟨hg, hds, _⟩ := h.good hd
  subst hds
  have hMp : 0 < c.ds.M := by rw [hg.wf.M_eq]; exact List.length_pos_of_ne_nil hg.wf.ne
  have hsum : ∀ j < c.ds.N, ∀ acc, c.sumCorrelation it j acc = .ok (products (c.ds.nrow j) it.weights it.selection acc) := by
    intro j hj acc
    unfold Corr.sumCorrelation products
    rw [zipIdx_eq_map, Res.foldL_map]
    simp only
    apply Res.foldL_ok
    intro s i hi
    have hi := List.mem_range.1 hi
    have hsel : it.selection.getD i 0 = it.selection[i] := by simp [List.getD, show i < it.selection.length by omega]
    have := hs _ (List.getElem_mem (show i < it.selection.length by omega))
    rw [atGet_row hg.wf.norm_len (by omega) hj, Res.ok_bind, rawGet_of_lt (show i < it.selection.length by omega), Res.ok_bind,
      atGet_row hg.wf.norm_len this hj, Res.ok_bind, hsel]
    rfl
  have key : ∀ J ≤ c.ds.N, ∃ out, Res.foldL (corrStep c it) it.correlation (List.range J) = .ok out ∧ out.length = it.correlation.length ∧
      (∀ j < J, ∀ v, it.correlation[j]? = some v →
        out[j]? = some (mul (products (c.ds.nrow j) it.weights it.selection v) (div one (c.norm.getD j zero)))) ∧
      ∀ j, J ≤ j → out[j]? = it.correlation[j]? := by
    intro J
    induction J with
    | zero => intro _; exact ⟨_, rfl, rfl, fun j hj => absurd hj (by omega), fun _ _ => rfl⟩
    | succ J ih =>
      intro hJ
      obtain ⟨out, h1, h2, h3, h4⟩ := ih (by omega)
      have hJo : J < out.length := by omega
      have hJn : J < c.norm.length := by rw [hg.norm_len]; omega
      rw [List.range_succ, Res.foldL_append, h1, Res.ok_bind, Res.foldL_cons]
      unfold corrStep
      rw [rawGet_of_lt hJo, Res.ok_bind, hsum J (by omega), Res.ok_bind, rawGet_of_lt hJn, Res.ok_bind, rawSet_of_lt hJo]
      refine ⟨_, rfl, by simpa using h2, ?_, ?_⟩
      · intro j hj v hv
        rw [List.getElem?_set]
        by_cases e : J = j
        · subst e
          rw [← h4 J le_rfl, List.getElem?_eq_getElem hJo, Option.some.injEq] at hv
          subst hv
          simp [hJo, List.getD, hJn]
        · rw [if_neg e]
          exact h3 j (by omega) v hv
      · intro j hj
        rw [List.getElem?_set, if_neg (by omega)]
        exact h4 j (by omega)
  obtain ⟨out, h1, h2, h3, h4⟩ := key _ le_rfl
  refine ⟨out, Out.of_res_ok ?_, h2, h3, h4⟩
  rw [correlateOn_res, findCorrelation_steps, h1]
  rfl

/-- slots that hold 1 and 2: `(1 + 2 - 3) / 14` and `(2 - 2/9 + 1/9) / (2/3)` -/
example : (((mkTable (q [0, 1, 3]) [q [1, 2, 6], q [1, 0, 0]]).bind Corr.new).bind fun c =>
    (c.correlateOn { CorrIt.new (.fin 1) 2 with selection := [1, 2], weights := q [1, 1], correlation := q [1, 2] }).res.bind fun it =>
      .ok it.correlation) = .ok (q [0, 17/6]) := by decide +kernel

end lawfree

/-! ### after a fast selection that raised -/

section rounded
variable {K : Type} [Field K] [LinearOrder K] [IsStrictOrderedRing K] [FloorRing K] {R : Rnd K}

theorem xf_lt_of_le_false {x y : XF R} (h : le x y = false) : lt x y = false := by
  cases x <;> cases y <;> first | rfl | exact h | cases h | skip
  simp at h ⊢
  exact le_of_lt h

/-- **C72** (any rounding): a caller who tries fast selection and, when it raises, goes on with natural selection *on the same iterator* gets more indices
than natural selection selects: those of the times left over come first. -/
theorem C72_leftover (d : DS (XF R)) (hd : Constructed d) (c : Corr (XF R)) (hc : c.ds = d) (k : XF R) (n : ℕ) (e : Exc)
    (h : c.fastSelection .fabs (CorrIt.new k n) = .exn e) :
    ∃ (it' it'' f : CorrIt (XF R)) (old : List ℕ), c.fastOn .fabs (CorrIt.new k n) = .exn e it' ∧ c.naturalOn .fabs it' = .ok () it'' ∧
      c.naturalSelection .fabs (CorrIt.new k n) = .ok f ∧ old ≠ [] ∧ it''.selection = old ++ f.selection := by
  have hw := hd.wf
  have hne : c.ds.normT ≠ [] := by rw [hc]; exact hw.ne
  have heq := fastOn_eq .fabs c hne (CorrIt.new k n) rfl
  rw [fastSelection_eq .fabs c hne] at h
  unfold planFast at h
  rw [show (CorrIt.new k n).k = k from rfl] at heq
  cases hs : shiftedFast c.ds.normT k with
  | nil => rw [hs] at h; simp at h
  | cons s rest =>
    rw [hs] at h heq
    simp only at h heq
    cases hf : fastFirst .fabs c.ds.normT s with
    | ok idx => rw [hf] at h; simp at h
    | ub => rw [hf] at h; simp at h
    | diverge => rw [hf] at h; simp at h
    | exn e' =>
      rw [hf] at h heq
      simp only [Res.exn_bind, Res.exn.injEq] at h
      subst h
      simp only at heq
      obtain ⟨old, new, sh, h1, h2, _, _, h5⟩ := C72_natural d hd c hc
        { CorrIt.new k n with shifted := ⟨s :: rest, (CorrIt.new k n).shifted.stale.drop (rest.length + 1)⟩ } (by
          intro x hx t ht
          apply xf_lt_of_le_false
          have hmem : x ∈ shiftedFast c.ds.normT k := by rw [hs]; exact hx
          unfold shiftedFast at hmem
          have := List.all_eq_true.1 List.all_takeWhile x hmem
          have hl := rawGet_last hne
          rw [rawGet_eq_ok, hc, ← List.getLast?_eq_getElem?, ht, Option.some.injEq] at hl
          rw [hc, ← hl] at this
          simpa using this)
      obtain ⟨f, hf1, hf2⟩ := h5 n
      refine ⟨_, _, f, old, heq, h1, hf1, ?_, ?_⟩
      · intro he
        rw [he] at h2
        simp at h2
      · rw [hf2]
        rfl

end rounded

/-! ### examples -/

/-- fast selection at lag 2 raises, and natural selection on the same iterator takes the time left over (the sample nearest to 2 is the third one, at 3) and then its own two -/
example : (((mkFlat (q [0, 1, 3]) (q [1, 2, 6])).bind Corr.new).bind fun c =>
    .ok (match c.fastOn .fabs (CorrIt.new (.fin 2) 1) with
      | .exn e it => (some e, it.shifted.elems, (c.naturalOn .fabs it).res.bind fun it => .ok it.selection)
      | _ => (none, [], .ub)))
    = .ok (some .indexError, q [2], .ok [2, 2, 2]) := by decide +kernel
example : (((mkFlat (q [0, 1, 3]) (q [1, 2, 6])).bind Corr.new).bind fun c =>
    (c.naturalSelection .fabs (CorrIt.new (.fin 2) 1)).bind fun it => .ok it.selection)
    = .ok [2, 2] := by decide +kernel

end Sacf
