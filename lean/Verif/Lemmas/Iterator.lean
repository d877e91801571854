import Verif.Model.Iterator
import Verif.Lemmas.Session

/-! Helper lemmas about the methods on iterators that survive exceptions. -/

set_option linter.unusedSectionVars false
set_option linter.unusedSimpArgs false

namespace Sacf

open Arith

variable {F : Type} [Arith F]

namespace Out
variable {σ α β : Type}

@[simp] theorem ok_bind (a : α) (s : σ) (f : α → σ → Out σ β) : (ok a s).bind f = f a s := rfl
@[simp] theorem exn_bind (e : Exc) (s : σ) (f : α → σ → Out σ β) : (exn e s : Out σ α).bind f = exn e s := rfl
@[simp] theorem ub_bind (f : α → σ → Out σ β) : (ub : Out σ α).bind f = ub := rfl
@[simp] theorem diverge_bind (f : α → σ → Out σ β) : (diverge : Out σ α).bind f = diverge := rfl
@[simp] theorem lift_ok (s : σ) (a : α) : lift s (.ok a) = ok a s := rfl
@[simp] theorem lift_exn (s : σ) (e : Exc) : (lift s (.exn e) : Out σ α) = exn e s := rfl
@[simp] theorem lift_ub (s : σ) : (lift s .ub : Out σ α) = ub := rfl
@[simp] theorem lift_diverge (s : σ) : (lift s .diverge : Out σ α) = diverge := rfl
@[simp] theorem res_ok (u : Unit) (s : σ) : (ok u s : Out σ Unit).res = .ok s := rfl
@[simp] theorem res_exn (e : Exc) (s : σ) : (exn e s : Out σ Unit).res = .exn e := rfl
@[simp] theorem res_ub : (ub : Out σ Unit).res = .ub := rfl
@[simp] theorem res_diverge : (diverge : Out σ Unit).res = .diverge := rfl

theorem res_lift_bind (s : σ) (x : Res α) (f : α → σ → Out σ Unit) : ((lift s x).bind f).res = x.bind fun a => (f a s).res := by
  cases x <;> rfl

theorem res_bind_unit (x : Out σ Unit) (f : Unit → σ → Out σ Unit) : (x.bind f).res = x.res.bind fun s => (f () s).res := by
  cases x <;> rfl

@[simp] theorem forL_nil (f : σ → α → Out σ Unit) (s : σ) : forL f [] s = ok () s := rfl
@[simp] theorem forL_cons (f : σ → α → Out σ Unit) (x : α) (xs : List α) (s : σ) :
    forL f (x :: xs) s = (f s x).bind fun _ s => forL f xs s := rfl

theorem res_forL (f : σ → α → Out σ Unit) (g : σ → α → Res σ) (h : ∀ s x, (f s x).res = g s x) (l : List α) (s : σ) :
    (forL f l s).res = Res.foldL g s l := by
  induction l generalizing s with
  | nil => rfl
  | cons x xs ih =>
    rw [forL_cons, res_bind_unit, h, Res.foldL_cons]
    congr 1; funext s'; exact ih s'

theorem res_forL_inv {P : σ → Prop} (f : σ → α → Out σ Unit) (g : σ → α → Res σ) (l : List α) (h : ∀ s, P s → ∀ x ∈ l, (f s x).res = g s x)
    (hP : ∀ s x s', P s → g s x = .ok s' → P s') (s : σ) (hs : P s) : (forL f l s).res = Res.foldL g s l := by
  induction l generalizing s with
  | nil => rfl
  | cons x xs ih =>
    rw [forL_cons, res_bind_unit, h s hs x (by simp), Res.foldL_cons]
    apply Res.bind_congr
    intro s' hs'
    exact ih (fun s hs x hx => h s hs x (List.mem_cons_of_mem _ hx)) s' (hP s x s' hs hs')

end Out

/-- results of `f` on the entries before the first one it fails on -/
def goodPrefix {α β : Type} (f : α → Res β) : List α → List β
  | [] => []
  | x :: xs =>
    match f x with
    | .ok y => y :: goodPrefix f xs
    | _ => []

/-- a loop that appends the results of `f` to a field `get`, whose values `f` does not depend on -/
theorem forL_push {σ α β : Type} (f : α → Res β) (push : σ → List β → σ) (body : σ → α → Out σ Unit) (P : σ → Prop)
    (hP : ∀ s l, P s → P (push s l)) (h0 : ∀ s, push s [] = s) (h2 : ∀ s l l', push (push s l) l' = push s (l ++ l'))
    (hb : ∀ s x, P s → body s x = (Out.lift s (f x)).bind fun y s => .ok () (push s [y])) (l : List α) (s : σ) (hs : P s) :
    Out.forL body l s =
      match Res.mapL f l with
      | .ok ys => .ok () (push s ys)
      | .exn e => .exn e (push s (goodPrefix f l))
      | .ub => .ub
      | .diverge => .diverge := by
  induction l generalizing s with
  | nil => simp [h0]
  | cons x xs ih =>
    rw [Out.forL_cons, hb s x hs, Res.mapL_cons]
    unfold goodPrefix
    cases hx : f x with
    | ok y =>
      simp only [Out.lift_ok, Out.ok_bind, Res.ok_bind]
      rw [ih _ (hP s [y] hs)]
      cases Res.mapL f xs with
      | ok ys => simp [h2]
      | exn e => simp [h2]
      | ub => simp
      | diverge => simp
    | exn e => simp [h0]
    | ub => simp
    | diverge => simp

/-! ### refinement -/

/-- `naturalOn` in one equation -/
theorem naturalOn_eq (a : AbsFn) (c : Corr F) (it : CorrIt F) {last : F} (hl : rawGet c.ds.normT (c.ds.normT.length - 1) = .ok last) :
    c.naturalOn a it =
      (let sh := Corr.shiftNat it.k last c.ds.normT it.shifted
       match Res.mapL (fun i => (sh.raw i).bind fun s => Corr.selectNat a c.ds.normT s) (List.range sh.elems.length) with
       | .ok sel => .ok () { it with shifted := sh.clear, selection := it.selection ++ sel }
       | .exn e => .exn e { it with shifted := sh, selection := (it.selection ++
            goodPrefix (fun i => (sh.raw i).bind fun s => Corr.selectNat a c.ds.normT s) (List.range sh.elems.length)) }
       | .ub => .ub
       | .diverge => .diverge) := by
  unfold Corr.naturalOn
  rw [hl]
  simp only [Out.lift_ok, Out.ok_bind]
  rw [forL_push (fun i => ((Corr.shiftNat it.k last c.ds.normT it.shifted).raw i).bind fun s => Corr.selectNat a c.ds.normT s)
    (fun it l => { it with selection := it.selection ++ l }) _ (fun s => s.shifted = Corr.shiftNat it.k last c.ds.normT it.shifted)]
  · cases Res.mapL (fun i => ((Corr.shiftNat it.k last c.ds.normT it.shifted).raw i).bind fun s => Corr.selectNat a c.ds.normT s)
      (List.range (Corr.shiftNat it.k last c.ds.normT it.shifted).elems.length) <;> simp
  · intro s l h; exact h
  · intro s; simp
  · intro s l l'; simp
  · intro s x h
    rw [h]
  · rfl

theorem naturalOn_res (a : AbsFn) (c : Corr F) (it : CorrIt F) : (c.naturalOn a it).res = c.naturalSelection a it := by
  unfold Corr.naturalSelection
  cases hl : rawGet c.ds.normT (c.ds.normT.length - 1) with
  | ok last =>
    rw [naturalOn_eq a c it hl, Res.ok_bind]
    simp only
    cases Res.mapL (fun i => ((Corr.shiftNat it.k last c.ds.normT it.shifted).raw i).bind fun s => Corr.selectNat a c.ds.normT s)
      (List.range (Corr.shiftNat it.k last c.ds.normT it.shifted).elems.length) <;> simp
  | exn e => unfold Corr.naturalOn; rw [hl]; rfl
  | ub => unfold Corr.naturalOn; rw [hl]; rfl
  | diverge => unfold Corr.naturalOn; rw [hl]; rfl

/-- the distance computed by `deltaT` for a selected index and its position -/
def distAt (a : AbsFn) (nt : List F) (sh : Vec F) (p : Nat × Nat) : Res F :=
  (atGet nt p.1).bind fun t => (sh.raw p.2).bind fun s => a.app (sub t s)

/-- `deltaOn` in one equation -/
theorem deltaOn_eq (a : AbsFn) (c : Corr F) (it : CorrIt F) :
    c.deltaOn a it =
      match Res.mapL (distAt a c.ds.normT it.shifted) it.selection.zipIdx with
      | .ok ds => .ok () { it with deltaT := it.deltaT ++ ds, shifted := it.shifted.clear }
      | .exn e => .exn e { it with deltaT := it.deltaT ++ goodPrefix (distAt a c.ds.normT it.shifted) it.selection.zipIdx }
      | .ub => .ub
      | .diverge => .diverge := by
  unfold Corr.deltaOn
  rw [forL_push (distAt a c.ds.normT it.shifted)
    (fun it l => { it with deltaT := it.deltaT ++ l }) _ (fun s => s.shifted = it.shifted)]
  · cases Res.mapL (distAt a c.ds.normT it.shifted) it.selection.zipIdx <;> simp
  · intro s l h; exact h
  · intro s; simp
  · intro s l l'; simp
  · intro s x h
    rw [h]
    rfl
  · rfl

theorem deltaOn_res (a : AbsFn) (c : Corr F) (it : CorrIt F) : (c.deltaOn a it).res = c.deltaT a it := by
  unfold Corr.deltaT
  rw [deltaOn_eq]
  change _ = (Res.mapL (distAt a c.ds.normT it.shifted) it.selection.zipIdx).bind _
  cases Res.mapL (distAt a c.ds.normT it.shifted) it.selection.zipIdx <;> simp

theorem fastOn_res (a : AbsFn) (c : Corr F) (it : CorrIt F) : (c.fastOn a it).res = c.fastSelection a it := by
  unfold Corr.fastSelection Corr.fastOn
  simp only
  rw [Out.res_lift_bind]
  congr 1; funext last
  split
  · rfl
  · rw [Out.res_lift_bind]
    simp only [Res.bind_assoc, Res.ok_bind]
    congr 1; funext s
    congr 1; funext idx0
    congr 1; funext hi
    congr 1; funext dhi
    congr 1; funext lo
    congr 1; funext dlo
    rw [Out.res_bind_unit]
    generalize (if lt dhi dlo = true then idx0 + 1 else idx0) = idx
    generalize List.range ((Corr.shiftFast it.k last c.ds.normT it.shifted).elems.length - 1 + 1 - idx) = l
    generalize Corr.resizeZero it.selection (Corr.shiftFast it.k last c.ds.normT it.shifted).elems.length = sel
    have key : ∀ sel, (Out.forL (fun (it : CorrIt F) i => (Out.lift it (rawSet it.selection i (idx + i))).bind fun sel it =>
        .ok () { it with selection := sel }) l { it with shifted := Corr.shiftFast it.k last c.ds.normT it.shifted, selection := sel }).res
        = (Res.foldL (fun sel i => rawSet sel i (idx + i)) sel l).bind fun sel =>
          .ok { it with shifted := Corr.shiftFast it.k last c.ds.normT it.shifted, selection := sel } := by
      induction l with
      | nil => intro sel; rfl
      | cons x xs ih =>
        intro sel
        rw [Out.forL_cons, Res.foldL_cons, Out.res_bind_unit, Out.res_lift_bind]
        simp only
        cases rawSet sel x (idx + x) with
        | ok sel' => simp only [Res.ok_bind, Out.res_ok]; exact ih sel'
        | exn e => rfl
        | ub => rfl
        | diverge => rfl
    rw [key sel]
    simp only [Res.bind_assoc, Res.ok_bind, Out.res_ok]

/-- the sum `correlateOn` forms in slot `j` -/
theorem correlateOn_inner (c : Corr F) (j : Nat) (l : List (F × Nat)) (it : CorrIt F) (hj : j < it.correlation.length) :
    (Out.forL
        (fun it (p : F × Nat) =>
          (Out.lift it ((atGet c.ds.normData (vecIdx c.ds.M p.2 j)).bind fun x =>
            (rawGet it.selection p.2).bind fun s =>
            (atGet c.ds.normData (vecIdx c.ds.M s j)).bind fun y =>
            (rawGet it.correlation j).bind fun acc =>
            rawSet it.correlation j (addMul acc (mul p.1 x) y))).bind fun out it =>
          .ok () { it with correlation := out }) l it).res
      = (Res.foldL
          (fun acc (p : F × Nat) =>
            (atGet c.ds.normData (vecIdx c.ds.M p.2 j)).bind fun x =>
            (rawGet it.selection p.2).bind fun s =>
            (atGet c.ds.normData (vecIdx c.ds.M s j)).bind fun y =>
            .ok (addMul acc (mul p.1 x) y)) it.correlation[j] l).bind fun acc =>
        .ok { it with correlation := it.correlation.set j acc } := by
  induction l generalizing it with
  | nil => simp
  | cons p ps ih =>
    rw [Out.forL_cons, Res.foldL_cons, Out.res_bind_unit, Out.res_lift_bind]
    simp only [Res.bind_assoc, Out.res_ok, Res.ok_bind]
    congr 1; funext x
    congr 1; funext s
    congr 1; funext y
    rw [rawGet_of_lt hj]
    simp only [Res.ok_bind]
    rw [rawSet_of_lt hj]
    simp only [Res.ok_bind]
    rw [ih _ (by simpa using hj)]
    simp

theorem correlateOn_res (c : Corr F) (it : CorrIt F) : (c.correlateOn it).res = c.findCorrelation it := by
  unfold Corr.findCorrelation Corr.correlateOn
  have key : ∀ (l : List Nat) (out : List F), (Out.forL
    (fun (it : CorrIt F) j =>
      (Out.lift it (rawGet it.correlation j)).bind fun _ it =>
      (Out.forL
        (fun it (p : F × Nat) =>
          (Out.lift it ((atGet c.ds.normData (vecIdx c.ds.M p.2 j)).bind fun x =>
            (rawGet it.selection p.2).bind fun s =>
            (atGet c.ds.normData (vecIdx c.ds.M s j)).bind fun y =>
            (rawGet it.correlation j).bind fun acc =>
            rawSet it.correlation j (addMul acc (mul p.1 x) y))).bind fun out it =>
          .ok () { it with correlation := out })
        it.weights.zipIdx it).bind fun _ it =>
      (Out.lift it ((rawGet it.correlation j).bind fun acc =>
        (rawGet c.norm j).bind fun n =>
        rawSet it.correlation j (mul acc (div one n)))).bind fun out it =>
      .ok () { it with correlation := out })
      l { it with correlation := out }).res = (Res.foldL
    (fun out j =>
      (rawGet out j).bind fun acc0 =>
      (Corr.sumCorrelation c it j acc0).bind fun acc =>
      (rawGet c.norm j).bind fun n =>
      rawSet out j (mul acc (div one n)))
      out l).bind fun out => .ok { it with correlation := out } := by
    intro l
    induction l with
    | nil => intro out; rfl
    | cons j js ih =>
      intro out
      rw [Out.forL_cons, Res.foldL_cons, Out.res_bind_unit, Out.res_lift_bind]
      simp only [Res.bind_assoc]
      by_cases hj : j < out.length
      · rw [rawGet_of_lt hj]
        simp only [Res.ok_bind]
        rw [Out.res_bind_unit, correlateOn_inner c j _ { it with correlation := out } hj]
        simp only [Res.bind_assoc, Res.ok_bind]
        unfold Corr.sumCorrelation
        congr 1; funext acc
        rw [Out.res_lift_bind, rawGet_of_lt (by simpa using hj)]
        simp only [Res.bind_assoc, Res.ok_bind, List.getElem_set_self, Out.res_ok]
        congr 1; funext n
        rw [rawSet_of_lt (by simpa using hj), rawSet_of_lt hj]
        simp only [Res.ok_bind, List.set_set]
        exact ih _
      · rw [rawGet_of_ge (by omega)]; rfl
  exact key _ it.correlation

end Sacf
