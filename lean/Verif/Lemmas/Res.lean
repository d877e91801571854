import Verif.Model.Res
import Mathlib.Data.List.Basic

/-! Helper lemmas about `Res`, vector accesses and loops. -/

namespace Sacf

namespace Res

variable {α β γ σ : Type}

@[simp] theorem ok_bind (a : α) (f : α → Res β) : (ok a).bind f = f a := rfl
@[simp] theorem exn_bind (e : Exc) (f : α → Res β) : (exn e : Res α).bind f = exn e := rfl
@[simp] theorem ub_bind (f : α → Res β) : (ub : Res α).bind f = ub := rfl
@[simp] theorem diverge_bind (f : α → Res β) : (diverge : Res α).bind f = diverge := rfl

theorem bind_assoc (x : Res α) (f : α → Res β) (g : β → Res γ) :
    (x.bind f).bind g = x.bind fun a => (f a).bind g := by cases x <;> rfl

theorem bind_eq_ok {x : Res α} {f : α → Res β} {b : β} :
    x.bind f = ok b ↔ ∃ a, x = ok a ∧ f a = ok b := by
  cases x <;> simp

@[simp] theorem bind_ok (x : Res α) : (x.bind fun a => ok a) = x := by cases x <;> rfl

theorem bind_congr {x : Res α} {f g : α → Res β} (h : ∀ a, x = ok a → f a = g a) :
    x.bind f = x.bind g := by
  cases x <;> simp_all

@[simp] theorem foldL_nil (f : σ → α → Res σ) (s : σ) : foldL f s [] = ok s := rfl
@[simp] theorem foldL_cons (f : σ → α → Res σ) (s : σ) (x : α) (xs : List α) :
    foldL f s (x :: xs) = (f s x).bind fun s' => foldL f s' xs := rfl

theorem foldL_append (f : σ → α → Res σ) (s : σ) (l₁ l₂ : List α) :
    foldL f s (l₁ ++ l₂) = (foldL f s l₁).bind fun s' => foldL f s' l₂ := by
  induction l₁ generalizing s with
  | nil => rfl
  | cons x xs ih => simp only [List.cons_append, foldL_cons, bind_assoc, ih]

theorem foldL_ok {f : σ → α → Res σ} {g : σ → α → σ} {l : List α} {s : σ}
    (h : ∀ s, ∀ x ∈ l, f s x = ok (g s x)) : foldL f s l = ok (l.foldl g s) := by
  induction l generalizing s with
  | nil => rfl
  | cons x xs ih =>
    simp only [foldL_cons, h s x (by simp), ok_bind, List.foldl_cons]
    exact ih (fun s y hy => h s y (by simp [hy]))

theorem foldL_congr {f g : σ → α → Res σ} {l : List α} {s : σ}
    (h : ∀ s, ∀ x ∈ l, f s x = g s x) : foldL f s l = foldL g s l := by
  induction l generalizing s with
  | nil => rfl
  | cons x xs ih =>
    simp only [foldL_cons, h s x (by simp)]
    congr 1; funext s'
    exact ih (fun s y hy => h s y (by simp [hy]))

theorem foldL_map (f : σ → β → Res σ) (g : α → β) (l : List α) (s : σ) :
    foldL f s (l.map g) = foldL (fun s a => f s (g a)) s l := by
  induction l generalizing s with
  | nil => rfl
  | cons x xs ih => simp only [List.map_cons, foldL_cons, ih]

@[simp] theorem mapL_nil (f : α → Res β) : mapL f [] = ok [] := rfl
@[simp] theorem mapL_cons (f : α → Res β) (x : α) (xs : List α) :
    mapL f (x :: xs) = (f x).bind fun y => (mapL f xs).bind fun ys => ok (y :: ys) := rfl

theorem mapL_append (f : α → Res β) (l₁ l₂ : List α) :
    mapL f (l₁ ++ l₂) = (mapL f l₁).bind fun a => (mapL f l₂).bind fun b => ok (a ++ b) := by
  induction l₁ with
  | nil => simp
  | cons x xs ih => simp only [List.cons_append, mapL_cons, ih, bind_assoc, ok_bind]

theorem mapL_ok {f : α → Res β} {g : α → β} {l : List α} (h : ∀ x ∈ l, f x = ok (g x)) :
    mapL f l = ok (l.map g) := by
  induction l with
  | nil => rfl
  | cons x xs ih =>
    simp only [mapL_cons, h x (by simp), ok_bind, ih (fun y hy => h y (by simp [hy])), List.map_cons]

theorem mapL_congr {f g : α → Res β} {l : List α} (h : ∀ x ∈ l, f x = g x) :
    mapL f l = mapL g l := by
  induction l with
  | nil => rfl
  | cons x xs ih =>
    simp only [mapL_cons, h x (by simp), ih (fun y hy => h y (by simp [hy]))]

theorem mapL_map (f : β → Res γ) (g : α → β) (l : List α) :
    mapL f (l.map g) = mapL (fun a => f (g a)) l := by
  induction l with
  | nil => rfl
  | cons x xs ih => simp only [List.map_cons, mapL_cons, ih]

theorem mapL_length {f : α → Res β} {l : List α} {ys : List β} (h : mapL f l = ok ys) :
    ys.length = l.length := by
  induction l generalizing ys with
  | nil => simp at h; simp [← h]
  | cons x xs ih =>
    simp only [mapL_cons, bind_eq_ok, ok.injEq] at h
    obtain ⟨y, _, ys', h2, rfl⟩ := h
    simp [ih h2]

theorem mapL_eq_ok_getElem {f : α → Res β} {l : List α} {ys : List β} (h : mapL f l = ok ys) :
    ∀ (i : Nat) x, l[i]? = some x → ∃ y, ys[i]? = some y ∧ f x = ok y := by
  induction l generalizing ys with
  | nil => simp
  | cons x xs ih =>
    simp only [mapL_cons, bind_eq_ok, ok.injEq] at h
    obtain ⟨y, h1, ys', h2, rfl⟩ := h
    intro i z hz
    cases i with
    | zero => simp at hz; subst hz; exact ⟨y, by simp, h1⟩
    | succ i => simp at hz; simpa using ih h2 i z hz

/-- if every element succeeds, the whole list does -/
theorem mapL_ok_of_forall {f : α → Res β} {P : β → Prop} {l : List α}
    (h : ∀ x ∈ l, ∃ y, f x = ok y ∧ P y) :
    ∃ ys, mapL f l = ok ys ∧ ∀ y ∈ ys, P y := by
  induction l with
  | nil => exact ⟨[], rfl, by simp⟩
  | cons x xs ih =>
    obtain ⟨y, h1, hy⟩ := h x (by simp)
    obtain ⟨ys, h2, hys⟩ := ih (fun z hz => h z (by simp [hz]))
    refine ⟨y :: ys, by simp [h1, h2], ?_⟩
    intro z hz
    rcases List.mem_cons.1 hz with rfl | hz
    · exact hy
    · exact hys z hz

/-- a result that is an error stems from an element -/
theorem mapL_not_ok {f : α → Res β} {l : List α} {r : Res (List β)} (h : mapL f l = r)
    (hr : ∀ ys, r ≠ ok ys) : ∃ x ∈ l, ∀ y, f x ≠ ok y := by
  by_contra hc
  push Not at hc
  obtain ⟨ys, h1, _⟩ := mapL_ok_of_forall (P := fun _ => True) (fun x hx => by
    obtain ⟨y, hy⟩ := hc x hx; exact ⟨y, hy, trivial⟩)
  exact hr ys (by rw [← h, h1])

end Res

variable {α : Type}

theorem rawGet_eq_ok {v : List α} {i : Nat} {x : α} : rawGet v i = .ok x ↔ v[i]? = some x := by
  unfold rawGet; split <;> simp_all

theorem rawGet_of_lt {v : List α} {i : Nat} (h : i < v.length) : rawGet v i = .ok v[i] := by
  rw [rawGet_eq_ok]; simp [h]

theorem rawGet_of_ge {v : List α} {i : Nat} (h : v.length ≤ i) : rawGet v i = .ub := by
  unfold rawGet; simp [h]

theorem atGet_eq_ok {v : List α} {i : Nat} {x : α} : atGet v i = .ok x ↔ v[i]? = some x := by
  unfold atGet; split <;> simp_all

theorem atGet_of_lt {v : List α} {i : Nat} (h : i < v.length) : atGet v i = .ok v[i] := by
  rw [atGet_eq_ok]; simp [h]

theorem atGet_of_ge {v : List α} {i : Nat} (h : v.length ≤ i) : atGet v i = .exn .indexError := by
  unfold atGet; simp [h]

theorem rawSet_of_lt {v : List α} {i : Nat} {x : α} (h : i < v.length) :
    rawSet v i x = .ok (v.set i x) := by simp [rawSet, h]

theorem rawSet_of_ge {v : List α} {i : Nat} {x : α} (h : v.length ≤ i) :
    rawSet v i x = .ub := by simp [rawSet, h]

theorem rawSet_eq_ok {v w : List α} {i : Nat} {x : α} :
    rawSet v i x = .ok w ↔ i < v.length ∧ w = v.set i x := by
  unfold rawSet; split
  · simp_all [eq_comm]
  · simp; omega

theorem slice_of_le {v : List α} {a b : Nat} (h : b ≤ v.length) :
    slice v a b = .ok ((v.drop a).take (b - a)) := by simp [slice, h]

theorem slice_of_gt {v : List α} {a b : Nat} (h : v.length < b) : slice v a b = .ub := by
  simp [slice, h]

theorem writeAt_of_le {v w : List α} {a : Nat} (h : a + w.length ≤ v.length) :
    writeAt v a w = .ok (v.take a ++ w ++ v.drop (a + w.length)) := by simp [writeAt, h]

/-- Writing consecutive blocks of length `m` from the start of a buffer. -/
theorem foldL_writeAt_blocks (f : Nat → List α) (m N : Nat) (init : List α)
    (hlen : ∀ j < N, (f j).length = m) (h : N * m ≤ init.length) :
    Res.foldL (fun out j => writeAt out (j * m) (f j)) init (List.range N)
      = .ok (((List.range N).map f).flatten ++ init.drop (N * m)) := by
  induction N with
  | zero => simp
  | succ N ih =>
    have hN : N * m ≤ init.length := Nat.le_trans (Nat.mul_le_mul_right _ (Nat.le_succ _)) h
    have hfl : (((List.range N).map f).flatten).length = N * m := by
      rw [List.length_flatten]
      have : ((List.range N).map f).map List.length = List.replicate N m := by
        apply List.ext_getElem
        · simp
        · intro i h1 h2
          simp at h1
          simp [hlen i (by omega)]
      rw [this]; simp
    rw [List.range_succ, Res.foldL_append, ih (fun j hj => hlen j (by omega)) hN]
    simp only [Res.ok_bind, Res.foldL_cons, Res.foldL_nil]
    have hfN := hlen N (by omega)
    have h' : N * m + m ≤ init.length := by rw [Nat.succ_mul] at h; exact h
    rw [writeAt_of_le (by simp [hfl, hfN]; omega)]
    simp only [Res.ok_bind, List.map_append, List.map_cons, List.map_nil, List.flatten_append]
    rw [List.take_append_of_le_length (by omega), List.take_of_length_le (by omega),
      List.drop_append, List.drop_eq_nil_of_le (by omega), hfl, List.drop_drop, hfN]
    simp [Nat.succ_mul]

end Sacf
