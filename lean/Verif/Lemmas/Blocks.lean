import Verif.Lemmas.DataStructure

/-! Flat buffers made of `N` blocks of length `n`. -/

namespace Sacf

variable {α : Type}

/-- the flat buffer with blocks `f 0, ..., f (N-1)` -/
def blocks (N : Nat) (f : Nat → List α) : List α := ((List.range N).map f).flatten

theorem blocks_succ (N : Nat) (f : Nat → List α) : blocks (N + 1) f = blocks N f ++ f N := by
  simp [blocks, List.range_succ]

theorem blocks_congr {N : Nat} {f g : Nat → List α} (h : ∀ j < N, f j = g j) :
    blocks N f = blocks N g := by
  unfold blocks
  congr 1
  apply List.map_congr_left
  intro j hj
  exact h j (List.mem_range.1 hj)

theorem blocks_length {N n : Nat} {f : Nat → List α} (h : ∀ j < N, (f j).length = n) :
    (blocks N f).length = N * n := by
  induction N with
  | zero => simp [blocks]
  | succ N ih =>
    rw [blocks_succ, List.length_append, ih (fun j hj => h j (by omega)), h N (by omega), Nat.succ_mul]

theorem blocks_get {N n : Nat} {f : Nat → List α} (h : ∀ j < N, (f j).length = n)
    {i j : Nat} (hi : i < n) (hj : j < N) : (blocks N f)[i + n * j]? = (f j)[i]? := by
  induction N with
  | zero => omega
  | succ N ih =>
    have hl := blocks_length (N := N) (n := n) (f := f) (fun j hj => h j (by omega))
    rw [blocks_succ]
    by_cases hjN : j < N
    · rw [List.getElem?_append_left, ih (fun j hj => h j (by omega)) hjN]
      rw [hl]
      calc i + n * j < n + n * j := by omega
        _ = (j + 1) * n := by rw [Nat.succ_mul, Nat.mul_comm]; omega
        _ ≤ N * n := Nat.mul_le_mul_right _ hjN
    · have : j = N := by omega
      subst this
      rw [List.getElem?_append_right (by rw [hl, Nat.mul_comm]; omega), hl, Nat.mul_comm n j]
      congr 1; omega

theorem rowOf_blocks {N n : Nat} {f : Nat → List α} (h : ∀ j < N, (f j).length = n)
    {j : Nat} (hj : j < N) : rowOf (blocks N f) n j = f j := by
  apply rowOf_flatten_get (rows := (List.range N).map f)
  · intro r hr
    obtain ⟨i, hi, rfl⟩ := List.mem_map.1 hr
    exact h i (List.mem_range.1 hi)
  · simp [hj]

theorem blocks_rowOf {N n : Nat} {v : List α} (h : v.length = N * n) :
    blocks N (rowOf v n) = v := by
  induction N generalizing v with
  | zero => simp at h; simp [blocks, h]
  | succ N ih =>
    rw [blocks_succ]
    have hv : N * n ≤ v.length := by rw [h, Nat.succ_mul]; omega
    have h1 : blocks N (rowOf v n) = v.take (N * n) := by
      rw [← ih (v := v.take (N * n)) (by simp; omega)]
      apply blocks_congr
      intro j hj
      have : (j + 1) * n ≤ N * n := Nat.mul_le_mul_right _ hj
      rw [Nat.succ_mul] at this
      simp only [rowOf]
      rw [List.drop_take, List.take_take]
      congr 1; omega
    rw [h1]
    have h2 : rowOf v n N = v.drop (N * n) := by
      simp only [rowOf]
      apply List.take_of_length_le
      simp [h, Nat.succ_mul]
    rw [h2, List.take_append_drop]

theorem rawSet_blocks {N n : Nat} {f : Nat → List α} (h : ∀ j < N, (f j).length = n)
    {i j : Nat} (hi : i < n) (hj : j < N) (x : α) :
    rawSet (blocks N f) (i + n * j) x
      = .ok (blocks N fun j' => if j' = j then (f j').set i x else f j') := by
  have hlt : i + n * j < (blocks N f).length := by
    rw [blocks_length h]
    calc i + n * j < n + n * j := by omega
      _ = (j + 1) * n := by rw [Nat.succ_mul, Nat.mul_comm]; omega
      _ ≤ N * n := Nat.mul_le_mul_right _ hj
  rw [rawSet_of_lt hlt]
  congr 1
  induction N with
  | zero => omega
  | succ N ih =>
    have hl := blocks_length (N := N) (n := n) (f := f) (fun j hj => h j (by omega))
    rw [blocks_succ, blocks_succ]
    by_cases hjN : j < N
    · have hlt' : i + n * j < (blocks N f).length := by
        rw [hl]
        calc i + n * j < n + n * j := by omega
          _ = (j + 1) * n := by rw [Nat.succ_mul, Nat.mul_comm]; omega
          _ ≤ N * n := Nat.mul_le_mul_right _ hjN
      rw [List.set_append_left _ _ hlt', ih (fun j hj => h j (by omega)) hjN hlt', if_neg (by omega)]
    · have : j = N := by omega
      subst this
      rw [List.set_append_right _ _ (by rw [hl, Nat.mul_comm]; omega), if_pos rfl]
      congr 1
      · apply blocks_congr
        intro j' hj'
        rw [if_neg (by omega)]
      · congr 1
        rw [hl, Nat.mul_comm]; omega

/-- writing position `i` of every block -/
theorem foldL_rawSet_blocks {N n : Nat} {f : Nat → List α} (h : ∀ j < N, (f j).length = n)
    {i : Nat} (hi : i < n) (v : Nat → α) :
    Res.foldL (fun buf j => rawSet buf (i + n * j) (v j)) (blocks N f) (List.range N)
      = .ok (blocks N fun j => (f j).set i (v j)) := by
  have key : ∀ J ≤ N, Res.foldL (fun buf j => rawSet buf (i + n * j) (v j)) (blocks N f) (List.range J)
      = .ok (blocks N fun j => if j < J then (f j).set i (v j) else f j) := by
    intro J
    induction J with
    | zero => intro _; simp
    | succ J ih =>
      intro hJ
      rw [List.range_succ, Res.foldL_append, ih (by omega)]
      simp only [Res.ok_bind, Res.foldL_cons, Res.foldL_nil]
      rw [rawSet_blocks (n := n) _ hi (by omega : J < N)]
      · simp only [Res.ok_bind]
        congr 1
        apply blocks_congr
        intro j hj
        by_cases h1 : j = J
        · subst h1; simp
        · by_cases h2 : j < J
          · rw [if_neg h1, if_pos h2, if_pos (by omega)]
          · rw [if_neg h1, if_neg h2, if_neg (by omega)]
      · intro j hj
        split <;> simp [h j hj]
  rw [key N le_rfl]
  congr 1
  apply blocks_congr
  intro j hj
  rw [if_pos hj]

end Sacf
