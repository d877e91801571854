import Verif.Lemmas.Exact

/-! Facts about rounding and order that hold in every arithmetic `XF R`. -/

set_option linter.unusedSectionVars false
set_option linter.unusedSimpArgs false

namespace Sacf

variable {K : Type} [Field K] [LinearOrder K] [IsStrictOrderedRing K] [FloorRing K] {R : Rnd K}

theorem xf_le_trans {x y z : XF R} (h1 : Arith.le x y = true) (h2 : Arith.le y z = true) :
    Arith.le x z = true := by
  cases x <;> cases y <;> cases z <;>
    first
    | rfl
    | exact absurd h1 Bool.false_ne_true
    | exact absurd h2 Bool.false_ne_true
    | (simp only [xf_le, decide_eq_true_eq] at *; exact le_trans h1 h2)

theorem addMul_false (h : R.fused = false) (c a b : XF R) : Arith.addMul c a b = Arith.add c (Arith.mul a b) := by
  show XF.addMul c a b = _
  unfold XF.addMul
  rw [h]; rfl

theorem addMul_true (h : R.fused = true) (c a b : XF R) : Arith.addMul c a b = XF.fma c a b := by
  show XF.addMul c a b = _
  unfold XF.addMul
  rw [h]; rfl

theorem fma_eq {c a b : XF R} (h : ∀ x y, ¬(a = .fin x ∧ b = .fin y)) : XF.fma c a b = XF.add c (XF.mul a b) := by
  cases a with
  | fin x =>
    cases b with
    | fin y => exact absurd ⟨rfl, rfl⟩ (h x y)
    | _ => cases c <;> rfl
  | _ => cases b <;> cases c <;> rfl

theorem fma_nan (c a b : XF R) (h : c = .nan ∨ a = .nan ∨ b = .nan) : XF.fma c a b = .nan := by
  rcases h with rfl | rfl | rfl
  · cases a <;> cases b <;> rfl
  · cases c <;> cases b <;> rfl
  · cases c <;> cases a <;> rfl

theorem addMul_nan (c a b : XF R) (h : c = .nan ∨ a = .nan ∨ b = .nan) : Arith.addMul c a b = .nan := by
  cases hf : R.fused with
  | false =>
    rw [addMul_false hf]
    rcases h with rfl | rfl | rfl
    · cases Arith.mul a b <;> rfl
    · have : (Arith.mul .nan b : XF R) = .nan := by cases b <;> rfl
      rw [this]; cases c <;> rfl
    · have : (Arith.mul a .nan : XF R) = .nan := by cases a <;> rfl
      rw [this]; cases c <;> rfl
  | true => rw [addMul_true hf, fma_nan _ _ _ h]

/-- the three ways in which `c + a * b` is computed -/
theorem addMul_cases (c a b : XF R) : Arith.addMul c a b = Arith.add c (Arith.mul a b) ∨
    (∃ z x y, c = .fin z ∧ a = .fin x ∧ b = .fin y ∧ Arith.addMul c a b = XF.round (z + x * y)) ∨
    (∃ x y, (∀ z, c ≠ .fin z) ∧ a = .fin x ∧ b = .fin y ∧ Arith.addMul c a b = c) := by
  cases hf : R.fused with
  | false => left; exact addMul_false hf c a b
  | true =>
    rw [addMul_true hf]
    cases a with
    | fin x =>
      cases b with
      | fin y =>
        right
        cases c with
        | fin z => left; exact ⟨z, x, y, rfl, rfl, rfl, rfl⟩
        | nan => right; exact ⟨x, y, by simp, rfl, rfl, rfl⟩
        | pinf => right; exact ⟨x, y, by simp, rfl, rfl, rfl⟩
        | ninf => right; exact ⟨x, y, by simp, rfl, rfl, rfl⟩
      | _ => left; cases c <;> rfl
    | _ => left; cases b <;> cases c <;> rfl

theorem round_isDouble (x : K) : (XF.round x : XF R).IsDouble := by
  unfold XF.round XF.clip
  cases h : R.maxFin with
  | none => simp [XF.IsDouble, XF.round, XF.clip, h, R.rnd_rnd]
  | some b =>
    simp only
    split
    · trivial
    · split
      · trivial
      · rename_i h1 h2
        simp [XF.IsDouble, XF.round, XF.clip, h, R.rnd_rnd, h1, h2]


theorem xf_le_refl {x : XF R} (h : x ≠ .nan) : Arith.le x x = true := by
  cases x with
  | nan => exact absurd rfl h
  | ninf => rfl
  | pinf => rfl
  | fin x => simp

theorem clip_neg {b : Option K} (hb : ∀ c ∈ b, 1 ≤ c) (x : K) : (XF.clip b (-x) : XF R) = XF.neg (XF.clip b x) := by
  unfold XF.clip
  cases b with
  | none => rfl
  | some c =>
    have hc := hb c (by simp)
    simp only
    by_cases h1 : c < x
    · rw [if_neg (by linarith), if_pos (by linarith), if_pos h1]; rfl
    · by_cases h2 : x < -c
      · rw [if_pos (by linarith), if_neg h1, if_pos h2]; rfl
      · rw [if_neg (by linarith), if_neg (by linarith), if_neg h1, if_neg h2]; rfl

theorem round_neg (x : K) : (XF.round (-x) : XF R) = XF.neg (XF.round x) := by
  unfold XF.round
  rw [R.rnd_neg, clip_neg R.maxFin_ge_one]

theorem fabs_neg (x : XF R) : XF.fabs (XF.neg x) = XF.fabs x := by
  cases x with
  | fin x => simp [XF.fabs, XF.neg]
  | _ => rfl

theorem fabs_of_nonneg {x : XF R} (h : Arith.le (.fin 0) x = true) : XF.fabs x = x := by
  cases x with
  | nan => exact absurd h (by simp [Arith.le, XF.le])
  | ninf => exact absurd h (by simp [Arith.le, XF.le])
  | pinf => rfl
  | fin x => simp at h; simp [XF.fabs, abs_of_nonneg h]

theorem round_nonneg {x : K} (h : 0 ≤ x) : Arith.le (.fin 0) (XF.round x : XF R) = true := by
  have := round_mono (R := R) h
  rw [round_zero] at this
  exact this

theorem fabs_round (x : K) : XF.fabs (XF.round x : XF R) = XF.round |x| := by
  rcases le_total 0 x with h | h
  · rw [abs_of_nonneg h, fabs_of_nonneg (round_nonneg h)]
  · rw [abs_of_nonpos h, ← fabs_neg, ← round_neg, fabs_of_nonneg (round_nonneg (by linarith))]

/-- the computed distance of two times -/
theorem dist_round (x y : K) : Arith.fabs (Arith.sub (.fin x : XF R) (.fin y)) = XF.round |x - y| := by
  show XF.fabs (XF.round (x + -y)) = _
  rw [fabs_round, sub_eq_add_neg]

theorem round_one : (XF.round 1 : XF R) = .fin 1 := by
  unfold XF.round XF.clip
  rw [R.rnd_one]
  cases h : R.maxFin with
  | none => rfl
  | some b =>
    have := R.maxFin_ge_one b (by simp [h])
    simp only
    rw [if_neg (by linarith), if_neg (by linarith)]

theorem round_ne_nan (x : K) : (XF.round x : XF R) ≠ .nan := by
  unfold XF.round XF.clip
  cases R.maxFin with
  | none => simp
  | some b => simp only; split <;> [simp; (split <;> simp)]

theorem add_isDouble (x y : XF R) : (Arith.add x y).IsDouble := by
  cases x <;> cases y <;> first | exact round_isDouble _ | trivial

theorem sub_isDouble (x y : XF R) : (Arith.sub x y).IsDouble := add_isDouble x (XF.neg y)

/-- one times a double is the double -/
theorem one_mul_isDouble {x : XF R} (h : x.IsDouble) : Arith.mul (.fin 1) x = x := by
  cases x with
  | nan => rfl
  | ninf => show XF.infSign (-1) = _; simp [XF.infSign]
  | pinf => show XF.infSign 1 = _; simp [XF.infSign]
  | fin x => show XF.round (1 * x) = _; rw [one_mul]; exact h

theorem one_addMul_zero : (Arith.addMul Arith.one (.fin 0) (.fin 0) : XF R) = .fin 1 := by
  have e : (Arith.add Arith.one (Arith.mul (.fin 0) (.fin 0)) : XF R) = .fin 1 := by
    have : (Arith.mul (.fin 0) (.fin 0) : XF R) = .fin 0 := by
      show XF.round (0 * 0) = _
      rw [mul_zero, round_zero]
    rw [this]
    show XF.round (1 + 0) = _
    rw [add_zero, round_one]
  rcases addMul_cases (Arith.one : XF R) (.fin 0) (.fin 0) with h | ⟨z, x, y, hz, hx, hy, h⟩ | ⟨x, y, hz, -⟩
  · rw [h, e]
  · rw [h]
    simp only [xf_one, XF.fin.injEq] at hz hx hy
    rw [← hz, ← hx, mul_comm, mul_zero, add_zero, round_one]
  · exact absurd rfl (hz 1)

/-- not below zero: NaN or at least zero -/
def XF.NotNeg (x : XF R) : Prop := x = .nan ∨ Arith.le (.fin 0) x = true

theorem notNeg_square (x : XF R) : (Arith.mul x x).NotNeg := by
  cases x with
  | fin x => right; exact round_nonneg (mul_self_nonneg x)
  | nan => left; rfl
  | ninf => right; rfl
  | pinf => right; rfl

theorem notNeg_add {x y : XF R} (hx : x.NotNeg) (hy : y.NotNeg) : (Arith.add x y).NotNeg := by
  rcases hx with rfl | hx
  · left; cases y <;> rfl
  rcases hy with rfl | hy
  · left; cases x <;> rfl
  right
  cases x <;> cases y <;> first | rfl | (exact absurd hx Bool.false_ne_true) |
    (exact absurd hy Bool.false_ne_true) | skip
  simp only [xf_le, decide_eq_true_eq] at hx hy
  exact round_nonneg (add_nonneg hx hy)

/-- adding a square, contracted or not -/
theorem notNeg_addMul {c : XF R} (hc : c.NotNeg) (d : XF R) : (Arith.addMul c d d).NotNeg := by
  rcases addMul_cases c d d with h | ⟨z, x, y, rfl, rfl, hy, h⟩ | ⟨_, _, _, _, _, h⟩
  · rw [h]; exact notNeg_add hc (notNeg_square _)
  · rw [h]
    simp only [XF.fin.injEq] at hy
    subst hy
    rcases hc with h' | hz
    · cases h'
    · simp at hz
      right; exact round_nonneg (add_nonneg hz (mul_self_nonneg x))
  · rw [h]; exact hc

end Sacf
