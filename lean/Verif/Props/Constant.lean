import Verif.Props.Acf
import Verif.Props.Units
import Verif.Props.Error64

/-!
# Constant rows in rounded arithmetic (C34)
-/

set_option linter.unusedSectionVars false

namespace Sacf

variable {K : Type} [Field K] [LinearOrder K] [IsStrictOrderedRing K] [FloorRing K] {R : Rnd K}

/-- `0 + 0 * 0`, contracted or not -/
theorem addMul_zeros : Arith.addMul (.fin 0 : XF R) (.fin 0) (.fin 0) = .fin 0 := by
  rcases addMul_cases (R := R) (.fin 0) (.fin 0) (.fin 0) with h | ⟨x, y, z, hx, hy, hz, h⟩ | ⟨_, _, h, _⟩
  · rw [h]
    show XF.add (.fin 0) (XF.round (0 * 0)) = _
    rw [mul_zero, round_zero]
    show XF.round (0 + 0) = _
    rw [add_zero, round_zero]
  · simp only [XF.fin.injEq] at hx hy hz
    subst hx hy hz
    rw [h]
    simp [round_zero]
  · exact absurd rfl (h 0)

/-- a sum of products of zeros, divided by zero -/
theorem corrValue_zero_rounded (ys : List (XF R)) (hy : ∀ y ∈ ys, y = .fin 0) (ps : List (XF R × ℕ)) :
    corrValue ys (.fin 0) ps = .nan := by
  have hget : ∀ i, ys.getD i (Arith.zero : XF R) = .fin 0 := by
    intro i
    rw [List.getD_eq_getElem?_getD]
    cases h : ys[i]? with
    | none => rfl
    | some y => simp [hy y (List.mem_iff_getElem?.2 ⟨i, h⟩)]
  have hterm : ∀ w : XF R, Arith.mul w (.fin 0) = .fin 0 ∨ Arith.mul w (.fin 0) = (.nan : XF R) := by
    intro w
    cases w with
    | nan => right; rfl
    | ninf => right; show XF.infSign _ = _; simp [XF.infSign]
    | pinf => right; show XF.infSign _ = _; simp [XF.infSign]
    | fin w => left; show XF.round (w * 0) = _; rw [mul_zero, round_zero]
  have hfold : ∀ (l : List ((XF R × ℕ) × ℕ)) (acc : XF R), (acc = .fin 0 ∨ acc = .nan) →
      (l.foldl (fun acc p => Arith.addMul acc (Arith.mul p.1.1 (ys.getD p.2 Arith.zero))
        (ys.getD p.1.2 Arith.zero)) acc = .fin 0 ∨
       l.foldl (fun acc p => Arith.addMul acc (Arith.mul p.1.1 (ys.getD p.2 Arith.zero))
        (ys.getD p.1.2 Arith.zero)) acc = .nan) := by
    intro l
    induction l with
    | nil => intro acc h; exact h
    | cons p l ih =>
      intro acc hacc
      rw [List.foldl_cons]
      apply ih
      rw [hget, hget]
      rcases hacc with rfl | rfl
      · rcases hterm p.1.1 with h | h
        · left; rw [h, addMul_zeros]
        · right; rw [h]; exact addMul_nan _ _ _ (Or.inr (Or.inl rfl))
      · right; exact addMul_nan _ _ _ (Or.inl rfl)
  unfold corrValue
  have hdiv : Arith.div (Arith.one : XF R) (.fin 0) = .pinf := by
    show XF.div (.fin 1) (.fin 0) = _
    simp [XF.div, XF.infSign]
  rw [hdiv]
  rcases hfold ps.zipIdx Arith.zero (Or.inl rfl) with h | h
  · rw [h]; show XF.mul _ _ = _; simp [XF.mul, XF.infSign]
  · rw [h]; rfl

/-- **C34** in any rounding, for every selection function, weight function, `alpha` and overload of `abs`: if all `M` values
of a row equal `c`, `c` is a `float`, and the mean as computed from left to right is `c`, then every entry of that row of
the result is NaN. -/
theorem C34_rounded_partial (a : AbsFn) (d : DS (XF R)) (hd : Constructed d) (g : LagArgs (XF R))
    (sel wt : String) (r : AcResult (XF R)) (hr : autocorrelation a d g sel wt = .ok r)
    (M j : ℕ) (c : K) (hrow : d.HasRow j (List.replicate M (.fin c))) (hc : Arith.toFloat (.fin c : XF R) = .fin c)
    (hmean : seqMean M (fun _ => (.fin c : XF R)) = .fin c) :
    ∃ row, r.corrs.rows[j]? = some row ∧ row = List.replicate r.lags.length .nan := by
  obtain ⟨L, _, h1, h2, _⟩ := result_row hd hr hrow
  refine ⟨_, h2, ?_⟩
  have hs : (List.replicate M (.fin c) : List (XF R)) = (List.range M).map (fun _ => (.fin c : XF R)) := by simp
  have hsub : Arith.sub (.fin c : XF R) (.fin c) = .fin 0 := by
    show XF.round (c + -c) = _
    rw [add_neg_cancel, round_zero]
  have hnorm : seqNorm M (fun _ => (.fin c : XF R)) = .fin 0 := by
    unfold seqNorm
    simp only [hc, hmean, hsub]
    clear hmean hs h2 hrow
    induction M with
    | zero => rfl
    | succ M ih =>
      unfold seqDot
      rw [ih]
      exact addMul_zeros
  unfold rowCorr
  rw [hs, meanOf_seqMean (fun _ _ => by simp), normOfRow_seqNorm (fun _ _ => by simp), hmean, hnorm, h1, List.length_map]
  apply List.ext_getElem
  · simp
  · intro i hi1 hi2
    simp only [List.getElem_map, List.getElem_replicate]
    apply corrValue_zero_rounded
    intro y hy
    obtain ⟨v, hv, rfl⟩ := List.mem_map.1 hy
    obtain ⟨_, _, rfl⟩ := List.mem_map.1 hv
    exact hsub

/-- the computed mean of a constant is the constant if the partial sums are exact -/
theorem seqMean_const {g : K} {B : ℤ} (hu : ExactUnit R g B) (M : ℕ) (hM : 0 < M) (hMr : (XF.round (M : K) : XF R) = .fin M)
    (n : ℤ) (hb : M * |n| ≤ B) : seqMean M (fun _ => (.fin (n * g) : XF R)) = .fin (n * g) := by
  have hsum : ∀ m ≤ M, seqSum (fun _ => (.fin (n * g) : XF R)) m = .fin (((m * n : ℤ) : K) * g) := by
    intro m
    induction m with
    | zero => intro _; show (.fin 0 : XF R) = _; simp
    | succ m ih =>
      intro hm
      unfold seqSum
      rw [ih (by omega), tick_add hu]
      · congr 2; push_cast; ring
      · have e : (m : ℤ) * n + n = (m + 1 : ℕ) * n := by push_cast; ring
        rw [e, abs_mul, Nat.abs_cast]
        have : ((m + 1 : ℕ) : ℤ) ≤ M := by exact_mod_cast hm
        exact (mul_le_mul_of_nonneg_right this (abs_nonneg n)).trans hb
  unfold seqMean
  rw [hsum M le_rfl]
  have ho : (Arith.ofInt (M : ℤ) : XF R) = .fin M := by
    show XF.round (((M : ℤ)) : K) = _
    rw [Int.cast_natCast, hMr]
  rw [ho]
  have hMK : (M : K) ≠ 0 := by exact_mod_cast hM.ne'
  show XF.div (.fin _) (.fin _) = _
  simp only [XF.div, hMK, if_false]
  have e : ((M * n : ℤ) : K) * g / M = n * g := by push_cast; field_simp
  rw [e]
  apply hu.exact
  have h1 : (1 : ℤ) * |n| ≤ M * |n| := mul_le_mul_of_nonneg_right (by exact_mod_cast hM) (abs_nonneg n)
  linarith

/-- **C34** in binary64: a constant `c = n 2^e` with at most 24 significant bits in the range of `float`, and
`M |n| ≤ 2^53` (for instance an integer below `2^22` in magnitude, for every `M` an `int` holds): every entry of the row is NaN. -/
theorem C34_binary64_partial {ex : ℚ → ℚ} {fu : Bool} (a : AbsFn) (d : DS (XF (Rnd.binary64 ex fu))) (hd : Constructed d)
    (g : LagArgs (XF (Rnd.binary64 ex fu))) (sel wt : String) (r : AcResult (XF (Rnd.binary64 ex fu)))
    (hr : autocorrelation a d g sel wt = .ok r) (M j : ℕ) (n e : ℤ) (hn : |n| < 2 ^ 24) (he : -149 ≤ e) (he' : e ≤ 104)
    (hb : M * |n| ≤ 2 ^ 53) (hM : M ≤ 2 ^ 53) (hrow : d.HasRow j (List.replicate M (.fin (n * pow2 e)))) :
    ∃ row, r.corrs.rows[j]? = some row ∧ row = List.replicate r.lags.length .nan := by
  have hM0 : 0 < M := by
    obtain ⟨t, data, err, N, _, hbu⟩ := hd.built
    obtain ⟨hj, he⟩ := hbu.row hrow
    have := congrArg List.length he
    rw [rowOf_length hbu.hsize hj, List.length_replicate] at this
    have := List.length_pos_iff.2 hbu.tne
    omega
  have hu := exactUnit64 (ex := ex) (fu := fu) e (by omega) (by omega)
  refine C34_rounded_partial a d hd g sel wt r hr M j _ hrow ?_ ?_
  · rw [toFloat64, roundTo_fixed (by norm_num) (by omega) (by omega)]
    rw [abs_mul, abs_of_pos (pow2_pos e)]
    unfold bigF
    have h1 : |(n : ℚ)| ≤ 2 ^ 24 - 1 := by
      have : |n| ≤ 2 ^ 24 - 1 := by omega
      exact_mod_cast this
    exact mul_le_mul h1 (pow2_mono he') (pow2_pos e).le (by norm_num)
  · apply seqMean_const hu M hM0 _ n hb
    have := round_int64 (ex := ex) (fu := fu) (M : ℤ) (by rw [Nat.abs_cast]; exact_mod_cast hM)
    simpa using this

/-- the row 3/2, 3/2, 3/2 next to another one, in binary64 -/
example : ((mkTable (b [0, 1, 3]) [b [3/2, 3/2, 3/2], b [1, 2, 6]]).bind fun d =>
    (autocorrelation .fabs d ⟨some (.fin 0), some (.fin 1), none, none⟩).bind fun r =>
      .ok (r.corrs.rows.map fun row => row.map Arith.isNaN))
      = .ok [[true, true], [false, false]] := by decide +kernel

end Sacf
