import Verif.Props.Permutation

/-!
# The spread of a correlation over all orders of the values (C90)

C85 gives the mean of the correlations of the same values in all `M!` orders.  Here is the mean of their squares on a regular grid, and with it a bound on the number of orders whose
correlation is as large as a given one.
-/

set_option linter.unusedSectionVars false

namespace Sacf

open Finset

section sums
variable {K : Type} [Field K] [LinearOrder K] [IsStrictOrderedRing K]
variable {M : ℕ}

/-- sum of the fourth powers of the deviations -/
def sumFourth (M : ℕ) (x : ℕ → K) : K := ∑ i ∈ range M, dev M x i ^ 4

/-- the sum over all orders of the product of what is at four places -/
def quad (y : Fin M → K) (a b c d : Fin M) : K := ∑ σ : Equiv.Perm (Fin M), y (σ a) * y (σ b) * y (σ c) * y (σ d)

theorem quad_move (y : Fin M → K) (π : Equiv.Perm (Fin M)) (a b c d : Fin M) : quad y (π a) (π b) (π c) (π d) = quad y a b c d :=
  Equiv.sum_comp (Equiv.mulRight π) fun σ : Equiv.Perm (Fin M) => y (σ a) * y (σ b) * y (σ c) * y (σ d)

theorem sum_const_off (S : Finset (Fin M)) (f : Fin M → K) (z : K) (h : ∀ d, d ∉ S → f d = z) : ∑ d, f d = ∑ d ∈ S, f d + ((M : K) - S.card) * z := by
  have h1 : ∑ d ∈ S, (f d - z) = ∑ d, (f d - z) := Finset.sum_subset (Finset.subset_univ S) fun d _ hd => by rw [h d hd, sub_self]
  rw [Finset.sum_sub_distrib, Finset.sum_sub_distrib, Finset.sum_const, Finset.sum_const, Finset.card_univ, Fintype.card_fin, nsmul_eq_mul, nsmul_eq_mul] at h1
  linarith

variable {y : Fin M → K} {N F : K}

theorem quad_row (hy : ∑ i, y i = 0) (a b c : Fin M) : ∑ d, quad y a b c d = 0 := by
  unfold quad
  rw [Finset.sum_comm]
  refine Finset.sum_eq_zero fun σ _ => ?_
  rw [← Finset.mul_sum, Equiv.sum_comp σ y, hy, mul_zero]

theorem card_perms : ((Finset.univ : Finset (Equiv.Perm (Fin M))).card : K) = M.factorial := by
  rw [Finset.card_univ, Fintype.card_perm, Fintype.card_fin]

theorem quad_four (hF : ∑ i, y i ^ 4 = F) (a : Fin M) : (M : K) * quad y a a a a = M.factorial * F := by
  have h1 := sum_const_off ∅ (fun d => quad y d d d d) (quad y a a a a) fun d _ => by
    have := quad_move y (Equiv.swap a d) a a a a
    rw [Equiv.swap_apply_left] at this
    exact this
  rw [Finset.sum_empty, Finset.card_empty, Nat.cast_zero, sub_zero, zero_add] at h1
  rw [← h1]
  unfold quad
  rw [Finset.sum_comm]
  have e : ∀ σ : Equiv.Perm (Fin M), ∑ d, y (σ d) * y (σ d) * y (σ d) * y (σ d) = F := fun σ => by
    rw [Equiv.sum_comp σ fun d => y d * y d * y d * y d, ← hF]
    exact Finset.sum_congr rfl fun i _ => by ring
  rw [Finset.sum_congr rfl fun σ _ => e σ, Finset.sum_const, nsmul_eq_mul, card_perms]

theorem quad_sq (hN : ∑ i, y i ^ 2 = N) (a : Fin M) : (M : K) * ∑ d, quad y d d a a = M.factorial * N ^ 2 := by
  have e1 : ∀ b : Fin M, ∑ d, quad y d d b b = N * ∑ σ : Equiv.Perm (Fin M), y (σ b) ^ 2 := fun b => by
    unfold quad
    rw [Finset.sum_comm, Finset.mul_sum]
    refine Finset.sum_congr rfl fun σ _ => ?_
    have e2 : ∀ d, y (σ d) * y (σ d) * y (σ b) * y (σ b) = y (σ d) ^ 2 * y (σ b) ^ 2 := fun d => by ring
    rw [Finset.sum_congr rfl fun d _ => e2 d, ← Finset.sum_mul, Equiv.sum_comp σ fun d => y d ^ 2, hN]
  have h1 := sum_const_off ∅ (fun b => ∑ σ : Equiv.Perm (Fin M), y (σ b) ^ 2) (∑ σ : Equiv.Perm (Fin M), y (σ a) ^ 2) fun d _ => by
    have := Equiv.sum_comp (Equiv.mulRight (Equiv.swap a d)) fun σ : Equiv.Perm (Fin M) => y (σ a) ^ 2
    simpa using this
  rw [Finset.sum_empty, Finset.card_empty, Nat.cast_zero, sub_zero, zero_add, Finset.sum_comm] at h1
  have e3 : ∀ σ : Equiv.Perm (Fin M), ∑ b, y (σ b) ^ 2 = N := fun σ => by rw [Equiv.sum_comp σ fun d => y d ^ 2, hN]
  rw [Finset.sum_congr rfl fun σ _ => e3 σ, Finset.sum_const, nsmul_eq_mul, card_perms] at h1
  rw [e1, mul_left_comm, ← h1]
  ring

theorem swap_fix {a b c : Fin M} (h1 : c ≠ a) (h2 : c ≠ b) : Equiv.swap a b c = c := Equiv.swap_apply_of_ne_of_ne h1 h2

/-- three places the same, one different -/
theorem quad_31 (hy : ∑ i, y i = 0) (hF : ∑ i, y i ^ 4 = F) {a b : Fin M} (hab : a ≠ b) : (M : K) * (M - 1) * quad y a a a b = -(M.factorial * F) := by
  have h1 := sum_const_off {a} (fun d => quad y a a a d) (quad y a a a b) fun d hd => by
    rw [Finset.mem_singleton] at hd
    have := quad_move y (Equiv.swap b d) a a a b
    rw [Equiv.swap_apply_left, swap_fix hab (Ne.symm hd)] at this
    exact this
  rw [quad_row hy, Finset.sum_singleton, Finset.card_singleton, Nat.cast_one] at h1
  have h2 := quad_four hF a
  have h3 : (M : K) * ((M - 1) * quad y a a a b) = (M : K) * -quad y a a a a := by congr 1; linarith
  rw [mul_assoc, h3]
  linarith

/-- two pairs of equal places -/
theorem quad_22 (hN : ∑ i, y i ^ 2 = N) (hF : ∑ i, y i ^ 4 = F) {a b : Fin M} (hab : a ≠ b) :
    (M : K) * (M - 1) * quad y a a b b = M.factorial * (N ^ 2 - F) := by
  have h1 := sum_const_off {b} (fun d => quad y d d b b) (quad y a a b b) fun d hd => by
    rw [Finset.mem_singleton] at hd
    have := quad_move y (Equiv.swap a d) a a b b
    rw [Equiv.swap_apply_left, swap_fix hab.symm (Ne.symm hd)] at this
    exact this
  rw [Finset.sum_singleton, Finset.card_singleton, Nat.cast_one] at h1
  have h2 := quad_four hF b
  have h3 := quad_sq hN b
  rw [h1, mul_add] at h3
  rw [mul_assoc]
  linarith

/-- one pair of equal places, two different ones -/
theorem quad_211 (hy : ∑ i, y i = 0) (hN : ∑ i, y i ^ 2 = N) (hF : ∑ i, y i ^ 4 = F) {a b c : Fin M} (hab : a ≠ b) (hac : a ≠ c) (hbc : b ≠ c) :
    (M : K) * (M - 1) * (M - 2) * quad y a a b c = M.factorial * (2 * F - N ^ 2) := by
  have h1 := sum_const_off {a, b} (fun d => quad y a a b d) (quad y a a b c) fun d hd => by
    rw [Finset.mem_insert, Finset.mem_singleton, not_or] at hd
    have := quad_move y (Equiv.swap c d) a a b c
    rw [Equiv.swap_apply_left, swap_fix hac (Ne.symm hd.1), swap_fix hbc (Ne.symm hd.2)] at this
    exact this
  rw [quad_row hy, Finset.sum_pair hab, Finset.card_pair hab] at h1
  have h2 := quad_31 hy hF hab
  have h3 := quad_22 hN hF hab
  have e1 : quad y a a b a = quad y a a a b := Finset.sum_congr rfl fun σ _ => by ring
  rw [e1] at h1
  push_cast at h1
  have h4 : (M : K) * (M - 1) * (M - 2) * quad y a a b c = -((M : K) * (M - 1) * quad y a a a b + (M : K) * (M - 1) * quad y a a b b) := by
    have : ((M : K) - 2) * quad y a a b c = -(quad y a a a b + quad y a a b b) := by linarith
    rw [mul_assoc, this]
    ring
  rw [h4, h2, h3]
  ring

/-- four different places -/
theorem quad_1111 (hy : ∑ i, y i = 0) (hN : ∑ i, y i ^ 2 = N) (hF : ∑ i, y i ^ 4 = F) {a b c d : Fin M} (hab : a ≠ b) (hac : a ≠ c) (hbc : b ≠ c)
    (had : a ≠ d) (hbd : b ≠ d) (hcd : c ≠ d) :
    (M : K) * (M - 1) * (M - 2) * (M - 3) * quad y a b c d = M.factorial * (3 * N ^ 2 - 6 * F) := by
  have h1 := sum_const_off {a, b, c} (fun z => quad y a b c z) (quad y a b c d) fun z hz => by
    rw [Finset.mem_insert, Finset.mem_insert, Finset.mem_singleton, not_or, not_or] at hz
    have := quad_move y (Equiv.swap d z) a b c d
    rw [Equiv.swap_apply_left, swap_fix had (Ne.symm hz.1), swap_fix hbd (Ne.symm hz.2.1), swap_fix hcd (Ne.symm hz.2.2)] at this
    exact this
  have hcard : ({a, b, c} : Finset (Fin M)).card = 3 := Finset.card_eq_three.2 ⟨a, b, c, hab, hac, hbc, rfl⟩
  rw [quad_row hy, hcard, Finset.sum_insert (by rw [Finset.mem_insert, Finset.mem_singleton, not_or]; exact ⟨hab, hac⟩), Finset.sum_pair hbc] at h1
  have e1 : quad y a b c a = quad y a a b c := Finset.sum_congr rfl fun σ _ => by ring
  have e2 : quad y a b c b = quad y b b a c := Finset.sum_congr rfl fun σ _ => by ring
  have e3 : quad y a b c c = quad y c c a b := Finset.sum_congr rfl fun σ _ => by ring
  rw [e1, e2, e3] at h1
  push_cast at h1
  have h2 := quad_211 hy hN hF hab hac hbc
  have h3 := quad_211 hy hN hF hab.symm hbc hac
  have h4 := quad_211 hy hN hF hac.symm hbc.symm hab
  have h5 : (M : K) * (M - 1) * (M - 2) * (M - 3) * quad y a b c d
      = -((M : K) * (M - 1) * (M - 2) * quad y a a b c + (M : K) * (M - 1) * (M - 2) * quad y b b a c + (M : K) * (M - 1) * (M - 2) * quad y c c a b) := by
    have : ((M : K) - 3) * quad y a b c d = -(quad y a a b c + quad y b b a c + quad y c c a b) := by linarith
    rw [mul_assoc, this]
    ring
  rw [h5, h2, h3, h4]
  ring

/-- the mean over all orders of the square of the correlation at `m > 0` steps of a regular grid, `N` and `F` the sums of the squares and fourth powers of the deviations -/
def permSquare (M m : ℕ) (N F : K) : K :=
  ((M - m : ℕ) * (N ^ 2 - F) / (M * (M - 1))
    + 2 * (M - 2 * m : ℕ) * (2 * F - N ^ 2) / (M * (M - 1) * (M - 2))
    + ((M - m : ℕ) ^ 2 - (M - m : ℕ) - 2 * (M - 2 * m : ℕ)) * (3 * N ^ 2 - 6 * F) / (M * (M - 1) * (M - 2) * (M - 3))) / N ^ 2

theorem count_pairs (n m : ℕ) (hm : 0 < m) (e1 e2 e3 : K) :
    ∑ i ∈ range n, ∑ i' ∈ range n, (if i = i' then e1 else if i' = i + m ∨ i = i' + m then e2 else e3)
      = n * e1 + 2 * (n - m : ℕ) * e2 + ((n : K) ^ 2 - n - 2 * (n - m : ℕ)) * e3 := by
  have h1 : ∀ i i' : ℕ, (if i = i' then e1 else if i' = i + m ∨ i = i' + m then e2 else e3)
      = e3 + (if i = i' then e1 - e3 else 0) + (if i' = i + m then e2 - e3 else 0) + (if i = i' + m then e2 - e3 else 0) := by
    intro i i'
    by_cases c1 : i = i'
    · rw [if_pos c1, if_pos c1, if_neg (by omega), if_neg (by omega)]; ring
    · by_cases c2 : i' = i + m
      · rw [if_neg c1, if_pos (.inl c2), if_neg c1, if_pos c2, if_neg (by omega)]; ring
      · by_cases c3 : i = i' + m
        · rw [if_neg c1, if_pos (.inr c3), if_neg c1, if_neg c2, if_pos c3]; ring
        · rw [if_neg c1, if_neg (by tauto), if_neg c1, if_neg c2, if_neg c3]; ring
  have h2 : ∀ c : K, ∑ i ∈ range n, ∑ i' ∈ range n, (if i' = i + m then c else 0) = (n - m : ℕ) * c := by
    intro c
    have e : ∀ i, ∑ i' ∈ range n, (if i' = i + m then c else 0) = if i + m < n then c else 0 := fun i => by
      rw [Finset.sum_ite_eq']
      simp
    have ef : (range n).filter (fun i => i + m < n) = range (n - m) := by
      ext i
      rw [Finset.mem_filter, Finset.mem_range, Finset.mem_range]
      omega
    rw [Finset.sum_congr rfl fun i _ => e i, ← Finset.sum_filter, ef, Finset.sum_const, Finset.card_range, nsmul_eq_mul]
  have h3 : ∀ c : K, ∑ i ∈ range n, ∑ i' ∈ range n, (if i = i' + m then c else 0) = (n - m : ℕ) * c := by
    intro c
    rw [Finset.sum_comm]
    exact h2 c
  have h4 : ∀ c : K, ∑ i ∈ range n, ∑ i' ∈ range n, (if i = i' then c else 0) = n * c := by
    intro c
    have e : ∀ i ∈ range n, ∑ i' ∈ range n, (if i = i' then c else 0) = c := fun i hi => by
      rw [Finset.sum_ite_eq, if_pos hi]
    rw [Finset.sum_congr rfl e, Finset.sum_const, Finset.card_range, nsmul_eq_mul]
  simp only [h1, Finset.sum_add_distrib]
  rw [h2, h3, h4]
  simp only [Finset.sum_const, Finset.card_range, nsmul_eq_mul]
  ring

end sums

section sums
variable {K : Type} [Field K] [LinearOrder K] [IsStrictOrderedRing K] [FloorRing K]
variable {M : ℕ} {x : ℕ → K}

theorem sum_square {m : ℕ} (hm0 : 0 < m) (hm : m < M) :
    ∑ σ : Equiv.Perm (Fin M), (autoCov M (reorder x σ) m / sumSq M (reorder x σ)) ^ 2 = M.factorial * permSquare M m (sumSq M x) (sumFourth M x) := by
  have hM0 : 0 < M := by omega
  set y : Fin M → K := fun i => dev M x i with hyd
  have hy : ∑ i, y i = 0 := by rw [hyd, ← Finset.sum_range, sum_dev hM0]
  have hN : ∑ i, y i ^ 2 = sumSq M x := by unfold sumSq; rw [Finset.sum_range]
  have hF : ∑ i, y i ^ 4 = sumFourth M x := by unfold sumFourth; rw [Finset.sum_range]
  set N := sumSq M x with hNd
  set F := sumFourth M x with hFd
  have hMK : ∀ c : ℕ, c < M → (M : K) - c ≠ 0 := fun c hc => by
    have : (c : K) < M := by exact_mod_cast hc
    linarith
  have h0 : (M : K) ≠ 0 := by simpa using hMK 0 hM0
  have hQ : ∀ i ∈ range (M - m), ∀ i' ∈ range (M - m),
      ∑ σ : Equiv.Perm (Fin M), dev M (reorder x σ) i * dev M (reorder x σ) (i + m) * (dev M (reorder x σ) i' * dev M (reorder x σ) (i' + m))
        = if i = i' then M.factorial * ((N ^ 2 - F) / (M * (M - 1))) else if i' = i + m ∨ i = i' + m then M.factorial * ((2 * F - N ^ 2) / (M * (M - 1) * (M - 2)))
          else M.factorial * ((3 * N ^ 2 - 6 * F) / (M * (M - 1) * (M - 2) * (M - 3))) := by
    intro i hi i' hi'
    rw [Finset.mem_range] at hi hi'
    obtain ⟨a, ha⟩ : ∃ a : Fin M, (a : ℕ) = i := ⟨⟨i, by omega⟩, rfl⟩
    obtain ⟨b, hb⟩ : ∃ b : Fin M, (b : ℕ) = i + m := ⟨⟨i + m, by omega⟩, rfl⟩
    obtain ⟨c, hc⟩ : ∃ c : Fin M, (c : ℕ) = i' := ⟨⟨i', by omega⟩, rfl⟩
    obtain ⟨d, hd⟩ : ∃ d : Fin M, (d : ℕ) = i' + m := ⟨⟨i' + m, by omega⟩, rfl⟩
    have e0 : ∑ σ : Equiv.Perm (Fin M), dev M (reorder x σ) i * dev M (reorder x σ) (i + m) * (dev M (reorder x σ) i' * dev M (reorder x σ) (i' + m)) = quad y a b c d := by
      refine Finset.sum_congr rfl fun σ _ => ?_
      rw [show dev M (reorder x σ) (i + m) = y (σ b) by rw [← hb, dev_reorder], show dev M (reorder x σ) (i' + m) = y (σ d) by rw [← hd, dev_reorder], ← ha, ← hc,
        dev_reorder, dev_reorder]
      ring
    have ne : ∀ p q : Fin M, (p : ℕ) ≠ q → p ≠ q := fun p q h h' => h (congrArg _ h')
    have eq : ∀ p q : Fin M, (p : ℕ) = q → p = q := fun p q h => Fin.ext h
    have hab := ne a b (by omega)
    have h1 : (M : K) - 1 ≠ 0 := by simpa using hMK 1 (by omega)
    rw [e0]
    by_cases c1 : i = i'
    · rw [if_pos c1, eq c a (by omega), eq d b (by omega)]
      have e1 : quad y a b a b = quad y a a b b := Finset.sum_congr rfl fun σ _ => by ring
      have := quad_22 hN hF hab
      rw [e1, ← mul_div_assoc, eq_div_iff (mul_ne_zero h0 h1)]
      linarith
    · rw [if_neg c1]
      by_cases c2 : i' = i + m ∨ i = i' + m
      · rw [if_pos c2]
        have h2 : (M : K) - 2 ≠ 0 := by simpa using hMK 2 (by omega)
        rw [← mul_div_assoc, eq_div_iff (mul_ne_zero (mul_ne_zero h0 h1) h2)]
        rcases c2 with c2 | c2
        · rw [eq c b (by omega)]
          have e1 : quad y a b b d = quad y b b a d := Finset.sum_congr rfl fun σ _ => by ring
          have := quad_211 hy hN hF hab.symm (ne b d (by omega)) (ne a d (by omega))
          rw [e1]
          linarith
        · rw [eq d a (by omega)]
          have e1 : quad y a b c a = quad y a a b c := Finset.sum_congr rfl fun σ _ => by ring
          have := quad_211 hy hN hF hab (ne a c (by omega)) (ne b c (by omega))
          rw [e1]
          linarith
      · rw [if_neg c2]
        have h2 : (M : K) - 2 ≠ 0 := by simpa using hMK 2 (by omega)
        have h3 : (M : K) - 3 ≠ 0 := by simpa using hMK 3 (by omega)
        have := quad_1111 hy hN hF hab (ne a c (by omega)) (ne b c (by omega)) (ne a d (by omega)) (ne b d (by omega)) (ne c d (by omega))
        rw [← mul_div_assoc, eq_div_iff (mul_ne_zero (mul_ne_zero (mul_ne_zero h0 h1) h2) h3)]
        linarith
  have e2 : ∀ σ : Equiv.Perm (Fin M), (autoCov M (reorder x σ) m / sumSq M (reorder x σ)) ^ 2
      = (∑ i ∈ range (M - m), ∑ i' ∈ range (M - m), dev M (reorder x σ) i * dev M (reorder x σ) (i + m) * (dev M (reorder x σ) i' * dev M (reorder x σ) (i' + m))) * (1 / N ^ 2) := by
    intro σ
    rw [sumSq_reorder, div_pow, div_eq_mul_one_div]
    unfold autoCov
    rw [sq (∑ i ∈ range (M - m), _), Finset.sum_mul_sum]
  rw [Finset.sum_congr rfl fun σ _ => e2 σ, ← Finset.sum_mul, Finset.sum_comm]
  have e3 : ∑ i ∈ range (M - m), ∑ σ : Equiv.Perm (Fin M), ∑ i' ∈ range (M - m),
      dev M (reorder x σ) i * dev M (reorder x σ) (i + m) * (dev M (reorder x σ) i' * dev M (reorder x σ) (i' + m))
      = ∑ i ∈ range (M - m), ∑ i' ∈ range (M - m), (if i = i' then M.factorial * ((N ^ 2 - F) / (M * (M - 1)))
        else if i' = i + m ∨ i = i' + m then M.factorial * ((2 * F - N ^ 2) / (M * (M - 1) * (M - 2)))
          else M.factorial * ((3 * N ^ 2 - 6 * F) / (M * (M - 1) * (M - 2) * (M - 3)))) := by
    refine Finset.sum_congr rfl fun i hi => ?_
    rw [Finset.sum_comm]
    exact Finset.sum_congr rfl fun i' hi' => hQ i hi i' hi'
  rw [e3, count_pairs _ _ hm0]
  unfold permSquare
  rw [show M - m - m = M - 2 * m by omega]
  ring

theorem sumFourth_nonneg : 0 ≤ sumFourth M x := Finset.sum_nonneg fun i _ => by positivity

theorem permSquare_le {m : ℕ} {N F : K} (hM : 7 ≤ M) (hm0 : 0 < m) (hm : m < M) (hN : 0 < N) (hF0 : 0 ≤ F) :
    permSquare M m N F ≤ 2 / M := by
  have hMK : (7 : K) ≤ M := by exact_mod_cast hM
  have hN2 : 0 < N ^ 2 := by positivity
  have p1 : (0 : K) < M - 1 := by linarith
  have p2 : (0 : K) < M - 2 := by linarith
  have p3 : (0 : K) < M - 3 := by linarith
  have p0 : (0 : K) < M := by linarith
  set a : K := ((M - m : ℕ) : K) with ha
  set c : K := ((M - 2 * m : ℕ) : K) with hc
  have ha0 : 0 ≤ a := Nat.cast_nonneg _
  have hc0 : 0 ≤ c := Nat.cast_nonneg _
  have hca : c ≤ a := by rw [hc, ha, Nat.cast_le]; omega
  have ha1 : a ≤ M - 1 := by
    rw [ha, ← Nat.cast_one, ← Nat.cast_sub (by omega), Nat.cast_le]
    omega
  -- the pairs that share a place
  have t1 : a * (N ^ 2 - F) / (M * (M - 1)) + 2 * c * (2 * F - N ^ 2) / (M * (M - 1) * (M - 2)) ≤ a * N ^ 2 / (M * (M - 1)) := by
    have e : a * (N ^ 2 - F) / (M * (M - 1)) + 2 * c * (2 * F - N ^ 2) / (M * (M - 1) * (M - 2)) - a * N ^ 2 / (M * (M - 1))
        = -((M - 2) * a * F - 2 * c * (2 * F - N ^ 2)) / (M * (M - 1) * (M - 2)) := by
      field_simp
      ring
    have h1 : 0 ≤ (M - 2) * a * F - 2 * c * (2 * F - N ^ 2) := by
      have h2 : 5 * (a * F) ≤ (M - 2) * a * F := by
        have := mul_le_mul_of_nonneg_right (show (5 : K) ≤ M - 2 by linarith) (mul_nonneg ha0 hF0)
        linarith
      have h3 : c * F ≤ a * F := mul_le_mul_of_nonneg_right hca hF0
      have h4 : 0 ≤ c * N ^ 2 := mul_nonneg hc0 hN2.le
      have h5 : 0 ≤ a * F := mul_nonneg ha0 hF0
      linarith
    have h2 : -((M - 2) * a * F - 2 * c * (2 * F - N ^ 2)) / (M * (M - 1) * (M - 2)) ≤ 0 :=
      div_nonpos_of_nonpos_of_nonneg (by linarith) (by positivity)
    linarith
  -- the others
  have hb0 : a ^ 2 - a - 2 * c ≤ a ^ 2 := by linarith
  have hb : (a ^ 2 - a - 2 * c) * (3 * N ^ 2 - 6 * F) ≤ a ^ 2 * (3 * N ^ 2) := by
    have h1 : (M - m) + 2 * (M - 2 * m) ≤ (M - m) ^ 2 := by
      obtain ⟨z, hz⟩ : ∃ z, M - m = z + 1 := ⟨M - m - 1, by omega⟩
      have h2 : M - 2 * m ≤ z := by omega
      rw [hz]
      rcases z with _ | z
      · omega
      · nlinarith
    have h2 : a + 2 * c ≤ a ^ 2 := by rw [ha, hc]; exact_mod_cast h1
    have h3 : (a ^ 2 - a - 2 * c) * (3 * N ^ 2 - 6 * F) ≤ (a ^ 2 - a - 2 * c) * (3 * N ^ 2) := mul_le_mul_of_nonneg_left (by linarith) (by linarith)
    exact h3.trans (mul_le_mul_of_nonneg_right hb0 (by positivity))
  have t2 : (a ^ 2 - a - 2 * c) * (3 * N ^ 2 - 6 * F) / (M * (M - 1) * (M - 2) * (M - 3)) ≤ a ^ 2 * (3 * N ^ 2) / (M * (M - 1) * (M - 2) * (M - 3)) :=
    div_le_div_of_nonneg_right hb (by positivity)
  unfold permSquare
  rw [div_le_iff₀ hN2]
  have t3 : a * N ^ 2 / (M * (M - 1)) ≤ N ^ 2 / M := by
    rw [div_le_div_iff₀ (by positivity) p0]
    have := mul_le_mul_of_nonneg_right ha1 (mul_nonneg hN2.le p0.le)
    linarith
  have t4 : a ^ 2 * (3 * N ^ 2) / (M * (M - 1) * (M - 2) * (M - 3)) ≤ N ^ 2 / M := by
    rw [div_le_div_iff₀ (by positivity) p0]
    have h1 : a ^ 2 ≤ (M - 1) ^ 2 := pow_le_pow_left₀ ha0 ha1 2
    have h2 : 3 * ((M : K) - 1) ≤ (M - 2) * (M - 3) := by nlinarith
    have h3 : a ^ 2 * 3 ≤ (M - 1) * ((M - 2) * (M - 3)) := by
      have := mul_le_mul_of_nonneg_left h2 p1.le
      nlinarith
    have := mul_le_mul_of_nonneg_right h3 (mul_nonneg hN2.le p0.le)
    linarith
  have : 2 / (M : K) * N ^ 2 = N ^ 2 / M + N ^ 2 / M := by ring
  linarith

/-- at most `E / c²` of the orders have a square of `c²` or more -/
theorem chebyshev {v : Equiv.Perm (Fin M) → K} {c : K} (hc : 0 < c) : ((Finset.univ.filter fun σ => c ≤ |v σ|).card : K) * c ^ 2 ≤ ∑ σ, v σ ^ 2 := by
  rw [← nsmul_eq_mul]
  refine (Finset.card_nsmul_le_sum _ (fun σ => v σ ^ 2) (c ^ 2) fun σ hσ => ?_).trans
    (Finset.sum_le_sum_of_subset_of_nonneg (Finset.filter_subset _ _) fun σ _ _ => sq_nonneg _)
  rw [Finset.mem_filter] at hσ
  rw [← sq_abs (v σ)]
  exact pow_le_pow_left₀ hc.le hσ.2 2

end sums

section exact
variable {K : Type} [Field K] [LinearOrder K] [IsStrictOrderedRing K] [FloorRing K]
variable {dm : K} {f32 ex : K → K} {M : ℕ} {x : ℕ → K} {α : K} {wt : String}

/-- **C90**: runs for the values in all `M!` orders on the same regular grid.  The mean of the squares of the correlations at `m > 0` steps is `permSquare`, which depends on the values only
through the sums of the squares and of the fourth powers of the deviations. -/
theorem C90_second_moment {t0 δ : K} {d : Equiv.Perm (Fin M) → DS (Exact dm f32 ex)} {g : Equiv.Perm (Fin M) → LagArgs (Exact dm f32 ex)}
    {r : Equiv.Perm (Fin M) → AcResult (Exact dm f32 ex)} {j : Equiv.Perm (Fin M) → ℕ}
    (h : ∀ σ, NaturalRun (d σ) (g σ) wt (r σ) M (fun i : ℕ => t0 + i * δ) (j σ) (reorder x σ) α) (hδ : 0 < δ)
    (hf : ∀ i < M, f32 (x i) = x i) (hv : sumSq M x ≠ 0) (he : wt = "gaussian" → ex 0 = 1) (m : ℕ) (hm0 : 0 < m) (hm : m < M)
    (n : Equiv.Perm (Fin M) → ℕ) (hn : ∀ σ, (r σ).lags[n σ]? = some (.fin (m * δ))) :
    ∃ v : Equiv.Perm (Fin M) → K, (∀ σ, (r σ).At (j σ) (n σ) (.fin (m * δ)) (.fin (v σ))) ∧
      (∑ σ, v σ ^ 2) / M.factorial = permSquare M m (sumSq M x) (sumFourth M x) := by
  have hsel := (sacf_regular (t0 := t0) hδ (weight_zero (h 1).wt_known he α) M m hm x (sumSq M x)).1
  refine ⟨fun σ => autoCov M (reorder x σ) m / sumSq M (reorder x σ), fun σ => ?_, ?_⟩
  · have h1 := C47_formula (h σ) (fun i hi => by unfold reorder; rw [dif_pos hi]; exact hf _ (σ ⟨i, hi⟩).2) (by rw [sumSq_reorder]; exact hv) (n σ) _ (hn σ) _ hsel
    rwa [(sacf_regular (t0 := t0) hδ (weight_zero (h 1).wt_known he α) M m hm (reorder x σ) _).2] at h1
  · have hfac : (M.factorial : K) ≠ 0 := by exact_mod_cast M.factorial_ne_zero
    rw [sum_square hm0 hm, mul_div_cancel_left₀ _ hfac]

/-- **C90**, significance: with seven samples or more, at most `2 / (M c²)` of the orders of the values have a correlation of `c` or more in absolute value at `m > 0` steps. -/
theorem C90_significance {t0 δ : K} {d : Equiv.Perm (Fin M) → DS (Exact dm f32 ex)} {g : Equiv.Perm (Fin M) → LagArgs (Exact dm f32 ex)}
    {r : Equiv.Perm (Fin M) → AcResult (Exact dm f32 ex)} {j : Equiv.Perm (Fin M) → ℕ}
    (h : ∀ σ, NaturalRun (d σ) (g σ) wt (r σ) M (fun i : ℕ => t0 + i * δ) (j σ) (reorder x σ) α) (hδ : 0 < δ)
    (hf : ∀ i < M, f32 (x i) = x i) (hv : sumSq M x ≠ 0) (he : wt = "gaussian" → ex 0 = 1) (hM : 7 ≤ M) (m : ℕ) (hm0 : 0 < m) (hm : m < M)
    (n : Equiv.Perm (Fin M) → ℕ) (hn : ∀ σ, (r σ).lags[n σ]? = some (.fin (m * δ))) (c : K) (hc : 0 < c) :
    ∃ v : Equiv.Perm (Fin M) → K, (∀ σ, (r σ).At (j σ) (n σ) (.fin (m * δ)) (.fin (v σ))) ∧
      ((Finset.univ.filter fun σ => c ≤ |v σ|).card : K) / M.factorial ≤ 2 / (M * c ^ 2) := by
  obtain ⟨v, h1, h2⟩ := C90_second_moment h hδ hf hv he m hm0 hm n hn
  refine ⟨v, h1, ?_⟩
  have hfac : (0 : K) < M.factorial := by exact_mod_cast M.factorial_pos
  have hN : 0 < sumSq M x := lt_of_le_of_ne (Finset.sum_nonneg fun i _ => sq_nonneg _) hv.symm
  have h3 := permSquare_le hM hm0 hm hN (sumFourth_nonneg (M := M) (x := x))
  rw [← h2, div_le_iff₀ hfac] at h3
  have h4 := (chebyshev (v := v) hc).trans h3
  have hM0 : (0 : K) < M := by exact_mod_cast (by omega : 0 < M)
  rw [div_le_div_iff₀ hfac (by positivity)]
  rw [div_mul_eq_mul_div, le_div_iff₀ hM0] at h4
  linarith

end exact

section binary64
variable {ex : ℚ → ℚ} {fu : Bool} {M : ℕ} {e : ℤ} {x : ℕ → ℚ} {A V : ℚ}

/-- **C90 in binary64**, default calls: with seven samples or more, at most `2 / (M c²)` of the orders of the values have a computed correlation of more than `c + 500 V κ` at `m > 0` steps. -/
theorem C90_binary64 {a p : ℤ} {d : Equiv.Perm (Fin M) → DS (D64 ex fu)} {j : Equiv.Perm (Fin M) → ℕ} (ht : ∀ σ, Regular64 (d σ) M a p e)
    (hv : ∀ σ, Values64 (d σ) M (j σ) (reorder x σ) A V) (hM : 7 ≤ M) :
    ∃ r : Equiv.Perm (Fin M) → AcResult (D64 ex fu), (∀ σ, autocorrelation .fabs (d σ) {} "natural" "fractional" = .ok (r σ)) ∧
      ∀ m, 0 < m → m < M → ∃ v : Equiv.Perm (Fin M) → ℚ,
        (∀ σ, (r σ).At (j σ) (M - 1 + m) (.fin ((m * p : ℤ) * pow2 e)) (.fin (v σ))) ∧
        ∀ c : ℚ, 0 < c → ((Finset.univ.filter fun σ => c + 500 * V * (M * A ^ 2 / sumSq M x) ≤ |v σ|).card : ℚ) / M.factorial ≤ 2 / (M * c ^ 2) := by
  choose hN _ r hr h1 using fun σ => (ht σ).result (hv σ)
  refine ⟨r, hr, fun m hm0 hm => ?_⟩
  choose v h2 h3 using fun σ => h1 σ m hm
  refine ⟨v, h2, fun c hc => ?_⟩
  have hfac : (0 : ℚ) < M.factorial := by exact_mod_cast M.factorial_pos
  have hN1 : 0 < sumSq M x := by
    have := hN 1
    rwa [sumSq_reorder] at this
  set u : Equiv.Perm (Fin M) → ℚ := fun σ => autoCov M (reorder x σ) m / sumSq M (reorder x σ) with hu
  have h4 := permSquare_le hM hm0 hm hN1 (sumFourth_nonneg (M := M) (x := x))
  have h5 : ∑ σ, u σ ^ 2 = M.factorial * permSquare M m (sumSq M x) (sumFourth M x) := sum_square hm0 hm
  have h6 : ((Finset.univ.filter fun σ => c + 500 * V * (M * A ^ 2 / sumSq M x) ≤ |v σ|).card : ℚ) ≤ (Finset.univ.filter fun σ => c ≤ |u σ|).card := by
    refine Nat.cast_le.2 (Finset.card_le_card fun σ hσ => ?_)
    rw [Finset.mem_filter] at hσ ⊢
    refine ⟨hσ.1, ?_⟩
    have h7 := h3 σ
    rw [sumSq_reorder (x := x) σ] at h7
    have h8 : u σ = autoCov M (reorder x σ) m / sumSq M x := by rw [hu]; beta_reduce; rw [sumSq_reorder]
    rw [← h8] at h7
    have h9 := abs_sub_abs_le_abs_sub (v σ) (u σ)
    linarith [hσ.2]
  have h10 := (mul_le_mul_of_nonneg_right h6 (sq_nonneg c)).trans ((chebyshev (v := u) hc).trans (h5.le.trans (mul_le_mul_of_nonneg_left h4 hfac.le)))
  have hM0 : (0 : ℚ) < M := by exact_mod_cast (by omega : 0 < M)
  rw [div_le_div_iff₀ hfac (by positivity)]
  rw [← mul_div_assoc (M.factorial : ℚ), le_div_iff₀ hM0] at h10
  linarith

end binary64

/-! ### cases -/

/-- values 1, 2, 6, 7 -/
def zX (i : ℕ) : ℚ := [1, 2, 6, 7].getD i 0

/-- C90_second_moment: times 0, 1, 2, 3, lag 1, values 1, 2, 6, 7: the mean of the squares of the 24 correlations is 289/1352 -/
example : ∃ (r : Equiv.Perm (Fin 4) → AcResult Q) (n : Equiv.Perm (Fin 4) → ℕ) (v : Equiv.Perm (Fin 4) → ℚ),
    (∀ σ, (r σ).At 0 (n σ) (.fin 1) (.fin (v σ))) ∧ (∑ σ, v σ ^ 2) / 24 = 289/1352 := by
  choose d r n h hn using fun σ : Equiv.Perm (Fin 4) => perm_run (η := 0) (k := 1) le_rfl (by norm_num) (by norm_num) le_rfl (reorder zX σ)
  have e : ∀ i < 4, jT 0 i = 0 + (i : ℚ) * 1 := by decide +kernel
  have h' : ∀ σ, NaturalRun (d σ) _ "fractional" (r σ) 4 (fun i : ℕ => 0 + (i : ℚ) * 1) 0 (reorder zX σ) 1 := fun σ =>
    ⟨(h σ).built, (h σ).times.trans (List.map_congr_left fun i hi => by rw [e i (List.mem_range.1 hi)]), fun i j hij hj => by simpa using hij, (h σ).row, (h σ).run,
      (h σ).wt_known, (h σ).alpha, (h σ).alpha_pos⟩
  obtain ⟨v, h1, h2⟩ := C90_second_moment h' one_pos (fun _ _ => rfl) (by decide +kernel) (by simp) 1 (by norm_num) (by norm_num) n (by simpa using hn)
  have e1 : permSquare 4 1 (sumSq 4 zX) (sumFourth 4 zX) = 289/1352 := by decide +kernel
  refine ⟨r, n, v, by simpa using h1, Eq.trans (by norm_num [Nat.factorial]) (h2.trans e1)⟩

/-- the call for the lag 1 of any values at times 0, 1, …, 7 returns -/
theorem perm_run8 (y : ℕ → ℚ) : ∃ (d : DS Q) (r : AcResult Q) (n : ℕ),
    NaturalRun (dm := 10 ^ 100) (f32 := id) (ex := fun x => 1 / (1 - x)) d ⟨some (.fin 1), some (.fin 1), some (.fin 1), some (.fin 1)⟩ "fractional" r 8
      (fun i : ℕ => 0 + (i : ℚ) * 1) 0 y 1 ∧ r.lags[n]? = some (.fin 1) := by
  obtain ⟨d, hd, ht, hrow, _⟩ := C03_round_trip (F := Q) (samples 8 fun i : ℕ => 0 + (i : ℚ) * 1) [samples 8 y]
    (by simp [samples]) (by simp) (by simp [Rect, samples])
  have hc : Constructed d := .table hd
  have hinc : Increasing 8 fun i : ℕ => 0 + (i : ℚ) * 1 := fun i j hij hj => by simpa using hij
  rcases C21_default_range_partial d hc 8 _ ht (by norm_num) hinc (by norm_num) 1
      ⟨⟨0, 1, by norm_num⟩, fun i j hij hj => by
        have : ((i + 1 : ℕ) : ℚ) ≤ j := Nat.cast_le.2 hij
        push_cast at this
        linarith⟩ (by
      have h1 : 2 * ((0 + ((8 - 1 : ℕ) : ℚ) * 1) - (0 + ((0 : ℕ) : ℚ) * 1)) / 1 < (15 : ℤ) := by norm_num
      have := Int.floor_lt.2 h1
      omega) ⟨some (.fin 1), some (.fin 1), some (.fin 1), some (.fin 1)⟩ "fractional" (by unfold KnownWeight; simp)
      (by norm_num) (by norm_num) (by norm_num) with ⟨r, hr⟩ | ⟨hne, _⟩
  · obtain ⟨p1, p2, p3, p4⟩ := result_params hc.wf hr
    obtain ⟨ks, hl, _, hmem⟩ := C17_grid .fabs d hc _ _ _ r hr 1 1 1 p1 p2 p3 one_pos
    obtain ⟨n, hn⟩ := List.mem_iff_getElem?.1 ((hmem 1).2 (.inl ⟨0, by norm_num, le_rfl⟩))
    exact ⟨d, r, n, ⟨hc, ht, hinc, ⟨_, hrow, rfl⟩, hr, by unfold KnownWeight; simp, p4, one_pos⟩, by rw [hl, List.getElem?_map, hn]; rfl⟩
  · exact absurd rfl hne

/-- C90_significance: any eight values that are not all equal at times 0, …, 7: at most 4/9 of the orders have a correlation of 3/4 or more at lag 1 -/
example (x : ℕ → ℚ) (hx : sumSq 8 x ≠ 0) : ∃ (r : Equiv.Perm (Fin 8) → AcResult Q) (n : Equiv.Perm (Fin 8) → ℕ) (v : Equiv.Perm (Fin 8) → ℚ),
    (∀ σ, (r σ).At 0 (n σ) (.fin 1) (.fin (v σ))) ∧ ((Finset.univ.filter fun σ => 3/4 ≤ |v σ|).card : ℚ) / (Nat.factorial 8 : ℕ) ≤ 4/9 := by
  choose d r n h hn using fun σ : Equiv.Perm (Fin 8) => perm_run8 (reorder x σ)
  obtain ⟨v, h1, h2⟩ := C90_significance h one_pos (fun _ _ => rfl) hx (by simp) (by norm_num) 1 (by norm_num) (by norm_num) n (by simpa using hn) (3/4) (by norm_num)
  exact ⟨r, n, v, by simpa using h1, h2.trans (by norm_num)⟩

/-- values 1, 2, 6, 7, 3, 1, 4, 8 -/
def zY (i : ℕ) : ℚ := [1, 2, 6, 7, 3, 1, 4, 8].getD i 0

/-- C90_binary64: the orders of 1, 2, 6, 7, 3, 1, 4, 8 at times 5, 8, …, 26: at most 4/9 of them have a correlation of 751/1000 or more at the lag 3 -/
example : ∃ (d : Equiv.Perm (Fin 8) → DS B) (r : Equiv.Perm (Fin 8) → AcResult B) (v : Equiv.Perm (Fin 8) → ℚ), (∀ σ, autocorrelation .fabs (d σ) = .ok (r σ)) ∧
    (∀ σ, (r σ).At 0 8 (.fin 3) (.fin (v σ))) ∧ ((Finset.univ.filter fun σ => 751/1000 ≤ |v σ|).card : ℚ) / (Nat.factorial 8 : ℕ) ≤ 4/9 := by
  have hob : ∀ y : ℕ → ℚ, ∃ d : DS B, Constructed d ∧ d.timeseries = (samples 8 fun i => ((5 + i * 3 : ℤ) : ℚ) * pow2 0) ∧ d.HasRow 0 (samples 8 y) := fun y => by
    obtain ⟨d, hd, ht, hrow, _⟩ := C03_round_trip (F := B) (samples 8 fun i => ((5 + i * 3 : ℤ) : ℚ) * pow2 0) [samples 8 y]
      (by simp [samples]) (by simp) (by simp [Rect, samples])
    exact ⟨d, .table hd, ht, _, hrow, rfl⟩
  choose d hc ht hrow using fun σ : Equiv.Perm (Fin 8) => hob (reorder zY σ)
  obtain ⟨d0, _, _, hrow0⟩ := hob zY
  have hv : Values64 d0 8 0 zY 8 (pow2 (-48)) := ⟨hrow0, by decide +kernel, by decide +kernel,
    by decide +kernel, by decide +kernel, by decide +kernel, .inr (by decide +kernel), by decide +kernel⟩
  obtain ⟨r, hr, h⟩ := C90_binary64 (a := 5) (p := 3) (e := 0)
    (fun σ => ⟨hc σ, ht σ, by norm_num, by norm_num, by norm_num, by norm_num, by norm_num, by norm_num⟩) (fun σ => hv.reorder (hrow σ)) (by norm_num)
  obtain ⟨v, h1, h2⟩ := h 1 (by norm_num) (by norm_num)
  refine ⟨d, r, v, hr, fun σ => by simpa [pow2_zero] using h1 σ, le_trans ?_ ((h2 (3/4) (by norm_num)).trans (by norm_num))⟩
  have e : (3/4 : ℚ) + 500 * pow2 (-48) * (((8 : ℕ) : ℚ) * 8 ^ 2 / sumSq 8 zY) ≤ 751/1000 := by decide +kernel
  refine div_le_div_of_nonneg_right (Nat.cast_le.2 (Finset.card_le_card fun σ hσ => ?_)) (Nat.cast_nonneg _)
  rw [Finset.mem_filter] at hσ ⊢
  exact ⟨hσ.1, e.trans hσ.2⟩

end Sacf
