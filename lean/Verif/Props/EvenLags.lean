import Verif.Props.SameLags
import Mathlib.Data.List.Sort

/-!
# When the default lags are evenly spaced (C124)
-/

set_option linter.unusedSectionVars false

namespace Sacf

/-- neighbouring lags all have the same distance -/
def EvenlySpaced {K : Type} [Field K] [LinearOrder K] [IsStrictOrderedRing K] [FloorRing K] {R : Rnd K} (l : List (XF R)) : Prop :=
  ∃ h : K, ∀ n k k', l[n]? = some (.fin k) → l[n + 1]? = some (.fin k') → k' - k = h

section points
variable {K : Type} [Field K] [LinearOrder K] [IsStrictOrderedRing K] [FloorRing K] {S δ : K} {ks : List K}

/-- the points when `S` is a multiple of `δ` -/
theorem even_points (hδ : 0 < δ) (hp : ks.Pairwise (· < ·))
    (hm : ∀ k, k ∈ ks ↔ (∃ n : ℕ, k = -S + n * δ ∧ k ≤ S) ∨ (k = 0 ∧ ∃ n : ℕ, 0 < -S + n * δ ∧ -S + n * δ ≤ S)) {N : ℕ} (hN : S = N * δ) :
    ks = (List.range (2 * N + 1)).map fun n : ℕ => -S + n * δ := by
  refine hp.eq_of_mem_iff ?_ fun k => ?_
  · rw [List.pairwise_map]
    refine List.pairwise_lt_range.imp fun {i j} h => ?_
    have : (i : K) < j := by exact_mod_cast h
    have := mul_lt_mul_of_pos_right this hδ
    linarith
  · rw [hm, List.mem_map]
    have hle : ∀ n : ℕ, -S + n * δ ≤ S ↔ n < 2 * N + 1 := fun n => by
      have : -S + n * δ ≤ S ↔ (n : K) * δ ≤ ((2 * N : ℕ) : K) * δ := by push_cast; constructor <;> intro h <;> linarith
      rw [this, mul_le_mul_iff_left₀ hδ, Nat.cast_le]
      omega
    constructor
    · rintro (⟨n, rfl, h⟩ | ⟨rfl, _⟩)
      · exact ⟨n, List.mem_range.2 ((hle n).1 h), rfl⟩
      · exact ⟨N, List.mem_range.2 (by omega), by rw [hN]; ring⟩
    · rintro ⟨n, hn, rfl⟩
      exact Or.inl ⟨n, rfl, (hle n).2 (List.mem_range.1 hn)⟩

/-- the points when `S` is no multiple of `δ`: zero is between two of them -/
theorem split_points (hδ : 0 < δ) (hS : δ ≤ S) (hp : ks.Pairwise (· < ·))
    (hm : ∀ k, k ∈ ks ↔ (∃ n : ℕ, k = -S + n * δ ∧ k ≤ S) ∨ (k = 0 ∧ ∃ n : ℕ, 0 < -S + n * δ ∧ -S + n * δ ≤ S)) (hN : ¬ ∃ n : ℕ, S = n * δ) :
    ∃ i j, 0 < i ∧ 0 < j ∧ -S + ((i - 1 : ℕ) : K) * δ < 0 ∧ 0 < -S + i * δ ∧
      ks = (List.range i).map (fun n : ℕ => -S + n * δ) ++ 0 :: (List.range j).map (fun n : ℕ => -S + ((i + n : ℕ) : K) * δ) := by
  have hc1 : S / δ ≤ ⌈S / δ⌉₊ := Nat.le_ceil _
  have hc2 : (⌈S / δ⌉₊ : K) < S / δ + 1 := Nat.ceil_lt_add_one (div_nonneg (by linarith) hδ.le)
  generalize ⌈S / δ⌉₊ = c at *
  have hc1' : S < c * δ := lt_of_le_of_ne (by rwa [div_le_iff₀ hδ] at hc1) fun h => hN ⟨c, h⟩
  have hc2' : (c : K) * δ < S + δ := by
    have := mul_lt_mul_of_pos_right hc2 hδ
    rwa [add_mul, div_mul_cancel₀ _ hδ.ne', one_mul] at this
  have hq1 : (⌊2 * S / δ⌋₊ : K) ≤ 2 * S / δ := Nat.floor_le (div_nonneg (by linarith) hδ.le)
  have hq2 : 2 * S / δ < ⌊2 * S / δ⌋₊ + 1 := Nat.lt_floor_add_one _
  generalize ⌊2 * S / δ⌋₊ = q at *
  rw [le_div_iff₀ hδ] at hq1
  rw [div_lt_iff₀ hδ] at hq2
  have hlt : ∀ {a b : ℕ}, (a : K) * δ < b * δ ↔ a < b := fun {a b} => by rw [mul_lt_mul_iff_left₀ hδ, Nat.cast_lt]
  have hc0 : 0 < c := by
    rcases Nat.eq_zero_or_pos c with h | h
    · rw [h] at hc1'; simp only [Nat.cast_zero, zero_mul] at hc1'; linarith
    · exact h
  have hpred : ((c - 1 : ℕ) : K) = c - 1 := by rw [Nat.cast_sub hc0]; simp
  have hcq : c ≤ q := by
    have : (c : K) * δ < ((q + 1 : ℕ) : K) * δ := by push_cast; linarith
    have := hlt.1 this
    omega
  have hneg : -S + ((c - 1 : ℕ) : K) * δ < 0 := by rw [hpred]; linarith
  refine ⟨c, q + 1 - c, hc0, by omega, hneg, by linarith, ?_⟩
  have hmono : ∀ {a b : ℕ}, a ≤ b → (a : K) * δ ≤ b * δ := fun {a b} h => mul_le_mul_of_nonneg_right (by exact_mod_cast h) hδ.le
  refine hp.eq_of_mem_iff ?_ fun k => ?_
  · rw [List.pairwise_append]
    refine ⟨?_, List.pairwise_cons.2 ⟨?_, ?_⟩, ?_⟩
    · rw [List.pairwise_map]
      refine List.pairwise_lt_range.imp fun {i j} h => ?_
      have := (hlt (a := i) (b := j)).2 h
      linarith
    · intro z hz
      obtain ⟨n, _, rfl⟩ := List.mem_map.1 hz
      have := hmono (show c ≤ c + n by omega)
      linarith
    · rw [List.pairwise_map]
      refine List.pairwise_lt_range.imp fun {i j} h => ?_
      have := (hlt (a := c + i) (b := c + j)).2 (by omega)
      linarith
    · intro z hz w hw
      obtain ⟨n, hn, rfl⟩ := List.mem_map.1 hz
      have h1 := hmono (show n ≤ c - 1 by have := List.mem_range.1 hn; omega)
      rcases List.mem_cons.1 hw with rfl | hw
      · linarith
      · obtain ⟨n', _, rfl⟩ := List.mem_map.1 hw
        have := hmono (show c ≤ c + n' by omega)
        linarith
  · rw [hm, List.mem_append, List.mem_cons, List.mem_map, List.mem_map]
    have hle : ∀ n : ℕ, -S + n * δ ≤ S ↔ n < q + 1 := fun n => by
      constructor
      · intro h
        refine hlt.1 ?_
        push_cast
        linarith
      · intro h
        have := hmono (show n ≤ q by omega)
        linarith
    constructor
    · rintro (⟨n, rfl, h⟩ | ⟨rfl, _⟩)
      · have h' := (hle n).1 h
        by_cases hnc : n < c
        · exact Or.inl ⟨n, List.mem_range.2 hnc, rfl⟩
        · exact Or.inr (Or.inr ⟨n - c, List.mem_range.2 (by omega), by rw [Nat.add_sub_cancel' (not_lt.1 hnc)]⟩)
      · exact Or.inr (Or.inl rfl)
    · rintro (⟨n, hn, rfl⟩ | rfl | ⟨n, hn, rfl⟩)
      · exact Or.inl ⟨n, rfl, (hle n).2 (by have := List.mem_range.1 hn; omega)⟩
      · exact Or.inr ⟨rfl, c, by linarith, (hle c).2 (by omega)⟩
      · exact Or.inl ⟨c + n, rfl, (hle _).2 (by have := List.mem_range.1 hn; omega)⟩

/-- the points are evenly spaced if and only if `S` is a multiple of `δ` -/
theorem evenly_iff {R : Rnd K} {l : List (XF R)} (hl : l = ks.map .fin) (hδ : 0 < δ) (hS : δ ≤ S) (hp : ks.Pairwise (· < ·))
    (hm : ∀ k, k ∈ ks ↔ (∃ n : ℕ, k = -S + n * δ ∧ k ≤ S) ∨ (k = 0 ∧ ∃ n : ℕ, 0 < -S + n * δ ∧ -S + n * δ ≤ S)) : EvenlySpaced l ↔ ∃ n : ℕ, S = n * δ := by
  constructor
  · rintro ⟨h, hh⟩
    by_contra hN
    obtain ⟨i, j, hi, hj, h1, h2, rfl⟩ := split_points hδ hS hp hm hN
    have key : ∀ (n : ℕ) (k : K), ((List.range i).map (fun n : ℕ => -S + n * δ) ++ 0 :: (List.range j).map (fun n : ℕ => -S + ((i + n : ℕ) : K) * δ))[n]? = some k →
        l[n]? = some (.fin k) := fun n k e => by rw [hl, List.getElem?_map, e]; rfl
    have a1 := hh (i - 1) _ _ (key (i - 1) (-S + ((i - 1 : ℕ) : K) * δ) (by
      rw [List.getElem?_append_left (by simp; omega)]; simp [show i - 1 < i by omega])) (key (i - 1 + 1) 0 (by
      rw [Nat.sub_add_cancel hi, List.getElem?_append_right (by simp)]; simp))
    have a2 := hh i _ _ (key i 0 (by rw [List.getElem?_append_right (by simp)]; simp)) (key (i + 1) (-S + ((i + 0 : ℕ) : K) * δ) (by
      rw [List.getElem?_append_right (by simp)]; simp [hj]))
    have e : ((i - 1 : ℕ) : K) = i - 1 := by rw [Nat.cast_sub hi]; simp
    rw [e] at a1 h1
    rw [Nat.add_zero] at a2
    -- so the distance is both that to zero from below and from above
    have h3 : h = δ / 2 := by linarith
    rcases Nat.lt_or_ge 1 i with hi1 | hi1
    · have a3 := hh 0 _ _ (key 0 (-S + ((0 : ℕ) : K) * δ) (by rw [List.getElem?_append_left (by simp; omega)]; simp [hi]))
        (key 1 (-S + ((1 : ℕ) : K) * δ) (by rw [List.getElem?_append_left (by simp; omega)]; simp [hi1]))
      push_cast at a3
      linarith
    · have : i = 1 := by omega
      subst this
      push_cast at h2
      linarith
  · rintro ⟨N, hN⟩
    have hk := even_points hδ hp hm hN
    refine ⟨δ, fun n k k' h1 h2 => ?_⟩
    have key : ∀ (n : ℕ) (k : K), l[n]? = some (.fin k) → k = -S + n * δ := fun n k h => by
      rw [hl, hk, List.getElem?_map, List.getElem?_map] at h
      by_cases hn : n < 2 * N + 1
      · rw [List.getElem?_range hn] at h
        simp only [Option.map_some, Option.some.injEq, XF.fin.injEq] at h
        exact h.symm
      · rw [List.getElem?_eq_none (by simp; omega)] at h
        cases h
    rw [key _ _ h1, key _ _ h2]
    push_cast
    ring

end points

section exact
variable {K : Type} [Field K] [LinearOrder K] [IsStrictOrderedRing K] [FloorRing K] {dm : K} {f32 ex : K → K}

/-- **C124** (exact arithmetic): the lags of a default call are evenly spaced if and only if the span is a multiple of the smallest gap. -/
theorem C124_even (a : AbsFn) (d : DS (Exact dm f32 ex)) (hd : Constructed d) (M : ℕ) (t : ℕ → K) (ht : d.timeseries = samples M t) (hM : 2 ≤ M)
    (hinc : Increasing M t) (hspan : t (M - 1) - t 0 ≤ dm) (δ : K) (hδ : IsMinGap M t δ) (α : Option (Exact dm f32 ex)) (sel wt : String)
    (r : AcResult (Exact dm f32 ex)) (hr : autocorrelation a d { alpha := α } sel wt = .ok r) : EvenlySpaced r.lags ↔ ∃ n : ℕ, t (M - 1) - t 0 = n * δ := by
  obtain ⟨ks, hks, hp, hm⟩ := default_points hd ht hM hinc hspan hδ hr
  exact evenly_iff hks (minGap_pos hinc hδ) (hδ.2 0 (M - 1) (by omega) (by omega)) hp hm

/-- **C124** (exact arithmetic): otherwise all neighbouring lags are one gap apart, but for the two neighbours of zero, `u` and `v`, between which it is inserted. -/
theorem C124_split (a : AbsFn) (d : DS (Exact dm f32 ex)) (hd : Constructed d) (M : ℕ) (t : ℕ → K) (ht : d.timeseries = samples M t) (hM : 2 ≤ M)
    (hinc : Increasing M t) (hspan : t (M - 1) - t 0 ≤ dm) (δ : K) (hδ : IsMinGap M t δ) (α : Option (Exact dm f32 ex)) (sel wt : String)
    (r : AcResult (Exact dm f32 ex)) (hr : autocorrelation a d { alpha := α } sel wt = .ok r) (hN : ¬ ∃ n : ℕ, t (M - 1) - t 0 = n * δ) :
    ∃ i j : ℕ, ∃ u v : K, u < 0 ∧ 0 < v ∧ v - u = δ ∧
      r.lags = (List.range (i + 1)).map (fun n : ℕ => .fin (u - ((i - n : ℕ) : K) * δ)) ++ .fin 0 :: (List.range (j + 1)).map (fun n : ℕ => .fin (v + n * δ)) := by
  obtain ⟨ks, hks, hp, hm⟩ := default_points hd ht hM hinc hspan hδ hr
  obtain ⟨i, j, hi, hj, h1, h2, rfl⟩ := split_points (minGap_pos hinc hδ) (hδ.2 0 (M - 1) (by omega) (by omega)) hp hm hN
  obtain ⟨i, rfl⟩ : ∃ i', i = i' + 1 := ⟨i - 1, by omega⟩
  obtain ⟨j, rfl⟩ : ∃ j', j = j' + 1 := ⟨j - 1, by omega⟩
  rw [Nat.add_sub_cancel] at h1
  refine ⟨i, j, _, _, h1, h2, by push_cast; ring, ?_⟩
  rw [hks, List.map_append, List.map_cons, List.map_map, List.map_map]
  congr 1
  · refine List.map_congr_left fun n hn => ?_
    have : n ≤ i := by have := List.mem_range.1 hn; omega
    simp only [Function.comp, Nat.cast_sub this]
    congr 1
    ring
  · congr 1
    refine List.map_congr_left fun n _ => ?_
    simp only [Function.comp]
    congr 1
    push_cast
    ring

end exact

/-- **C124 in binary64**, for time stamps that are multiples of a power of two. -/
theorem C124_binary64 {ex : ℚ → ℚ} {fu : Bool} {M : ℕ} {τ : ℕ → ℤ} {e : ℤ} {d : DS (D64 ex fu)} (ht : Times64 d M τ e) (hM : 2 ≤ M) (δ : ℤ)
    (hδ : IsMinGapZ M τ δ) (hB : τ (M - 1) - τ 0 ≤ 2 ^ 52) (hC : τ (M - 1) - τ 0 ≤ (2 ^ 30 - 2) * δ) (α : Option (D64 ex fu)) (wt : String)
    (hw : KnownWeight wt) :
    ∃ r, autocorrelation .fabs d { alpha := α } "natural" wt = .ok r ∧ (EvenlySpaced r.lags ↔ δ ∣ τ (M - 1) - τ 0) := by
  obtain ⟨r, hr, ks, hks, hp, h0, h1, hm⟩ := default_points64 ht hM hδ hB hC α hw
  refine ⟨r, hr, (evenly_iff hks h0 h1 hp hm).trans ?_⟩
  have hg := pow2_pos e
  have hδ0 : 0 < δ := by
    obtain ⟨i, j, hij, hj, he⟩ := hδ.1
    have := ht.inc i j hij hj
    omega
  have hT0 : 0 ≤ τ (M - 1) - τ 0 := hδ0.le.trans (hδ.2 0 (M - 1) (by omega) (by omega))
  generalize τ (M - 1) - τ 0 = T at *
  constructor
  · rintro ⟨n, hn⟩
    refine ⟨n, ?_⟩
    have : (T : ℚ) = ((δ * n : ℤ) : ℚ) := by
      apply mul_right_cancel₀ hg.ne'
      rw [hn]; push_cast; ring
    exact_mod_cast this
  · rintro ⟨n, hn⟩
    have hn0 : 0 ≤ n := by
      by_contra hneg
      have : δ * n < 0 := mul_neg_of_pos_of_neg hδ0 (not_le.1 hneg)
      omega
    refine ⟨n.toNat, ?_⟩
    have h3 : ((n.toNat : ℤ) : ℚ) = n := by rw [Int.toNat_of_nonneg hn0]
    have h4 : ((n.toNat : ℕ) : ℚ) = n := by exact_mod_cast h3
    rw [h4, hn]; push_cast; ring

/-- **C124**: not so for decimal times in binary64.  The times 0, 0.1, 0.2, 0.3, regular up to rounding: a lag of -5.6e-17 is next to 0. -/
theorem C124_decimal : ∃ (d : DS B) (r : AcResult B), mkFlat (b [0, 1/10, 2/10, 3/10]) (b [1, 2, 3, 4]) = .ok d ∧ autocorrelation .fabs d = .ok r ∧
    r.lags[3]? = some (.fin (-1 / 2 ^ 54)) ∧ r.lags[4]? = some (.fin 0) ∧ ¬ EvenlySpaced r.lags := by
  obtain ⟨d, hd, h⟩ := Res.bind_eq_ok.1 C46_witness
  obtain ⟨r, hr, h⟩ := Res.bind_eq_ok.1 h
  have h := Res.ok.inj h
  refine ⟨d, r, hd, hr, by rw [h]; rfl, by rw [h]; rfl, ?_⟩
  rw [h]
  rintro ⟨x, hx⟩
  have h1 := hx 3 _ _ rfl rfl
  have h2 := hx 4 _ _ rfl rfl
  norm_num at h1 h2
  rw [← h1] at h2
  norm_num at h2

end Sacf
