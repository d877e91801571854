import Verif.Props.LagCount
import Verif.Props.Binary
import Verif.Props.AnyLags
import Verif.Props.OrderNoticed

/-!
# Where the zero lag of a default call is (C122)
-/

set_option linter.unusedSectionVars false

namespace Sacf

section points
variable {K : Type} [Field K] [LinearOrder K] [IsStrictOrderedRing K] [FloorRing K]

/-- the points `-S + n δ` up to `S`, and zero, in increasing order: zero is in the middle -/
theorem middle_points {S δ : K} (hδ : 0 < δ) (hS : δ ≤ S) {ks : List K} (hp : ks.Pairwise (· < ·))
    (hm : ∀ k, k ∈ ks ↔ (∃ n : ℕ, k = -S + n * δ ∧ k ≤ S) ∨ (k = 0 ∧ ∃ n : ℕ, 0 < -S + n * δ ∧ -S + n * δ ≤ S)) :
    ks[ks.length / 2]? = some 0 ∧ (ks.length / 2 : ℕ) = ⌈S / δ⌉₊ := by
  classical
  have hlen := count_points hδ hS hp hm
  have hc1 : S / δ ≤ ⌈S / δ⌉₊ := Nat.le_ceil _
  have hc2 : (⌈S / δ⌉₊ : K) < S / δ + 1 := Nat.ceil_lt_add_one (div_nonneg (by linarith) hδ.le)
  generalize ⌈S / δ⌉₊ = c at *
  have hc1' : S ≤ c * δ := by rwa [div_le_iff₀ hδ] at hc1
  have hc2' : (c : K) * δ < S + δ := by
    have := mul_lt_mul_of_pos_right hc2 hδ
    rwa [add_mul, div_mul_cancel₀ _ hδ.ne', one_mul] at this
  have h0 : (0 : K) ∈ ks := by
    rw [hm]
    rcases hc1'.eq_or_lt with h | h
    · exact Or.inl ⟨c, by linarith, by linarith⟩
    · exact Or.inr ⟨rfl, c, by linarith, by linarith⟩
  obtain ⟨s, u, rfl⟩ := List.append_of_mem h0
  have hs : s.length = c := by
    have hnd : s.Nodup := ((List.pairwise_append.1 hp).1).imp fun h => h.ne
    rw [← List.toFinset_card_of_nodup hnd]
    have e : s.toFinset = (Finset.range c).image fun n : ℕ => -S + n * δ := by
      ext k
      rw [List.mem_toFinset, Finset.mem_image]
      constructor
      · intro hk
        have hk0 : k < 0 := (List.pairwise_append.1 hp).2.2 k hk 0 (by simp)
        rcases (hm k).1 (by simp [hk]) with ⟨n, rfl, _⟩ | ⟨rfl, _⟩
        · refine ⟨n, Finset.mem_range.2 ?_, rfl⟩
          have : (n : K) * δ < c * δ := by linarith
          exact_mod_cast lt_of_mul_lt_mul_right this hδ.le
        · exact absurd hk0 (lt_irrefl _)
      · rintro ⟨n, hn, rfl⟩
        have h1 : ((n : K) + 1) ≤ c := by exact_mod_cast Finset.mem_range.1 hn
        have h2 := mul_le_mul_of_nonneg_right h1 hδ.le
        have h3 : -S + n * δ < 0 := by linarith
        have h4 := (hm (-S + n * δ)).2 (Or.inl ⟨n, rfl, by linarith⟩)
        rcases List.mem_append.1 h4 with h | h
        · exact h
        · rcases List.mem_cons.1 h with h | h
          · exact absurd h h3.ne
          · have := (List.pairwise_cons.1 (List.pairwise_append.1 hp).2.1).1 _ h
            exact absurd this (not_lt.2 h3.le)
    rw [e, Finset.card_image_of_injective, Finset.card_range]
    intro n n' h
    have : (n : K) * δ = n' * δ := by simpa using h
    exact_mod_cast mul_right_cancel₀ hδ.ne' this
  have hmid : (s ++ 0 :: u).length / 2 = c := by
    have h1 := Int.floor_le (2 * S / δ)
    have h2 := Int.lt_floor_add_one (2 * S / δ)
    generalize ⌊2 * S / δ⌋ = q at *
    rw [le_div_iff₀ hδ] at h1
    rw [div_lt_iff₀ hδ] at h2
    split at hlen
    · rename_i hn
      obtain ⟨n, hn⟩ := hn
      have e1 : (n : K) = c := by
        have a1 : (n : K) * δ ≤ c * δ := by linarith
        have a2 : (c : K) * δ < (n + 1) * δ := by linarith
        have b1 : n ≤ c := by exact_mod_cast le_of_mul_le_mul_right a1 hδ
        have b2 : c < n + 1 := by exact_mod_cast lt_of_mul_lt_mul_right a2 hδ.le
        have : n = c := by omega
        rw [this]
      rw [hn, e1] at h1 h2
      have a1 : (q : K) * δ ≤ ((2 * c : ℤ) : K) * δ := by push_cast; linarith
      have a2 : ((2 * c : ℤ) : K) * δ < ((q + 1 : ℤ) : K) * δ := by push_cast; linarith
      have b1 : q ≤ 2 * c := by exact_mod_cast le_of_mul_le_mul_right a1 hδ
      have b2 : (2 * c : ℤ) < q + 1 := by exact_mod_cast lt_of_mul_lt_mul_right a2 hδ.le
      omega
    · rename_i hn
      have hlt : S < c * δ := lt_of_le_of_ne hc1' fun h => hn ⟨c, h⟩
      have a1 : (q : K) * δ < ((2 * c : ℤ) : K) * δ := by push_cast; linarith
      have a2 : ((2 * c - 2 : ℤ) : K) * δ < ((q + 1 : ℤ) : K) * δ := by push_cast; linarith
      have b1 : q < 2 * c := by exact_mod_cast lt_of_mul_lt_mul_right a1 hδ.le
      have b2 : (2 * c - 2 : ℤ) < q + 1 := by exact_mod_cast lt_of_mul_lt_mul_right a2 hδ.le
      omega
  refine ⟨?_, hmid⟩
  rw [hmid, ← hs]
  simp

/-- an increasing list with zero at the middle position: the negative elements are before it, the positive ones behind it -/
theorem halves_of_middle {R : Rnd K} {l : List (XF R)} {ks : List K} (hks : l = ks.map .fin) (hp : ks.Pairwise (· < ·)) (h0 : ks[ks.length / 2]? = some 0) :
    l[l.length / 2]? = some (.fin 0) ∧ ∀ n k, l[n]? = some (.fin k) → (k < 0 ↔ n < l.length / 2) ∧ (0 < k ↔ l.length / 2 < n) := by
  rw [hks, List.length_map]
  constructor
  · rw [List.getElem?_map, h0]; rfl
  · intro n k hn
    rw [List.getElem?_map] at hn
    obtain ⟨k', hk', e⟩ := Option.map_eq_some_iff.1 hn
    cases e
    obtain ⟨hz, hz'⟩ := List.getElem?_eq_some_iff.1 h0
    obtain ⟨hl, hl'⟩ := List.getElem?_eq_some_iff.1 hk'
    generalize ks.length / 2 = c at *
    have hlt : ∀ i j (hi : i < ks.length) (hj : j < ks.length), i < j → ks[i] < ks[j] := fun i j hi hj h => List.pairwise_iff_getElem.1 hp i j hi hj h
    rcases lt_trichotomy n c with h | h | h
    · have := hlt n c hl hz h
      rw [hz', hl'] at this
      exact ⟨⟨fun _ => h, fun _ => this⟩, ⟨fun h' => absurd (h'.trans this) (lt_irrefl _), fun h' => by omega⟩⟩
    · subst h
      have : k = 0 := hl'.symm.trans hz'
      subst this
      simp
    · have := hlt c n hz hl h
      rw [hz', hl'] at this
      exact ⟨⟨fun h' => absurd (h'.trans this) (lt_irrefl _), fun h' => by omega⟩, ⟨fun _ => h, fun _ => this⟩⟩

end points

section exact
variable {K : Type} [Field K] [LinearOrder K] [IsStrictOrderedRing K] [FloorRing K] {dm : K} {f32 ex : K → K}

/-- the lags of a default call as a list of numbers -/
theorem default_points {a : AbsFn} {d : DS (Exact dm f32 ex)} (hd : Constructed d) {M : ℕ} {t : ℕ → K} (ht : d.timeseries = samples M t) (hM : 2 ≤ M)
    (hinc : Increasing M t) (hspan : t (M - 1) - t 0 ≤ dm) {δ : K} (hδ : IsMinGap M t δ) {α : Option (Exact dm f32 ex)} {sel wt : String}
    {r : AcResult (Exact dm f32 ex)} (hr : autocorrelation a d { alpha := α } sel wt = .ok r) :
    ∃ ks : List K, r.lags = ks.map .fin ∧ ks.Pairwise (· < ·) ∧ ∀ k, k ∈ ks ↔ (∃ n : ℕ, k = -(t (M - 1) - t 0) + n * δ ∧ k ≤ t (M - 1) - t 0) ∨
      (k = 0 ∧ ∃ n : ℕ, 0 < -(t (M - 1) - t 0) + n * δ ∧ -(t (M - 1) - t 0) + n * δ ≤ t (M - 1) - t 0) := by
  obtain ⟨c0, hc0⟩ : ∃ c0, Corr.new d = .ok c0 := by
    cases hc : Corr.new d with
    | ok c => exact ⟨c, rfl⟩
    | _ => simp [autocorrelation, hc, Res.bind] at hr
  obtain ⟨h1, h2, _, δ', h3, h4⟩ := C15_defaults d hd M t ht hM hinc hspan c0 hc0
  obtain rfl := minGap_unique hδ h4
  obtain ⟨e1, e2, e3, _⟩ := C15_overrides a d hd _ sel wt r hr c0 hc0
  exact C17_grid a d hd _ sel wt r hr (-(t (M - 1) - t 0)) (t (M - 1) - t 0) δ (e2.trans h2) (e1.trans h1) (e3.trans h3) (minGap_pos hinc hδ)

/-- **C122** (exact arithmetic): the lags of a default call; the one at position `len(lags) // 2` is zero, the lags before it are negative and those behind it positive. -/
theorem C122_middle_partial (a : AbsFn) (d : DS (Exact dm f32 ex)) (hd : Constructed d) (M : ℕ) (t : ℕ → K) (ht : d.timeseries = samples M t) (hM : 2 ≤ M)
    (hinc : Increasing M t) (hspan : t (M - 1) - t 0 ≤ dm) (α : Option (Exact dm f32 ex)) (sel wt : String)
    (r : AcResult (Exact dm f32 ex)) (hr : autocorrelation a d { alpha := α } sel wt = .ok r) :
    r.lags[r.lags.length / 2]? = some (.fin 0) ∧
    ∀ n k, r.lags[n]? = some (.fin k) → (k < 0 ↔ n < r.lags.length / 2) ∧ (0 < k ↔ r.lags.length / 2 < n) := by
  obtain ⟨δ, hδ⟩ : ∃ δ, IsMinGap M t δ := by
    obtain ⟨c0, hc0⟩ : ∃ c0, Corr.new d = .ok c0 := by
      cases hc : Corr.new d with
      | ok c => exact ⟨c, rfl⟩
      | _ => simp [autocorrelation, hc, Res.bind] at hr
    obtain ⟨_, _, _, δ, _, h⟩ := C15_defaults d hd M t ht hM hinc hspan c0 hc0
    exact ⟨δ, h⟩
  obtain ⟨ks, hks, hp, hm⟩ := default_points hd ht hM hinc hspan hδ hr
  obtain ⟨h0, _⟩ := middle_points (minGap_pos hinc hδ) (hδ.2 0 (M - 1) (by omega) (by omega)) hp hm
  exact halves_of_middle hks hp h0

/-- **C122** (exact arithmetic): the lags of a default call are symmetric if and only if twice the span is a multiple of the smallest gap. -/
theorem C122_symmetric (a : AbsFn) (d : DS (Exact dm f32 ex)) (hd : Constructed d) (M : ℕ) (t : ℕ → K) (ht : d.timeseries = samples M t) (hM : 2 ≤ M)
    (hinc : Increasing M t) (hspan : t (M - 1) - t 0 ≤ dm) (δ : K) (hδ : IsMinGap M t δ) (α : Option (Exact dm f32 ex)) (sel wt : String)
    (r : AcResult (Exact dm f32 ex)) (hr : autocorrelation a d { alpha := α } sel wt = .ok r) :
    (∀ k, .fin k ∈ r.lags → .fin (-k) ∈ r.lags) ↔ ∃ n : ℕ, 2 * (t (M - 1) - t 0) = n * δ := by
  obtain ⟨ks, hks, hp, hm⟩ := default_points hd ht hM hinc hspan hδ hr
  have hS : δ ≤ t (M - 1) - t 0 := hδ.2 0 (M - 1) (by omega) (by omega)
  have hδ0 := minGap_pos hinc hδ
  generalize t (M - 1) - t 0 = S at *
  have hmem : ∀ k, (.fin k : Exact dm f32 ex) ∈ r.lags ↔ k ∈ ks := fun k => by
    rw [hks, List.mem_map]
    exact ⟨fun ⟨k', h, e⟩ => by cases e; exact h, fun h => ⟨k, h, rfl⟩⟩
  simp only [hmem]
  constructor
  · intro h
    have h1 := h (-S) ((hm _).2 (Or.inl ⟨0, by simp, by linarith⟩))
    rw [neg_neg] at h1
    rcases (hm S).1 h1 with ⟨n, e, _⟩ | ⟨e, _⟩
    · exact ⟨n, by linarith⟩
    · linarith
  · rintro ⟨N, hN⟩ k hk
    rcases (hm k).1 hk with ⟨n, rfl, hle⟩ | ⟨rfl, hn⟩
    · have h1 : (n : K) * δ ≤ N * δ := by linarith
      have h2 : n ≤ N := by exact_mod_cast le_of_mul_le_mul_right h1 hδ0
      refine (hm _).2 (Or.inl ⟨N - n, ?_, ?_⟩)
      · rw [Nat.cast_sub h2, sub_mul]; linarith
      · have : (0 : K) ≤ n * δ := by positivity
        linarith
    · rw [neg_zero]; exact hk

end exact

/-- **C122 is false of the code in binary64**: the times 0.3, 0.6, 2.4.  The grid passes zero at 1.1e-16, which is one of the sixteen lags beside 0 itself. -/
theorem C122_false : ((mkFlat (b [3/10, 6/10, 24/10]) (b [1, 2, 6])).bind fun d =>
    (autocorrelation .fabs d).bind fun r => .ok (r.lags.length, r.lags[r.lags.length / 2]?, r.lags[7]?)) = .ok (16, some (.fin (1 / 2 ^ 53)), some (.fin 0)) := by
  decide +kernel

/-- the lags of a default call in binary64 as a list of numbers, for time stamps that are multiples of a power of two -/
theorem default_points64 {ex : ℚ → ℚ} {fu : Bool} {M : ℕ} {τ : ℕ → ℤ} {e : ℤ} {d : DS (D64 ex fu)} (ht : Times64 d M τ e) (hM : 2 ≤ M) {δ : ℤ}
    (hδ : IsMinGapZ M τ δ) (hB : τ (M - 1) - τ 0 ≤ 2 ^ 52) (hC : τ (M - 1) - τ 0 ≤ (2 ^ 30 - 2) * δ) (α : Option (D64 ex fu)) {wt : String}
    (hw : KnownWeight wt) :
    ∃ r, autocorrelation .fabs d { alpha := α } "natural" wt = .ok r ∧ ∃ ks : List ℚ, r.lags = ks.map .fin ∧ ks.Pairwise (· < ·) ∧ 0 < (δ : ℚ) * pow2 e ∧
      (δ : ℚ) * pow2 e ≤ ((τ (M - 1) - τ 0 : ℤ) : ℚ) * pow2 e ∧ ∀ k, k ∈ ks ↔
        (∃ n : ℕ, k = -(((τ (M - 1) - τ 0 : ℤ) : ℚ) * pow2 e) + n * ((δ : ℚ) * pow2 e) ∧ k ≤ ((τ (M - 1) - τ 0 : ℤ) : ℚ) * pow2 e) ∨
        (k = 0 ∧ ∃ n : ℕ, 0 < -(((τ (M - 1) - τ 0 : ℤ) : ℚ) * pow2 e) + n * ((δ : ℚ) * pow2 e) ∧
          -(((τ (M - 1) - τ 0 : ℤ) : ℚ) * pow2 e) + n * ((δ : ℚ) * pow2 e) ≤ ((τ (M - 1) - τ 0 : ℤ) : ℚ) * pow2 e) := by
  have hu0 := exactUnit64 (ex := ex) (fu := fu) 0 (by norm_num) (by norm_num)
  obtain ⟨r, hr, ks, hks, hp, hm⟩ := C60_default_lags (exactUnit64 (ex := ex) (fu := fu) e ht.emin ht.emax) d ht.built M τ ht.times hM ht.inc δ hδ (by linarith)
    (2 ^ 31 - 4) (by linarith) (by norm_num) (fun n hn => by
      have := hu0.exact n (hn.trans (by norm_num))
      rwa [pow2_zero, mul_one] at this) α wt hw
  have hδ0 : 0 < δ := by
    obtain ⟨i, j, hij, hj, he⟩ := hδ.1
    have := ht.inc i j hij hj
    omega
  have hS : δ ≤ τ (M - 1) - τ 0 := hδ.2 0 (M - 1) (by omega) (by omega)
  have hg := pow2_pos e
  generalize τ (M - 1) - τ 0 = T at *
  refine ⟨r, hr, ks, hks, hp, mul_pos (by exact_mod_cast hδ0) hg, mul_le_mul_of_nonneg_right (by exact_mod_cast hS) hg.le, ?_⟩
  intro k
  have key : ∀ n : ℕ, ((-T + n * δ : ℤ) : ℚ) * pow2 e = -((T : ℚ) * pow2 e) + n * ((δ : ℚ) * pow2 e) := fun n => by push_cast; ring
  have key2 : ∀ n : ℕ, (-T + n * δ ≤ T ↔ ((-T + n * δ : ℤ) : ℚ) * pow2 e ≤ (T : ℚ) * pow2 e) := fun n => by
    rw [mul_le_mul_iff_left₀ hg]; norm_cast
  rw [hm]
  constructor
  · rintro (⟨n, h2, rfl⟩ | rfl)
    · exact Or.inl ⟨n, key n, (key2 n).1 h2⟩
    · refine Or.inr ⟨rfl, (2 * T / δ).toNat, ?_, ?_⟩
      · rw [← key]
        refine mul_pos ?_ hg
        have h2 := Int.lt_ediv_add_one_mul_self (2 * T) hδ0
        have h3 : ((2 * T / δ).toNat : ℤ) = 2 * T / δ := Int.toNat_of_nonneg (Int.ediv_nonneg (by omega) hδ0.le)
        have : (0 : ℤ) < -T + (2 * T / δ).toNat * δ := by rw [h3]; nlinarith
        exact_mod_cast this
      · rw [← key]
        refine (key2 _).1 ?_
        have h2 := Int.ediv_mul_le (2 * T) hδ0.ne'
        rw [Int.toNat_of_nonneg (Int.ediv_nonneg (by omega) hδ0.le)]
        linarith
  · rintro (⟨n, rfl, h2⟩ | ⟨rfl, _⟩)
    · exact Or.inl ⟨n, (key2 n).2 (by rw [key]; exact h2), (key n).symm⟩
    · exact Or.inr rfl

/-- **C122 in binary64**, for time stamps that are multiples of a power of two. -/
theorem C122_binary64_partial {ex : ℚ → ℚ} {fu : Bool} {M : ℕ} {τ : ℕ → ℤ} {e : ℤ} {d : DS (D64 ex fu)} (ht : Times64 d M τ e) (hM : 2 ≤ M) (δ : ℤ)
    (hδ : IsMinGapZ M τ δ) (hB : τ (M - 1) - τ 0 ≤ 2 ^ 52) (hC : τ (M - 1) - τ 0 ≤ (2 ^ 30 - 2) * δ) (α : Option (D64 ex fu)) (wt : String)
    (hw : KnownWeight wt) :
    ∃ r, autocorrelation .fabs d { alpha := α } "natural" wt = .ok r ∧ r.lags[r.lags.length / 2]? = some (.fin 0) ∧
      ∀ n k, r.lags[n]? = some (.fin k) → (k < 0 ↔ n < r.lags.length / 2) ∧ (0 < k ↔ r.lags.length / 2 < n) := by
  obtain ⟨r, hr, ks, hks, hp, h0, h1, hm⟩ := default_points64 ht hM hδ hB hC α hw
  exact ⟨r, hr, halves_of_middle hks hp (middle_points h0 h1 hp hm).1⟩

section near
variable {K : Type} [Field K] [LinearOrder K] [IsStrictOrderedRing K] [FloorRing K]

/-- an increasing list of `m` points near `-S + n δ`, the first beyond `S` missing, and zero: zero is at most one place beside the middle -/
theorem near_points {S δ q : K} (hδ : 0 < δ) (hS : δ ≤ S) (hS' : S ≤ 2 ^ 20 * δ) (hq0 : 0 ≤ q) (hq : 2 ^ 32 * q ≤ δ) {ks : List K} (hp : ks.Pairwise (· < ·)) {m : ℕ} {y : ℕ → K}
    (hlen : ks.length = m ∨ ks.length = m + 1) (hy : ∀ n < m, y n ∈ ks ∧ y n ≤ S + q ∧ |y n - (-S + n * δ)| ≤ (8 * n + 1) * q)
    (hmono : ∀ n n', n < n' → n' < m → y n < y n') (hm : ∀ k ∈ ks, k = 0 ∨ ∃ n < m, k = y n) (hend : S < -S + m * δ + (8 * m + 2) * q) (h0 : (0 : K) ∈ ks) :
    ∃ p, ks[p]? = some 0 ∧ p ≤ ks.length / 2 + 1 ∧ ks.length / 2 ≤ p + 1 := by
  classical
  have hm23 : (m : K) ≤ 2 ^ 23 := by
    rcases Nat.eq_zero_or_pos m with h | h
    · rw [h]; norm_num
    · obtain ⟨m', rfl⟩ : ∃ m', m = m' + 1 := ⟨m - 1, by omega⟩
      obtain ⟨_, h1, h2⟩ := hy m' (by omega)
      have h3 := (abs_le.1 h2).1
      have h4 : (m' : K) * (δ - 8 * q) ≤ 2 * S + 2 * q := by linarith
      have h5 : δ / 2 ≤ δ - 8 * q := by linarith
      have h6 : (m' : K) * (δ / 2) ≤ 2 ^ 22 * (δ / 2) + δ / 2 :=
        (mul_le_mul_of_nonneg_left h5 (Nat.cast_nonneg m')).trans (h4.trans (by linarith))
      have h7 : (m' : K) ≤ 2 ^ 22 + 1 := le_of_mul_le_mul_right (by linarith) (half_pos hδ)
      push_cast
      linarith
  have hε : (8 * (m : K) + 2) * q ≤ δ / 16 := by
    have : (8 * (m : K) + 2) * q ≤ 2 ^ 27 * q := mul_le_mul_of_nonneg_right (by linarith) hq0
    linarith
  have hq16 : q ≤ δ / 16 := by linarith
  have hdrift : ∀ n < m, |y n - (-S + n * δ)| ≤ δ / 16 := fun n hn => by
    refine (hy n hn).2.2.trans (le_trans (mul_le_mul_of_nonneg_right ?_ hq0) hε)
    have : (n : K) ≤ m := by exact_mod_cast hn.le
    linarith
  obtain ⟨s, u, rfl⟩ := List.append_of_mem h0
  have hnd : s.Nodup := ((List.pairwise_append.1 hp).1).imp fun h => h.ne
  have hinj : ∀ n < m, ∀ n' < m, y n = y n' → n = n' := fun n hn n' hn' h => by
    rcases lt_trichotomy n n' with h' | h' | h'
    · exact absurd h (hmono n n' h' hn').ne
    · exact h'
    · exact absurd h.symm (hmono n' n h' hn).ne
  have hsm : ∀ k, k ∈ s ↔ ∃ n < m, y n < 0 ∧ k = y n := by
    intro k
    constructor
    · intro hk
      have hk0 : k < 0 := (List.pairwise_append.1 hp).2.2 k hk 0 (by simp)
      rcases hm k (by simp [hk]) with rfl | ⟨n, hn, rfl⟩
      · exact absurd hk0 (lt_irrefl _)
      · exact ⟨n, hn, hk0, rfl⟩
    · rintro ⟨n, hn, h3, rfl⟩
      rcases List.mem_append.1 (hy n hn).1 with h | h
      · exact h
      · rcases List.mem_cons.1 h with h | h
        · exact absurd h h3.ne
        · have := (List.pairwise_cons.1 (List.pairwise_append.1 hp).2.1).1 _ h
          exact absurd this (not_lt.2 h3.le)
  have hcard : s.length = ((Finset.range m).filter fun n => y n < 0).card := by
    rw [← List.toFinset_card_of_nodup hnd]
    have e : s.toFinset = ((Finset.range m).filter fun n => y n < 0).image y := by
      ext k
      rw [List.mem_toFinset, hsm, Finset.mem_image]
      constructor
      · rintro ⟨n, hn, h3, rfl⟩
        exact ⟨n, Finset.mem_filter.2 ⟨Finset.mem_range.2 hn, h3⟩, rfl⟩
      · rintro ⟨n, hn, rfl⟩
        obtain ⟨h1, h2⟩ := Finset.mem_filter.1 hn
        exact ⟨n, Finset.mem_range.1 h1, h2, rfl⟩
    rw [e, Finset.card_image_of_injOn]
    intro n hn n' hn' h
    exact hinj n (Finset.mem_range.1 (Finset.mem_filter.1 hn).1) n' (Finset.mem_range.1 (Finset.mem_filter.1 hn').1) h
  -- every point well before `S / δ` is negative, none well behind it
  have hup : (s.length : K) * δ < S + δ + δ / 16 := by
    rw [hcard]
    by_contra hcon
    have hcon := not_lt.1 hcon
    generalize hc : ((Finset.range m).filter fun n => y n < 0).card = c at hcon
    have hsub : ((Finset.range m).filter fun n => y n < 0) ⊆ Finset.range (c - 1) := by
      intro n hn
      obtain ⟨h1, h2⟩ := Finset.mem_filter.1 hn
      rw [Finset.mem_range] at h1 ⊢
      by_contra hge
      have h3 : (c : K) ≤ n + 1 := by exact_mod_cast (show c ≤ n + 1 by omega)
      have h4 := mul_le_mul_of_nonneg_right h3 hδ.le
      have h5 := (abs_le.1 (hdrift n h1)).1
      linarith
    have h1 := Finset.card_le_card hsub
    rw [hc, Finset.card_range] at h1
    have h2 : c = 0 := by omega
    rw [h2] at hcon
    simp only [Nat.cast_zero, zero_mul] at hcon
    linarith
  have hlow : S - δ / 16 ≤ s.length * δ := by
    rw [hcard]
    by_contra hcon
    have hcon := not_le.1 hcon
    generalize hc : ((Finset.range m).filter fun n => y n < 0).card = c at hcon
    have hcm : c < m := by
      by_contra hge
      have h1 : (m : K) ≤ c := by exact_mod_cast not_lt.1 hge
      have h2 := mul_le_mul_of_nonneg_right h1 hδ.le
      linarith
    have hsub : Finset.range (c + 1) ⊆ ((Finset.range m).filter fun n => y n < 0) := by
      intro n hn
      rw [Finset.mem_range] at hn
      refine Finset.mem_filter.2 ⟨Finset.mem_range.2 (by omega), ?_⟩
      have h3 : (n : K) ≤ c := by exact_mod_cast (show n ≤ c by omega)
      have h4 := mul_le_mul_of_nonneg_right h3 hδ.le
      have h5 := (abs_le.1 (hdrift n (by omega))).2
      linarith
    have h1 := Finset.card_le_card hsub
    rw [hc, Finset.card_range] at h1
    omega
  have hmpos : 0 < m := by
    rcases Nat.eq_zero_or_pos m with h | h
    · rw [h] at hend hε
      simp only [Nat.cast_zero, zero_mul] at hend hε
      linarith
    · exact h
  have hmu : (m : K) * δ ≤ 2 * S + δ + δ / 8 := by
    obtain ⟨m', rfl⟩ : ∃ m', m = m' + 1 := ⟨m - 1, by omega⟩
    obtain ⟨_, h1, _⟩ := hy m' (by omega)
    have h2 := (abs_le.1 (hdrift m' (by omega))).1
    push_cast
    linarith
  have b1 : 2 * s.length ≤ m + 2 := by
    have : ((2 * s.length : ℕ) : K) * δ < ((m + 3 : ℕ) : K) * δ := by push_cast; linarith
    have : 2 * s.length < m + 3 := by exact_mod_cast lt_of_mul_lt_mul_right this hδ.le
    omega
  have b2 : m ≤ 2 * s.length + 1 := by
    have : (m : K) * δ < ((2 * s.length + 2 : ℕ) : K) * δ := by push_cast; linarith
    have : m < 2 * s.length + 2 := by exact_mod_cast lt_of_mul_lt_mul_right this hδ.le
    omega
  refine ⟨s.length, by simp, ?_, ?_⟩ <;> omega

/-- the lags of a default call that returns any are strictly increasing -/
theorem default_increasing {R : Rnd K} {a : AbsFn} {d : DS (XF R)} (hd : Constructed d) {M : ℕ} {t : ℕ → K} (ht : d.timeseries = samples M t) {α : Option (XF R)}
    {sel wt : String} {r : AcResult (XF R)} (hr : autocorrelation a d { alpha := α } sel wt = .ok r) (hne : r.lags ≠ []) :
    r.lags.Pairwise fun x y => Arith.lt x y = true := by
  obtain ⟨hM, hnt⟩ := normT_rounded hd ht
  obtain ⟨c, hc⟩ : ∃ c, Corr.new d = .ok c := by
    unfold autocorrelation at hr
    obtain ⟨c, hc, _⟩ := Res.bind_eq_ok.1 hr
    exact ⟨c, hc⟩
  have hov := C15_overrides a d hd _ sel wt r hr c hc
  obtain ⟨n, hs, rfl, _⟩ := corrNew_good hd.wf hc
  have hlast : lastD d.normT = XF.round (t (M - 1) - t 0) := by rw [hnt, lastD_rounded hM]
  obtain ⟨⟨T, hT⟩, _⟩ := lagSlots_ok (R := R) hs
  have hle := (first_lag_due hd.wf hr).1 hne
  rw [hov.1, hov.2.1] at hle
  have hdbl : (Arith.neg (lastD d.normT)).IsDouble := by
    rw [hT]
    have h := round_fixed (hlast.symm.trans hT)
    show (XF.round (-T) : XF R) = .fin (-T)
    rw [round_neg, h]
    rfl
  have hpos : Arith.lt (.fin 0) (findMinDiff d.normT) = true := by
    have h1 : Arith.le (findMinDiff d.normT) (.fin 0) = false := by
      cases hcase : Arith.le (findMinDiff d.normT) (.fin 0 : XF R) with
      | false => rfl
      | true =>
        refine absurd hr (C45_never_returns a d hd { alpha := α } sel wt _ hc hdbl ?_ hcase hle r)
        show Arith.neg (lastD d.normT) ≠ _
        rw [hT]
        exact fun h => by cases h
    have h2 := findMinDiff_ne_nan d.normT
    revert h1 h2
    cases findMinDiff d.normT with
    | nan => intro _ h; exact absurd rfl h
    | ninf => intro h; exact absurd h.symm Bool.false_ne_true
    | pinf => intros; rfl
    | fin x => intro h _; exact decide_eq_true (not_le.1 (of_decide_eq_false h))
  refine (C17_rounded a d hd _ sel wt r hr ?_ ?_ ?_).1
  · rw [hov.2.1]; exact hdbl
  · rw [hov.2.1]
    show Arith.lt .ninf (Arith.neg (lastD d.normT)) = true
    rw [hT]; rfl
  · rw [hov.2.2.1]; exact hpos

end near

/-- **C122 in binary64**, for arbitrary increasing time stamps whose span is at most `2^20` times the smallest gap: the zero lag is at most one place beside the middle. -/
theorem C122_near_partial {ex : ℚ → ℚ} {fu : Bool} (a : AbsFn) (d : DS (D64 ex fu)) (hd : Constructed d) (M : ℕ) (t : ℕ → ℚ)
    (ht : d.timeseries = samples M t) (hM : 2 ≤ M) (hinc : Increasing M t) (δ : ℚ) (hδ : IsMinGap M t δ) (hT : t (M - 1) - t 0 ≤ pow2 1000)
    (hratio : t (M - 1) - t 0 ≤ 2 ^ 20 * δ) (hsmall : pow2 (-1000) ≤ δ) (α : Option (D64 ex fu)) (sel wt : String) (r : AcResult (D64 ex fu))
    (hr : autocorrelation a d { alpha := α } sel wt = .ok r) :
    ∃ p, r.lags[p]? = some (.fin 0) ∧ p ≤ r.lags.length / 2 + 1 ∧ r.lags.length / 2 ≤ p + 1 := by
  have hδ0 := minGap_pos hinc hδ
  have hS : δ ≤ t (M - 1) - t 0 := hδ.2 0 (M - 1) (by omega) (by omega)
  have hη : 2 ^ 33 * pow2 (-1075) ≤ pow2 (-1000) := by
    have : (2 : ℚ) ^ 33 = pow2 33 := by decide +kernel
    rw [this, ← pow2_add]
    exact pow2_mono (by norm_num)
  have hq : 2 ^ 32 * (pow2 (-53) * (t (M - 1) - t 0) + pow2 (-1075)) ≤ δ := by
    have e : pow2 (-53) * 2 ^ 53 = 1 := by decide +kernel
    have h1 := mul_le_mul_of_nonneg_left hratio (pow2_pos (-53)).le
    have h2 : pow2 (-53) * (2 ^ 20 * δ) * 2 ^ 33 = δ := by
      calc pow2 (-53) * (2 ^ 20 * δ) * 2 ^ 33 = pow2 (-53) * 2 ^ 53 * δ := by ring
        _ = δ := by rw [e, one_mul]
    linarith
  have hq0 : 0 ≤ pow2 (-53) * (t (M - 1) - t 0) + pow2 (-1075) :=
    add_nonneg (mul_nonneg (pow2_pos _).le (by linarith)) (pow2_pos _).le
  obtain ⟨m, y, h1, h2, h3, h4, h5⟩ := C71_binary64 a d hd M t ht hinc δ hδ hT (by linarith) α sel wt r hr
  obtain ⟨hc0, _⟩ := C18_default_rounded_partial (R := Rnd.binary64 ex fu) (by show (0 : ℚ) ≤ Sacf.big; decide +kernel) a d hd M t ht hM
    (fun i j hij hj => hinc.le hij hj) α sel wt r hr
  have h0 : (.fin 0 : D64 ex fu) ∈ r.lags := List.count_pos_iff.1 (by rw [hc0]; norm_num)
  have hp := default_increasing hd ht hr (List.ne_nil_of_mem h0)
  obtain ⟨ks, hks⟩ : ∃ ks : List ℚ, r.lags = ks.map .fin := by
    have : ∀ l : List (D64 ex fu), (∀ x ∈ l, ∃ k, x = .fin k) → ∃ ks : List ℚ, l = ks.map .fin := by
      intro l
      induction l with
      | nil => exact fun _ => ⟨[], rfl⟩
      | cons x l ih =>
        intro h
        obtain ⟨k, rfl⟩ := h x (by simp)
        obtain ⟨ks, rfl⟩ := ih fun z hz => h z (by simp [hz])
        exact ⟨k :: ks, rfl⟩
    refine this _ fun x hx => ?_
    rcases h4 x hx with h | ⟨n, _, h⟩
    · exact ⟨_, h⟩
    · exact ⟨_, h⟩
  have hmem : ∀ k, (.fin k : D64 ex fu) ∈ r.lags ↔ k ∈ ks := fun k => by
    rw [hks, List.mem_map]
    exact ⟨fun ⟨k', h, e⟩ => by cases e; exact h, fun h => ⟨k, h, rfl⟩⟩
  have hp' : ks.Pairwise (· < ·) := by
    rw [hks, List.pairwise_map] at hp
    exact hp.imp fun h => of_decide_eq_true h
  rw [hks, List.length_map] at h1
  obtain ⟨p, hp0, hp1, hp2⟩ := near_points hδ0 hS hratio hq0 hq hp' h1 (fun n hn => ⟨(hmem _).1 (h2 n hn).1, (h2 n hn).2⟩) h3
    (fun k hk => by
      rcases h4 (.fin k) ((hmem k).2 hk) with h | ⟨n, hn, h⟩
      · cases h; exact Or.inl rfl
      · cases h; exact Or.inr ⟨n, hn, rfl⟩) h5 ((hmem 0).1 h0)
  refine ⟨p, ?_, ?_, ?_⟩
  · rw [hks, List.getElem?_map, hp0]; rfl
  · rw [hks, List.length_map]; exact hp1
  · rw [hks, List.length_map]; exact hp2

end Sacf
