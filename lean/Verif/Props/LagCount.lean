import Verif.Props.Cost
import Verif.Props.LagGrid
import Verif.Props.Stats
import Verif.Props.Units
import Verif.Spec.Error64
import Mathlib.Tactic.FieldSimp
import Mathlib.Tactic.Linarith

/-!
# Number of lags of a default call (C117)
-/

set_option linter.unusedSectionVars false

namespace Sacf

open Arith

variable {K : Type} [Field K] [LinearOrder K] [IsStrictOrderedRing K] [FloorRing K] {dm : K} {f32 : K → K} {ex : K → K}

/-- `k` in a strictly increasing list that has exactly the points `-S, -S + δ, …` up to `S`, and 0 -/
theorem count_points {S δ : K} (hδ : 0 < δ) (hS : δ ≤ S) {ks : List K} (hp : ks.Pairwise (· < ·))
    (hm : ∀ k, k ∈ ks ↔ (∃ n : ℕ, k = -S + n * δ ∧ k ≤ S) ∨ (k = 0 ∧ ∃ n : ℕ, 0 < -S + n * δ ∧ -S + n * δ ≤ S)) [Decidable (∃ n : ℕ, S = n * δ)] :
    (ks.length : ℤ) = ⌊2 * S / δ⌋ + 1 + (if ∃ n : ℕ, S = n * δ then 0 else 1) := by
  have hq0 : 0 ≤ ⌊2 * S / δ⌋ := Int.floor_nonneg.2 (div_nonneg (by linarith) hδ.le)
  obtain ⟨q, hq⟩ := Int.eq_ofNat_of_zero_le hq0
  have hq1 : (q : K) ≤ 2 * S / δ := by
    have := Int.floor_le (2 * S / δ)
    rw [hq] at this; exact_mod_cast this
  have hq2 : 2 * S / δ < q + 1 := by
    have := Int.lt_floor_add_one (2 * S / δ)
    rw [hq] at this; exact_mod_cast this
  rw [le_div_iff₀ hδ] at hq1
  rw [div_lt_iff₀ hδ] at hq2
  let G : List K := (List.range (q + 1)).map fun n : ℕ => -S + n * δ
  have hG : ∀ k, k ∈ G ↔ ∃ n : ℕ, k = -S + n * δ ∧ k ≤ S := by
    intro k
    simp only [G, List.mem_map, List.mem_range]
    constructor
    · rintro ⟨n, hn, rfl⟩
      refine ⟨n, rfl, ?_⟩
      have : (n : K) ≤ q := by exact_mod_cast Nat.lt_succ_iff.1 hn
      nlinarith
    · rintro ⟨n, rfl, hk⟩
      refine ⟨n, ?_, rfl⟩
      by_contra hn
      have : (q : K) + 1 ≤ n := by exact_mod_cast not_lt.1 hn
      nlinarith
  have hGn : G.Nodup := by
    refine List.Nodup.map ?_ List.nodup_range
    intro a b hab
    have : (a : K) * δ = b * δ := by simpa using hab
    exact_mod_cast mul_right_cancel₀ hδ.ne' this
  have hGl : G.length = q + 1 := by simp [G]
  have hks : ks.Nodup := hp.imp fun h => h.ne
  have hpos : ∃ n : ℕ, 0 < -S + n * δ ∧ -S + n * δ ≤ S := ⟨q, by linarith, by linarith⟩
  have hz : (0 : K) ∈ G ↔ ∃ n : ℕ, S = n * δ := by
    rw [hG]
    constructor
    · rintro ⟨n, hn, _⟩; exact ⟨n, by linarith⟩
    · rintro ⟨n, hn⟩; exact ⟨n, by linarith, by linarith⟩
  rw [hq]
  split
  · rename_i h
    have : ks.Perm G := (List.perm_ext_iff_of_nodup hks hGn).2 fun k => by
      rw [hm, hG]
      constructor
      · rintro (h1 | ⟨rfl, _⟩)
        · exact h1
        · exact (hG 0).1 (hz.2 h)
      · exact Or.inl
    rw [this.length_eq, hGl]; push_cast; ring
  · rename_i h
    have : ks.Perm (0 :: G) := (List.perm_ext_iff_of_nodup hks (List.nodup_cons.2 ⟨fun h0 => h (hz.1 h0), hGn⟩)).2 fun k => by
      rw [hm, List.mem_cons, hG]
      constructor
      · rintro (h1 | ⟨rfl, _⟩)
        · exact Or.inr h1
        · exact Or.inl rfl
      · rintro (rfl | h1)
        · exact Or.inr ⟨rfl, hpos⟩
        · exact Or.inl h1
    rw [this.length_eq, List.length_cons, hGl]; push_cast; ring

theorem gap_sum {M : ℕ} {t : ℕ → K} {δ : K} (h : IsMinGap M t δ) {i j : ℕ} (hij : i ≤ j) (hj : j < M) : ((j - i : ℕ) : K) * δ ≤ t j - t i := by
  induction j with
  | zero =>
    obtain rfl : i = 0 := by omega
    simp
  | succ j ih =>
    rcases Nat.lt_or_ge i (j + 1) with h1 | h1
    · have h2 := ih (by omega) (by omega)
      have h3 := h.2 j (j + 1) (by omega) hj
      have : ((j + 1 - i : ℕ) : K) = ((j - i : ℕ) : K) + 1 := by
        rw [show j + 1 - i = (j - i) + 1 by omega]; push_cast; ring
      rw [this]; linarith
    · obtain rfl : i = j + 1 := by omega
      simp

theorem minGap_pos {M : ℕ} {t : ℕ → K} {δ : K} (hinc : Increasing M t) (h : IsMinGap M t δ) : 0 < δ := by
  obtain ⟨i, j, hij, hj, e⟩ := h.1
  have := hinc i j hij hj
  linarith

theorem minGap_unique {M : ℕ} {t : ℕ → K} {δ δ' : K} (h : IsMinGap M t δ) (h' : IsMinGap M t δ') : δ = δ' := by
  obtain ⟨i, j, hij, hj, e⟩ := h.1
  obtain ⟨i', j', hij', hj', e'⟩ := h'.1
  refine le_antisymm ?_ ?_
  · rw [← e']; exact h.2 i' j' hij' hj'
  · rw [← e]; exact h'.2 i j hij hj

/-- **C117**: the number of lags of a call with the default lags, for any weights and selection: with time span `S` and smallest gap `δ`, one more than the
whole part of `2S/δ`, and another one, the lag 0, unless `S` is a multiple of `δ`. -/
theorem C117_count (a : AbsFn) (d : DS (Exact dm f32 ex)) (hd : Constructed d) (M : ℕ) (t : ℕ → K) (ht : d.timeseries = samples M t) (hM : 2 ≤ M)
    (hinc : Increasing M t) (hspan : t (M - 1) - t 0 ≤ dm) (δ : K) (hδ : IsMinGap M t δ) (α : Option (Exact dm f32 ex)) (sel wt : String)
    (r : AcResult (Exact dm f32 ex)) (hr : autocorrelation a d { alpha := α } sel wt = .ok r) [Decidable (∃ n : ℕ, t (M - 1) - t 0 = n * δ)] :
    (r.lags.length : ℤ) = ⌊2 * (t (M - 1) - t 0) / δ⌋ + 1 + (if ∃ n : ℕ, t (M - 1) - t 0 = n * δ then 0 else 1) := by
  obtain ⟨c0, hc0⟩ : ∃ c0, Corr.new d = .ok c0 := by
    cases hc : Corr.new d with
    | ok c => exact ⟨c, rfl⟩
    | _ => simp [autocorrelation, hc, Res.bind] at hr
  obtain ⟨h1, h2, _, δ', h3, h4⟩ := C15_defaults d hd M t ht hM hinc hspan c0 hc0
  obtain rfl := minGap_unique hδ h4
  obtain ⟨e1, e2, e3, _⟩ := C15_overrides a d hd _ sel wt r hr c0 hc0
  have hpos := minGap_pos hinc hδ
  obtain ⟨ks, hks, hp, hm⟩ := C17_grid a d hd _ sel wt r hr (-(t (M - 1) - t 0)) (t (M - 1) - t 0) δ (e2.trans h2) (e1.trans h1) (e3.trans h3) hpos
  have hS : δ ≤ t (M - 1) - t 0 := hδ.2 0 (M - 1) (by omega) (by omega)
  rw [hks, List.length_map]
  exact count_points hpos hS hp hm

/-- **C117**: a default call gives at least `2M - 1` lags for `M` samples, and exactly so many only for regular sampling. -/
theorem C117_regular (a : AbsFn) (d : DS (Exact dm f32 ex)) (hd : Constructed d) (M : ℕ) (t : ℕ → K) (ht : d.timeseries = samples M t) (hM : 2 ≤ M)
    (hinc : Increasing M t) (hspan : t (M - 1) - t 0 ≤ dm) (α : Option (Exact dm f32 ex)) (sel wt : String)
    (r : AcResult (Exact dm f32 ex)) (hr : autocorrelation a d { alpha := α } sel wt = .ok r) :
    2 * M - 1 ≤ r.lags.length ∧ (r.lags.length = 2 * M - 1 ↔ ∃ δ, ∀ i < M, t i = t 0 + i * δ) := by
  classical
  obtain ⟨c0, hc0⟩ : ∃ c0, Corr.new d = .ok c0 := by
    cases hc : Corr.new d with
    | ok c => exact ⟨c, rfl⟩
    | _ => simp [autocorrelation, hc, Res.bind] at hr
  obtain ⟨_, _, _, δ, _, hδ⟩ := C15_defaults d hd M t ht hM hinc hspan c0 hc0
  have hcount := C117_count a d hd M t ht hM hinc hspan δ hδ α sel wt r hr
  have hpos := minGap_pos hinc hδ
  have hS := gap_sum hδ (Nat.zero_le (M - 1)) (by omega)
  rw [Nat.sub_zero] at hS
  have hfl : (2 * (M - 1 : ℕ) : ℤ) ≤ ⌊2 * (t (M - 1) - t 0) / δ⌋ := by
    rw [Int.le_floor, le_div_iff₀ hpos]
    push_cast
    nlinarith
  have hite : (0 : ℤ) ≤ (if ∃ n : ℕ, t (M - 1) - t 0 = n * δ then 0 else 1) := by split <;> norm_num
  refine ⟨by omega, ?_, ?_⟩
  · intro hl
    split at hcount
    · rename_i h
      obtain ⟨n, hn⟩ := h
      have e : 2 * (t (M - 1) - t 0) / δ = ((2 * n : ℤ) : K) := by
        rw [hn]; field_simp; push_cast; ring
      rw [e, Int.floor_intCast] at hcount
      obtain rfl : n = M - 1 := by omega
      refine ⟨δ, fun i hi => ?_⟩
      have h1 := gap_sum hδ (Nat.zero_le i) hi
      have h2 := gap_sum hδ (show i ≤ M - 1 by omega) (by omega)
      have h3 : ((M - 1 - i : ℕ) : K) = ((M - 1 : ℕ) : K) - i := by rw [Nat.cast_sub (by omega)]
      rw [h3] at h2
      rw [Nat.sub_zero] at h1
      nlinarith
    · omega
  · rintro ⟨η, hη⟩
    have hgap : IsMinGap M t η := by
      have h1 := hη 1 (by omega)
      have hp : 0 < η := by
        have := hinc 0 1 (by omega) (by omega)
        rw [h1] at this; push_cast at this; linarith
      refine ⟨⟨0, 1, by omega, by omega, by rw [h1]; push_cast; ring⟩, fun i j hij hj => ?_⟩
      rw [hη i (by omega), hη j hj]
      have : (i : K) + 1 ≤ j := by exact_mod_cast hij
      nlinarith
    obtain rfl := minGap_unique hδ hgap
    have e0 : t (M - 1) - t 0 = ((M - 1 : ℕ) : K) * δ := by rw [hη (M - 1) (by omega)]; ring
    have e : 2 * (t (M - 1) - t 0) / δ = ((2 * (M - 1 : ℕ) : ℤ) : K) := by
      rw [e0]; field_simp; push_cast; ring
    rw [e, Int.floor_intCast, if_pos ⟨M - 1, e0⟩] at hcount
    omega

/-- every lag takes a step -/
theorem autocorrelationT_ge {F : Type} [Arith F] {a : AbsFn} {d : DS F} {g : LagArgs F} {r : AcResult F} {m : ℕ} (h : autocorrelationT a d g = .ok (r, m)) :
    r.lags.length ≤ m := by
  unfold autocorrelationT at h
  obtain ⟨c0, n0, m0, h0, hA, q0⟩ := Tick.bind_ok h
  obtain ⟨c, n1, m1, h1, hB, q1⟩ := Tick.bind_ok hA
  obtain ⟨lags, n2, m2, h2, hC, q2⟩ := Tick.bind_ok hB
  obtain ⟨_, n3, m3, h3, hD, q3⟩ := Tick.bind_ok hC
  obtain ⟨_, n4, m4, h4, hE, q4⟩ := Tick.bind_ok hD
  obtain ⟨_, n5, m5, h5, hG, q5⟩ := Tick.bind_ok hE
  obtain ⟨h6, p6⟩ := Tick.cost_ok hG
  obtain ⟨h2, p2⟩ := Tick.cost_ok h2
  cases h2
  cases h6
  show c.tsBuf.length ≤ m
  omega

/-- **C117**: no number of samples bounds the number of lags or the work: three samples at the times 0, 1, `n` give `2n + 1` lags, each of which takes a step,
up to the range of `int`. -/
theorem C117_unbounded (n : ℕ) (hn : 2 ≤ n) (hmax : n < 2 ^ 30 - 2) (hdm : (n : K) ≤ dm) (x : List (Exact dm f32 ex)) (hx : x.length = 3) :
    ∃ (d : DS (Exact dm f32 ex)) (r : AcResult (Exact dm f32 ex)), mkFlat [.fin 0, .fin 1, .fin n] x = .ok d ∧ autocorrelation .fabs d = .ok r ∧
      r.lags.length = 2 * n + 1 ∧ ∃ m, autocorrelationT .fabs d {} = .ok (r, m) ∧ 2 * n + 1 ≤ m := by
  classical
  let t : ℕ → K := fun i => if i = 0 then 0 else if i = 1 then 1 else n
  have hn' : (2 : K) ≤ n := by exact_mod_cast hn
  obtain ⟨d, hd, hb⟩ := setUp_ok (F := Exact dm f32 ex) (t := [.fin 0, .fin 1, .fin n]) (data := x) (err := []) (N := 1) (by simp)
    (by intro h; simp [h] at hx) (by simp [hx]) (by simp [hx])
  have hd' : mkFlat [.fin 0, .fin 1, .fin (n : K)] x = .ok d := hd
  have hc : Constructed d := .flat hd'
  have ht : d.timeseries = samples 3 t := hb.ht
  have hinc : Increasing 3 t := by
    intro i j hij hj
    have : (i = 0 ∧ j = 1) ∨ (i = 0 ∧ j = 2) ∨ (i = 1 ∧ j = 2) := by omega
    rcases this with ⟨rfl, rfl⟩ | ⟨rfl, rfl⟩ | ⟨rfl, rfl⟩ <;> simp [t] <;> linarith
  have hδ : IsMinGap 3 t 1 := by
    refine ⟨⟨0, 1, by omega, by omega, by simp [t]⟩, ?_⟩
    intro i j hij hj
    have : (i = 0 ∧ j = 1) ∨ (i = 0 ∧ j = 2) ∨ (i = 1 ∧ j = 2) := by omega
    rcases this with ⟨rfl, rfl⟩ | ⟨rfl, rfl⟩ | ⟨rfl, rfl⟩ <;> simp [t] <;> linarith
  have hS : t (3 - 1) - t 0 = n := by simp [t]
  have hfl : ⌊2 * (t (3 - 1) - t 0) / 1⌋ = 2 * n := by
    rw [hS, div_one, show (2 : K) * n = ((2 * n : ℤ) : K) by push_cast; ring, Int.floor_intCast]
  obtain ⟨r, hr⟩ | ⟨h, _⟩ := C21_default_range_partial d hc 3 t ht (by norm_num) hinc (by rw [hS]; exact hdm) 1 hδ (by rw [hfl]; omega) {} "fractional"
    (by simp [KnownWeight]) (by simp) (by simp) (by simp)
  · have hl : r.lags.length = 2 * n + 1 := by
      have := C117_count .fabs d hc 3 t ht (by norm_num) hinc (by rw [hS]; exact hdm) 1 hδ none "natural" "fractional" r hr
      rw [hfl, if_pos ⟨n, by rw [hS]; ring⟩] at this
      omega
    obtain ⟨_, m, _, hm, _⟩ := C110_autocorrelation .fabs d hc {} r hr
    exact ⟨d, r, hd', hr, hl, m, hm, hl ▸ autocorrelationT_ge hm⟩
  · exact absurd rfl h

theorem floor_div_int {T δ : ℤ} (hδ : 0 < δ) {g : K} (hg : 0 < g) : ⌊2 * ((T : K) * g) / ((δ : K) * g)⌋ = 2 * T / δ := by
  have hd : (0 : K) < δ := by exact_mod_cast hδ
  have : 2 * ((T : K) * g) / ((δ : K) * g) = ((2 * T : ℤ) : K) / (δ : K) := by
    push_cast; field_simp
  rw [this, Int.floor_eq_iff, le_div_iff₀ hd, div_lt_iff₀ hd]
  have h1 := Int.ediv_mul_le (2 * T) hδ.ne'
  have h2 := Int.lt_ediv_add_one_mul_self (2 * T) hδ
  exact ⟨by exact_mod_cast h1, by exact_mod_cast h2⟩

/-- **C117** (any rounding in which the multiples of the unit `g` are exact): the same count for increasing time stamps that are multiples of `g`. -/
theorem C117_ticks {R : Rnd K} {g : K} {B : ℤ} (h : ExactUnit R g B) (d : DS (XF R)) (hd : Constructed d) (M : ℕ) (τ : ℕ → ℤ)
    (ht : d.timeseries = samples M fun i => (τ i : K) * g) (hM : 2 ≤ M) (hinc : IncreasingZ M τ) (δ : ℤ)
    (hδ : IsMinGapZ M τ δ) (hB : 2 * (τ (M - 1) - τ 0) ≤ B) (C : ℤ) (hC : 2 * (τ (M - 1) - τ 0) ≤ C * δ)
    (hC31 : C + 3 < 2 ^ 31) (h1 : ∀ n : ℤ, |n| ≤ C → (XF.round (n : K) : XF R) = .fin n) (α : Option (XF R)) (wt : String)
    (hw : KnownWeight wt) :
    ∃ r, autocorrelation .fabs d { alpha := α } "natural" wt = .ok r ∧
      (r.lags.length : ℤ) = 2 * (τ (M - 1) - τ 0) / δ + 1 + (if δ ∣ τ (M - 1) - τ 0 then 0 else 1) := by
  classical
  obtain ⟨r, hr, ks, hks, hp, hm⟩ := C60_default_lags h d hd M τ ht hM hinc δ hδ hB C hC hC31 h1 α wt hw
  refine ⟨r, hr, ?_⟩
  have hδ0 : 0 < δ := by
    obtain ⟨i, j, hij, hj, he⟩ := hδ.1
    have := hinc i j hij hj
    omega
  have hS : δ ≤ τ (M - 1) - τ 0 := hδ.2 0 (M - 1) (by omega) (by omega)
  have hg := h.pos
  generalize τ (M - 1) - τ 0 = T at *
  have hc := count_points (S := (T : K) * g) (δ := (δ : K) * g) (mul_pos (by exact_mod_cast hδ0) hg)
    (mul_le_mul_of_nonneg_right (by exact_mod_cast hS) hg.le) hp (by
      intro k
      have key : ∀ n : ℕ, ((-T + n * δ : ℤ) : K) * g = -((T : K) * g) + n * ((δ : K) * g) := fun n => by push_cast; ring
      have key2 : ∀ n : ℕ, (-T + n * δ ≤ T ↔ ((-T + n * δ : ℤ) : K) * g ≤ (T : K) * g) := fun n => by
        rw [mul_le_mul_iff_left₀ hg]; norm_cast
      rw [hm]
      constructor
      · rintro (⟨n, h2, rfl⟩ | rfl)
        · exact Or.inl ⟨n, key n, (key2 n).1 h2⟩
        · refine Or.inr ⟨rfl, (2 * T / δ).toNat, ?_, ?_⟩
          · rw [← key]
            refine mul_pos ?_ hg
            have h2 := Int.lt_ediv_add_one_mul_self (2 * T) hδ0
            have h3 : ((2 * T / δ).toNat : ℤ) = 2 * T / δ := Int.toNat_of_nonneg (Int.ediv_nonneg (by omega) hδ0.le)
            have : (0 : ℤ) < -T + (2 * T / δ).toNat * δ := by rw [h3]; nlinarith
            exact_mod_cast this
          · rw [← key]
            refine (key2 _).1 ?_
            have h2 := Int.ediv_mul_le (2 * T) hδ0.ne'
            rw [Int.toNat_of_nonneg (Int.ediv_nonneg (by omega) hδ0.le)]
            linarith
      · rintro (⟨n, rfl, h2⟩ | ⟨rfl, _⟩)
        · exact Or.inl ⟨n, (key2 n).2 (by rw [key]; exact h2), (key n).symm⟩
        · exact Or.inr rfl)
  rw [hks, List.length_map, hc, floor_div_int hδ0 hg]
  congr 1
  have : (∃ n : ℕ, (T : K) * g = n * ((δ : K) * g)) ↔ δ ∣ T := by
    constructor
    · rintro ⟨n, hn⟩
      refine ⟨n, ?_⟩
      have : (T : K) = ((δ * n : ℤ) : K) := by
        apply mul_right_cancel₀ hg.ne'
        rw [hn]; push_cast; ring
      exact_mod_cast this
    · rintro ⟨n, hn⟩
      have h0 : 0 ≤ n := by
        by_contra hneg
        have : δ * n < 0 := mul_neg_of_pos_of_neg hδ0 (not_le.1 hneg)
        omega
      refine ⟨n.toNat, ?_⟩
      have h3 : ((n.toNat : ℤ) : K) = n := by rw [Int.toNat_of_nonneg h0]
      have h4 : ((n.toNat : ℕ) : K) = n := by exact_mod_cast h3
      rw [h4, hn]; push_cast; ring
  simp only [this]

/-- **C117 in binary64**, for time stamps that are multiples of a power of two. -/
theorem C117_binary64 {ex : ℚ → ℚ} {fu : Bool} {M : ℕ} {τ : ℕ → ℤ} {e : ℤ} {d : DS (D64 ex fu)} (ht : Times64 d M τ e) (hM : 2 ≤ M) (δ : ℤ)
    (hδ : IsMinGapZ M τ δ) (hB : τ (M - 1) - τ 0 ≤ 2 ^ 52) (hC : τ (M - 1) - τ 0 ≤ (2 ^ 30 - 2) * δ) (α : Option (D64 ex fu)) (wt : String)
    (hw : KnownWeight wt) :
    ∃ r, autocorrelation .fabs d { alpha := α } "natural" wt = .ok r ∧
      (r.lags.length : ℤ) = 2 * (τ (M - 1) - τ 0) / δ + 1 + (if δ ∣ τ (M - 1) - τ 0 then 0 else 1) := by
  have hu0 := exactUnit64 (ex := ex) (fu := fu) 0 (by norm_num) (by norm_num)
  refine C117_ticks (exactUnit64 (ex := ex) (fu := fu) e ht.emin ht.emax) d ht.built M τ ht.times hM ht.inc δ hδ (by linarith) (2 ^ 31 - 4)
    (by linarith) (by norm_num) ?_ α wt hw
  intro n hn
  have := hu0.exact n (hn.trans (by norm_num))
  rwa [pow2_zero, mul_one] at this

end Sacf
