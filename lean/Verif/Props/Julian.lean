import Verif.Props.Invariance
import Verif.Lemmas.Binary

/-!
# Dates as doubles (C116)

The time stamps of an observation are often dates far from zero: Julian days, seconds since 1970, decimal years.  Then no difference of two of
them is rounded.
-/

namespace Sacf

open Arith

variable {ex : ℚ → ℚ} {fu : Bool} {M : ℕ} {t t' : ℕ → ℚ}

/-- doubles in order and far from zero: the last is at most twice the first -/
structure Dates64 (M : ℕ) (t : ℕ → ℚ) : Prop where
  double : ∀ i < M, b64 (t i) = t i
  pos : 0 < t 0
  order : ∀ i j, i ≤ j → j < M → t i ≤ t j
  far : ∀ i < M, t i ≤ 2 * t 0
  finite : ∀ i < M, t i ≤ big

/-- the difference of two doubles that differ by a factor of at most 2 is a double -/
theorem b64_sub_near {x y : ℚ} (hx : b64 x = x) (hy : b64 y = y) (h0 : 0 < y) (h1 : y ≤ x) (h2 : x ≤ 2 * y) : b64 (x - y) = x - y := by
  obtain ⟨a, e, ha, he, hxe, _⟩ := roundTo_form (p := 53) (emin := -1074) x
  obtain ⟨c, f, hc, hf, hyf, _⟩ := roundTo_form (p := 53) (emin := -1074) y
  change b64 x = _ at hxe
  change b64 y = _ at hyf
  rw [hx] at hxe
  rw [hy] at hyf
  have hpe := pow2_pos e
  have hpf := pow2_pos f
  rcases le_total f e with h | h
  · obtain ⟨n, hn⟩ := pow2_sub_int h
    have e1 : x - y = ((a * n - c : ℤ) : ℚ) * pow2 f := by rw [hxe, hyf, hn]; push_cast; ring
    rw [e1]
    refine roundTo_fixed (by norm_num) ?_ hf
    have hle : ((a * n - c : ℤ) : ℚ) * pow2 f ≤ c * pow2 f := by rw [← e1, ← hyf]; linarith
    have hge : 0 ≤ ((a * n - c : ℤ) : ℚ) * pow2 f := by rw [← e1]; linarith
    have h3 : ((a * n - c : ℤ) : ℚ) ≤ c := le_of_mul_le_mul_right hle hpf
    have h4 : (0 : ℚ) ≤ ((a * n - c : ℤ) : ℚ) := nonneg_of_mul_nonneg_left hge hpf
    have h3' : a * n - c ≤ c := by exact_mod_cast h3
    have h4' : 0 ≤ a * n - c := by exact_mod_cast h4
    rw [abs_of_nonneg h4']
    exact h3'.trans ((le_abs_self c).trans hc)
  · obtain ⟨n, hn⟩ := pow2_sub_int h
    have e1 : x - y = ((a - c * n : ℤ) : ℚ) * pow2 e := by rw [hxe, hyf, hn]; push_cast; ring
    rw [e1]
    refine roundTo_fixed (by norm_num) ?_ he
    have hle : ((a - c * n : ℤ) : ℚ) * pow2 e ≤ a * pow2 e := by rw [← e1, ← hxe]; linarith
    have hge : 0 ≤ ((a - c * n : ℤ) : ℚ) * pow2 e := by rw [← e1]; linarith
    have h3 : ((a - c * n : ℤ) : ℚ) ≤ a := le_of_mul_le_mul_right hle hpe
    have h4 : (0 : ℚ) ≤ ((a - c * n : ℤ) : ℚ) := nonneg_of_mul_nonneg_left hge hpe
    have h3' : a - c * n ≤ a := by exact_mod_cast h3
    have h4' : 0 ≤ a - c * n := by exact_mod_cast h4
    rw [abs_of_nonneg h4']
    exact h3'.trans ((le_abs_self a).trans ha)

theorem Dates64.sub (h : Dates64 M t) {i j : ℕ} (hij : i ≤ j) (hj : j < M) :
    b64 (t j - t i) = t j - t i ∧ |t j - t i| ≤ big := by
  have h0 : t 0 ≤ t i := h.order 0 i (Nat.zero_le _) (by omega)
  have h1 := h.order i j hij hj
  refine ⟨b64_sub_near (h.double j hj) (h.double i (by omega)) (lt_of_lt_of_le h.pos h0) h1 (by linarith [h.far j hj]), ?_⟩
  rw [abs_of_nonneg (by linarith)]
  linarith [h.finite j hj, h.pos]

/-- **C116**: normalising dates rounds nothing: `normalised_timeseries()` has exactly the differences of the time stamps. -/
theorem C116_normalised (d : DS (D64 ex fu)) (hd : Constructed d) (ht : d.timeseries = samples M t) (h : Dates64 M t) :
    d.normalisedTimeseries = samples M fun i => t i - t 0 := by
  obtain ⟨hM, hn⟩ := built_times64 hd ht fun i hi => (h.sub (Nat.zero_le i) hi).2
  show d.normT = _
  rw [hn]
  unfold samples
  refine List.map_congr_left fun i hi => ?_
  beta_reduce
  rw [(h.sub (Nat.zero_le i) (List.mem_range.1 hi)).1]

/-- **C116**: the default range of lags is exactly the time span, and the default resolution exactly the smallest gap. -/
theorem C116_defaults (d : DS (D64 ex fu)) (hd : Constructed d) (ht : d.timeseries = samples M t) (h : Dates64 M t) (hM : 2 ≤ M)
    (c : Corr (D64 ex fu)) (hc : Corr.new d = .ok c) :
    c.maxLag = .fin (t (M - 1) - t 0) ∧ c.minLag = .fin (-(t (M - 1) - t 0)) ∧
      ∃ δ, c.lagRes = .fin δ ∧ IsMinGap M t δ := by
  have hn : d.normT = samples M fun i => t i - t 0 := C116_normalised d hd ht h
  obtain ⟨n, _, rfl, _⟩ := corrNew_good hd.wf hc
  have hlast : lastD d.normT = .fin (t (M - 1) - t 0) := by rw [hn, samples_last (by omega)]
  have hd' : ∀ i, t (i + 1) - t 0 - (t i - t 0) = t (i + 1) - t i := fun i => by ring
  obtain ⟨b, h1, h2, h3⟩ := findMinDiff_samples64 (ex := ex) (fu := fu) M (fun i => t i - t 0) (fun i hi => by
    rw [hd']; exact (h.sub (Nat.le_succ i) hi).2)
  refine ⟨hlast, by simp [Corr.fresh, hlast], b, by simp [Corr.fresh, hn, h1], ?_, ?_⟩
  · rcases h3 with h3 | ⟨i, hi, h3⟩
    · have h4 := h2 0 (by omega)
      rw [hd', (h.sub (Nat.le_succ 0) (by omega)).1] at h4
      refine ⟨0, 1, by omega, by omega, le_antisymm ?_ h4⟩
      rw [h3]
      exact (le_abs_self _).trans (h.sub (Nat.le_succ 0) (by omega)).2
    · rw [hd', (h.sub (Nat.le_succ i) hi).1] at h3
      exact ⟨i, i + 1, by omega, hi, h3.symm⟩
  · intro i j hij hj
    have := h2 i (by omega)
    rw [hd', (h.sub (Nat.le_succ i) (by omega)).1] at this
    linarith [h.order (i + 1) j (by omega) hj]

/-- **C116**: counting the dates from another day changes no bit of the lags and correlations, if the new time stamps have exactly the same
differences; for any parameters, selection and weight functions, and either `abs`. -/
theorem C116_epoch (a : AbsFn) {d d' : DS (D64 ex fu)} (hd : Constructed d) (hd' : Constructed d')
    (ht : d.timeseries = samples M t) (ht' : d'.timeseries = samples M t') (h : Dates64 M t)
    (hs : ∀ i < M, t' i - t' 0 = t i - t 0) (hdat : d.data2d = d'.data2d) (g : LagArgs (D64 ex fu)) (sel wt : String) :
    acOut a d g sel wt = acOut a d' g sel wt := by
  refine C28_depends_on_differences a hd hd' ?_ hdat g sel wt
  obtain ⟨hM, hn⟩ := built_times64 hd' ht' fun i hi => by rw [hs i hi]; exact (h.sub (Nat.zero_le i) hi).2
  rw [C116_normalised d hd ht h]
  show _ = d'.normT
  rw [hn]
  unfold samples
  refine List.map_congr_left fun i hi => ?_
  beta_reduce
  rw [hs i (List.mem_range.1 hi), (h.sub (Nat.zero_le i) (List.mem_range.1 hi)).1]

end Sacf
