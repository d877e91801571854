import Verif.Props.MissingRounded

/-!
# C05 in rounded arithmetic, rows with missing values
-/

namespace Sacf

open Finset

section
variable {K : Type} [Field K] [LinearOrder K] [IsStrictOrderedRing K] [FloorRing K] {R : Rnd K} {u η big V A : K} {M : ℕ} {x : ℕ → Option K}

/-- **C05 in any rounding, with missing values**: the computed mean is within `5 V A` of the mean of the values that are there; the normalised
row is NaN exactly where the value is missing, and elsewhere within `9 V A` of the deviation. -/
theorem C05_error_missing (h : Moderate R u η big V A M) (d : DS (XF R)) (hd : Constructed d) (j : ℕ) (hrow : d.HasRow j (obs M x))
    (hp : 1 ≤ present M x) (hc : (XF.round (present M x : K) : XF R) = .fin (present M x)) (hx : ∀ i < M, ∀ v, x i = some v → |v| ≤ A) :
    ∃ (μ : K) (y : ℕ → Option K) (rows : List (List (XF R))), d.meanData[j]? = some (.fin μ) ∧ |μ - obsMean M x| ≤ 5 * (V * A) ∧
      d.normData2d = .ok rows ∧ rows[j]? = some (obs M y) ∧ ∀ i < M, (x i = none → y i = none) ∧
        ∀ v, x i = some v → ∃ w, y i = some w ∧ |w - (v - obsMean M x)| ≤ 9 * (V * A) := by
  obtain ⟨t, data, err, N, _, hb⟩ := hd.built
  obtain ⟨hj, hrow⟩ := hb.row hrow
  obtain ⟨⟨μ, hμ, hμe⟩, hdev⟩ := near_obs_dev h hp hc hx
  have hmean : meanOf (rowOf data t.length j) = (.fin μ : XF R) := by rw [hrow, hμ]
  have hy : ∀ i : ℕ, ∃ y : Option K, i < M →
      (Arith.sub (match x i with | some v => .fin v | none => .nan) (.fin μ) : XF R) = (match y with | some v => .fin v | none => .nan) ∧
      (x i = none → y = none) ∧ ∀ v, x i = some v → ∃ w, y = some w ∧ |w - (v - obsMean M x)| ≤ 9 * (V * A) := by
    intro i
    by_cases hi : i < M
    · cases hxi : x i with
      | none => exact ⟨none, fun _ => ⟨rfl, fun _ => rfl, by simp⟩⟩
      | some v =>
        obtain ⟨_, w, hw, hwe⟩ := hdev i hi (by rw [hxi]; rfl)
        rw [hμ, hxi] at hw
        refine ⟨some w, fun _ => ⟨hw, by simp, fun v' hv' => ⟨w, rfl, ?_⟩⟩⟩
        rw [← Option.some.inj hv']
        unfold obsDev at hwe
        rw [hxi] at hwe
        exact hwe
    · exact ⟨none, fun h => absurd h hi⟩
  choose y hy using hy
  refine ⟨μ, y, _, ?_, hμe, unflatten_ok hd.wf.norm_len, ?_, fun i hi => (hy i hi).2⟩
  · show d.dataMean[j]? = _
    rw [hb.mean]
    simp only [List.getElem?_map, List.getElem?_range hj, Option.map_some]
    rw [hmean]
  · simp only [List.getElem?_map, hb.hN, List.getElem?_range hj, Option.map_some]
    have := hb.nrow hj
    unfold DS.nrow at this
    rw [this, hmean, hrow]
    unfold obs
    rw [List.map_map]
    congr 1
    apply List.map_congr_left
    intro i hi
    exact (hy i (List.mem_range.1 hi)).1

end

variable {ex : ℚ → ℚ} {fu : Bool} {d : DS (D64 ex fu)} {M j : ℕ} {x : ℕ → Option ℚ} {A : ℚ}

/-- **C05 in binary64, with missing values** -/
theorem C05_binary64_missing (hd : Constructed d) (hM29 : M ≤ 2 ^ 29) (hA : pow2 (-126) ≤ A) (hA' : A ≤ pow2 127)
    (hrow : d.HasRow j (obs M x)) (hp : 1 ≤ present M x) (hx : ∀ i < M, ∀ v, x i = some v → |v| ≤ A) :
    ∃ (μ : ℚ) (y : ℕ → Option ℚ) (rows : List (List (D64 ex fu))), d.meanData[j]? = some (.fin μ) ∧
      |μ - obsMean M x| ≤ 5 * (M * pow2 (-53) * A) ∧ d.normData2d = .ok rows ∧ rows[j]? = some (obs M y) ∧
      ∀ i < M, (x i = none → y i = none) ∧ ∀ v, x i = some v → ∃ w, y i = some w ∧ |w - (v - obsMean M x)| ≤ 9 * (M * pow2 (-53) * A) := by
  have hple : present M x ≤ M := by
    unfold present
    exact (Finset.card_filter_le _ _).trans (by simp)
  have hV : 100 * ((M : ℚ) * pow2 (-53)) ≤ 1 := by
    have h1 : (M : ℚ) ≤ 2 ^ 29 := by exact_mod_cast hM29
    have h3 := mul_le_mul_of_nonneg_right h1 (pow2_pos (-53)).le
    have h4 : 100 * (2 ^ 29 * pow2 (-53)) ≤ 1 := by decide +kernel
    linarith
  have hmod := moderate64 (ex := ex) (fu := fu) (M := M) (by omega) hM29 le_rfl hV hA hA'
  have hmod' := moderate64 (ex := ex) (fu := fu) (M := present M x) hp (hple.trans hM29) (V := M * pow2 (-53))
    (mul_le_mul_of_nonneg_right (by exact_mod_cast hple) (pow2_pos _).le) hV hA hA'
  exact C05_error_missing hmod d hd j hrow hp hmod'.count hx

/-- C05_error_missing: the row 1, 0, NaN, 0, 2 with the error unit `2^-50` -/
example : ∃ (d : DS B) (μ : ℚ), Constructed d ∧ d.meanData[0]? = some (.fin μ) ∧ |μ - 3/4| ≤ pow2 (-46) := by
  obtain ⟨d, r, ht, hv, _⟩ := miss_case (fun _ => ()) () (by decide +kernel)
  have hm : obsMean 5 missX = 3/4 := by decide +kernel
  obtain ⟨μ, y, rows, h1, h2, _⟩ := C05_error_missing (moderate64 (M := 5) (V := pow2 (-50)) (by norm_num) (by norm_num) (by decide +kernel)
    (by decide +kernel) hv.amin hv.amax) d ht.built 0 hv.row (by decide +kernel)
    (obs_facts64 (ex := fun x => 1 / (1 - x)) (fu := false) ht.one_le ht.le hv).2.2.1 hv.bound
  rw [hm] at h2
  exact ⟨d, μ, ht.built, h1, h2.trans (by decide +kernel)⟩

/-- C05_binary64_missing: the row 1, 0, NaN, 0, 2 -/
example : ∃ (d : DS B) (μ : ℚ) (y : ℕ → Option ℚ) (rows : List (List B)), Constructed d ∧ d.meanData[0]? = some (.fin μ) ∧
    |μ - 3/4| ≤ pow2 (-47) ∧ d.normData2d = .ok rows ∧ rows[0]? = some (obs 5 y) ∧ y 2 = none ∧ ∃ w, y 4 = some w ∧ |w - 5/4| ≤ pow2 (-46) := by
  obtain ⟨d, r, ht, hv, _⟩ := miss_case (fun _ => ()) () (by decide +kernel)
  have hm : obsMean 5 missX = 3/4 := by decide +kernel
  obtain ⟨μ, y, rows, h1, h2, h3, h4, h5⟩ := C05_binary64_missing ht.built ht.le hv.amin hv.amax hv.row (by decide +kernel) hv.bound
  rw [hm] at h2
  obtain ⟨w, h6, h7⟩ := (h5 4 (by norm_num)).2 2 (by decide +kernel)
  rw [hm] at h7
  refine ⟨d, μ, y, rows, ht.built, h1, h2.trans (by decide +kernel), h3, h4, (h5 2 (by norm_num)).1 (by decide +kernel), w, h6, ?_⟩
  have e : (2 : ℚ) - 3/4 = 5/4 := by norm_num
  rw [e] at h7
  exact h7.trans (by decide +kernel)

end Sacf
