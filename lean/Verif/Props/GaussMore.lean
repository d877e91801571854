import Mathlib.Algebra.BigOperators.Field
import Verif.Props.Gauss64
import Verif.Props.FastRounded
import Verif.Props.MissingRounded
import Verif.Props.Narrowed

/-!
# Narrowed values, missing values and fast selection with the Gaussian weight in binary64

C26, C35 and C36 for the Gaussian weight with a library `exp` that errs by at most `2^-53`; the formulas are those with the real exponential.
-/

namespace Sacf

open Finset

/-! ## from functions close to the exponential to the exponential -/

theorem limit_step {v ρ' ρ c L σ : ℝ} (hc : 0 ≤ c) (hb : |v - ρ'| ≤ c * (1 + |ρ'|)) (hcl : |ρ' - ρ| ≤ σ * L) :
    |v - ρ| ≤ c * (1 + |ρ|) + (c + 1) * L * σ := by
  have a1 : |ρ'| ≤ |ρ| + σ * L := by
    have : ρ' = ρ + (ρ' - ρ) := by ring
    rw [this]
    exact (abs_add_le _ _).trans (by linarith)
  have a2 : |v - ρ| ≤ |v - ρ'| + |ρ' - ρ| := abs_sub_le _ _ _
  have a4 := mul_le_mul_of_nonneg_left a1 hc
  linarith

/-- a bound that holds with functions arbitrarily close to the exponential holds with the exponential -/
theorem exp_limit {S : Finset ℕ} {a δ : ℕ → ℚ} {α c v τ : ℚ} (hc : 0 ≤ c) (hτ : 0 < τ)
    (h : ∀ σ : ℚ, 0 < σ → σ ≤ τ → ∃ f : ℚ → ℚ, (∀ x : ℚ, x ≤ 0 → |(f x : ℝ) - Real.exp x| ≤ σ) ∧
      |v - ∑ i ∈ S, weight f "gaussian" α (δ i) * a i| ≤ c * (1 + |∑ i ∈ S, weight f "gaussian" α (δ i) * a i|)) :
    |(v : ℝ) - ∑ i ∈ S, weight Real.exp "gaussian" (α : ℝ) (δ i) * a i| ≤ c * (1 + |∑ i ∈ S, weight Real.exp "gaussian" (α : ℝ) (δ i) * a i|) := by
  set ρ := ∑ i ∈ S, weight Real.exp "gaussian" (α : ℝ) (δ i) * a i with hρ
  set L : ℝ := ∑ i ∈ S, |(a i : ℝ)| with hL
  have hL0 : 0 ≤ L := sum_nonneg fun _ _ => abs_nonneg _
  have hc' : (0 : ℝ) ≤ c := by exact_mod_cast hc
  have step : ∀ σ : ℚ, 0 < σ → σ ≤ τ → |(v : ℝ) - ρ| ≤ c * (1 + |ρ|) + (c + 1) * L * σ := by
    intro σ hσ hστ
    obtain ⟨f, hf, hb⟩ := h σ hσ hστ
    have hcl : |((∑ i ∈ S, weight f "gaussian" α (δ i) * a i : ℚ) : ℝ) - ρ| ≤ σ * L := by
      rw [hρ, Rat.cast_sum, ← sum_sub_distrib, hL, mul_sum]
      refine (abs_sum_le_sum_abs _ _).trans (sum_le_sum fun i _ => ?_)
      have h1 := hf (-(δ i ^ 2 / (2 * α ^ 2))) (neg_nonpos.2 (by positivity))
      have e2 : weight Real.exp "gaussian" (α : ℝ) (δ i) = Real.exp ((-(δ i ^ 2 / (2 * α ^ 2)) : ℚ) : ℝ) := by
        show Real.exp _ = _
        push_cast; rfl
      rw [e2, Rat.cast_mul, ← sub_mul, abs_mul]
      exact mul_le_mul_of_nonneg_right h1 (abs_nonneg _)
    exact limit_step hc' (by exact_mod_cast hb) hcl
  refine le_of_forall_pos_le_add fun ε hε => ?_
  have hpos : 0 < (c + 1) * L + 1 := by positivity
  obtain ⟨σ, hσ0, hσ1⟩ := exists_rat_btwn (show (0 : ℝ) < min (ε / ((c + 1) * L + 1)) (τ : ℝ) from
    lt_min (div_pos hε hpos) (by exact_mod_cast hτ))
  have h1 := lt_of_lt_of_le hσ1 (min_le_left _ _)
  have h2 : σ < τ := by exact_mod_cast lt_of_lt_of_le hσ1 (min_le_right _ _)
  refine (step σ (by exact_mod_cast hσ0) h2.le).trans ?_
  rw [lt_div_iff₀ hpos] at h1
  have : (0 : ℝ) < σ := hσ0
  linarith

section weight64
variable {ex : ℚ → ℚ} {fu : Bool} {α : ℚ} {e : ℤ}

/-- the computed weight is near that with some function close to the exponential -/
theorem gauss_family (hα0 : pow2 (e - 400) ≤ α) (hα1 : pow2 (-500) ≤ α) (hα2 : α ≤ pow2 500) (he' : e ≤ 458)
    (hex : ∀ x : ℚ, x ≤ 0 → |(ex x : ℝ) - Real.exp x| ≤ (pow2 (-53) : ℚ)) (σ : ℚ) (hσ : 0 < σ) (hσu : σ ≤ pow2 (-53) / 100) :
    ∃ f : ℚ → ℚ, (∀ x : ℚ, x ≤ 0 → |(f x : ℝ) - Real.exp x| ≤ σ) ∧ ∀ δ, 0 ≤ δ → δ ≤ ((2 ^ 53 : ℤ) : ℚ) * pow2 e →
      Near (fweight "gaussian" (.fin α) (.fin δ) : D64 ex fu) (weight f "gaussian" α δ) (10 * pow2 (-53)) ∧ |weight f "gaussian" α δ| ≤ 1 := by
  obtain ⟨f, hf1, hf2⟩ := exists_expLike hσ
  refine ⟨f, fun x hx => (hf2 x hx).trans ?_, fun δ h0 h1 => ?_⟩
  · have : σ / 2 ≤ σ := by linarith
    exact_mod_cast this
  have hσ' : 100 * σ ≤ pow2 (-53) := by linarith
  have hαp : 0 < α := lt_of_lt_of_le (pow2_pos _) hα0
  have hsq : ∀ {n m : ℤ}, n + n = m → pow2 n ^ 2 = pow2 m := fun h => by rw [← h, pow2_add, sq]
  have h8 : 8 * pow2 (-1075) = pow2 (-1072) := by
    rw [show (-1072 : ℤ) = ((3 : ℕ) : ℤ) + -1075 by norm_num, pow2_add, pow2_nat]; norm_num
  have hbig := pow2_le_big
  have hα2' : α ^ 2 ≤ pow2 1000 := (pow_le_pow_left₀ hαp.le hα2 2).trans_eq (hsq (by norm_num))
  have hα1' : pow2 (-1000) ≤ α ^ 2 := (hsq (by norm_num)).symm.trans_le (pow_le_pow_left₀ (pow2_pos _).le hα1 2)
  have hu0 := pow2_pos (-53)
  have h53 : ((2 ^ 53 : ℤ) : ℚ) = pow2 53 := by rw [show (53 : ℤ) = ((53 : ℕ) : ℤ) from rfl, pow2_nat]; norm_num
  have e1 := pow_le_pow_left₀ h0 h1 2
  have e2 : δ ^ 2 / (2 * α ^ 2) ≤ (((2 ^ 53 : ℤ) : ℚ) * pow2 e) ^ 2 / (2 * α ^ 2) := div_le_div_of_nonneg_right e1 (by positivity)
  have b6 : (((2 ^ 53 : ℤ) : ℚ) * pow2 e) ^ 2 ≤ big := by
    rw [h53, ← pow2_add, hsq rfl]
    exact (pow2_mono (by omega)).trans hbig
  have b7 : 2 * ((((2 ^ 53 : ℤ) : ℚ) * pow2 e) ^ 2 / (2 * α ^ 2)) ≤ big := by
    have e0 : 0 ≤ ((2 ^ 53 : ℤ) : ℚ) * pow2 e / α := div_nonneg (mul_nonneg (by norm_num) (pow2_pos _).le) hαp.le
    have e2 := pow_le_pow_left₀ e0 (ratio64 hα0) 2
    have e3 : 2 * ((((2 ^ 53 : ℤ) : ℚ) * pow2 e) ^ 2 / (2 * α ^ 2)) = (((2 ^ 53 : ℤ) : ℚ) * pow2 e / α) ^ 2 := by
      field_simp
    rw [e3]
    exact e2.trans ((hsq rfl).trans_le ((pow2_mono (by norm_num)).trans hbig))
  refine near_gauss accurate64 (by decide +kernel) ?_ hf1 hσ' ?_ hαp h0 ?_ ?_ (by decide +kernel) ?_ ?_ (e1.trans b6) ((mul_le_mul_of_nonneg_left e2 zero_le_two).trans b7)
  · rw [h8]; exact pow2_mono (by norm_num)
  · intro x hx
    have h1 := hf2 x hx
    have h2 := hex x hx
    have h3 : (σ : ℝ) / 2 ≤ (pow2 (-53) : ℚ) := by
      have : σ / 2 ≤ pow2 (-53) := by linarith
      exact_mod_cast this
    have : |(ex x : ℝ) - f x| ≤ (2 * pow2 (-53) : ℚ) := by
      rw [abs_le] at h1 h2
      rw [Rat.cast_mul]
      rw [abs_le]; constructor <;> norm_num <;> linarith
    exact_mod_cast this
  · rw [h8]
    refine (show pow2 (-1072) ≤ pow2 (-53) * pow2 (-500) by rw [← pow2_add]; exact pow2_mono (by norm_num)).trans ?_
    exact mul_le_mul_of_nonneg_left hα1 hu0.le
  · rw [h8]
    refine (show pow2 (-1072) ≤ pow2 (-53) * pow2 (-1000) by rw [← pow2_add]; exact pow2_mono (by norm_num)).trans ?_
    exact mul_le_mul_of_nonneg_left hα1' hu0.le
  · have e1 : 2 * pow2 500 = pow2 501 := by rw [← pow2_one, ← pow2_add]; rfl
    have := pow2_mono (show (501 : ℤ) ≤ 1023 by norm_num)
    linarith
  · have e1 : 4 * pow2 1000 = pow2 1002 := by
      rw [show (1002 : ℤ) = ((2 : ℕ) : ℤ) + 1000 by norm_num, pow2_add, pow2_nat]; norm_num
    have := pow2_mono (show (1002 : ℤ) ≤ 1023 by norm_num)
    linarith

end weight64

/-! ## narrowed values -/

section narrowed
variable {ex : ℚ → ℚ} {fu : Bool} {d : DS (D64 ex fu)} {M j : ℕ} {τ : ℕ → ℤ} {e : ℤ} {x : ℕ → ℚ} {A V α : ℚ}
  {ga : LagArgs (D64 ex fu)} {r : AcResult (D64 ex fu)}

theorem gaussAcf_sum (M : ℕ) (τ : ℕ → ℤ) (e : ℤ) (x : ℕ → ℚ) (α : ℚ) (s : ℕ → ℕ) (k : ℤ) (q : ℚ) :
    gaussAcf M τ e x α s k * (sumSq M x / q : ℚ) = ∑ i ∈ range M with (τ i : ℚ) * pow2 e + k * pow2 e ≤ (τ (M - 1) : ℚ) * pow2 e,
      weight Real.exp "gaussian" (α : ℝ) ((|(τ (s i) : ℚ) * pow2 e - (τ i * pow2 e + k * pow2 e)| : ℚ) : ℝ)
        * ((dev M x i * dev M x (s i) / sumSq M x * (sumSq M x / q) : ℚ) : ℝ) := by
  unfold gaussAcf sacf
  rw [filter_cast (fun i => (τ i : ℚ) * pow2 e), sumSq_cast, sum_div, sum_mul]
  refine sum_congr rfl fun i _ => ?_
  rw [dev_cast, dev_cast]
  push_cast
  ring

/-- **C26 in binary64, Gaussian weight**: what is returned is the published formula, with the real exponential, times the ratio of the two sums of squares, within
`250 V κ (1 + |·|)`, where `V ≥ M 2^-53` and `κ = M A² / Σ (float(x) - mean)²`. -/
theorem C26_binary64_gaussian_partial (ht : Times64 d M τ e) (hM : 2 ≤ M) (hrow : d.HasRow j (samples M x)) (hA : pow2 (-126) ≤ A) (hA' : A ≤ pow2 127)
    (hx : ∀ i < M, |x i| ≤ A) (hx' : ∀ i < M, |roundTo 24 (-149) (x i)| ≤ A) (hV : M * pow2 (-53) ≤ V) (hV' : 100 * V ≤ 1)
    (hκ : 122 * V * (M * A ^ 2) ≤ narrowedSumSq (roundTo 24 (-149)) M x) (hS : 0 < sumSq M x) (hg : GaussRun64 d ga r α e)
    (n : ℕ) (k : ℤ) (hn : r.lags[n]? = some (.fin (k * pow2 e))) (hk : |k| + (τ (M - 1) - τ 0) ≤ 2 ^ 53)
    (s : ℕ → ℕ) (hs : Selects M (fun i => (τ i : ℚ) * pow2 e) (k * pow2 e) s) :
    ∃ (v : ℚ) (ρ : ℝ), r.At j n (.fin (k * pow2 e)) (.fin v) ∧
      ρ = gaussAcf M τ e x α s k * (sumSq M x / narrowedSumSq (roundTo 24 (-149)) M x : ℚ) ∧
      |(v : ℝ) - ρ| ≤ (250 * V * (M * A ^ 2 / narrowedSumSq (roundTo 24 (-149)) M x) : ℚ) * (1 + |ρ|) := by
  have hMA : 0 ≤ (M : ℚ) * A ^ 2 := by positivity
  have h53 := pow2_pos (-53)
  obtain ⟨hmod, hN, hb1, hb2, hb3⟩ := sizes64 (ex := ex) (fu := fu) ht.one_le ht.le hA hA' hV hV' hκ
  have hN2 := narrowedSumSq_le ht.one_le hA hx
  have hmean := abs_mean_le ht.one_le hx
  have hV0 : 0 ≤ V := (mul_nonneg (Nat.cast_nonneg _) h53.le).trans hV
  have hnorm : Near (seqNorm M fun i => (.fin (x i) : D64 ex fu)) (narrowedSumSq (roundTo 24 (-149)) M x) (61 * V * (M * A ^ 2)) := by
    refine near_norm_of hmod hx (y := fun i => roundTo 24 (-149) (x i)) (fun i hi => ?_) (fun i hi => ?_)
    · exact (abs_sub _ _).trans (by linarith [hx' i hi])
    · rw [narrow64 hA' (hx i hi)]
      refine ⟨_, rfl, ?_⟩
      rw [sub_self, abs_zero]
      have := mul_nonneg hV0 hmod.pos.le
      linarith
  have hNle : pow2 (-53) * narrowedSumSq (roundTo 24 (-149)) M x ≤ V * (M * A ^ 2) := by
    have e1 : 2 * pow2 (-53) ≤ V := by
      have : (2 : ℚ) ≤ M := by exact_mod_cast hM
      exact (mul_le_mul_of_nonneg_right this h53.le).trans hV
    have e2 := mul_le_mul_of_nonneg_left hN2 h53.le
    have e3 := mul_le_mul_of_nonneg_right e1 hMA
    linarith
  have main : ∀ w : ℚ → ℚ, (∀ δ, 0 ≤ δ → δ ≤ ((2 ^ 53 : ℤ) : ℚ) * pow2 e →
      Near (fweight "gaussian" (.fin α) (.fin δ) : D64 ex fu) (w δ) (10 * pow2 (-53)) ∧ |w δ| ≤ 1) →
      ∃ v : ℚ, r.At j n (.fin (k * pow2 e)) (.fin v) ∧
        |v - sacf M (fun i => (τ i : ℚ) * pow2 e) x w s (narrowedSumSq (roundTo 24 (-149)) M x) (k * pow2 e)|
          ≤ 250 * V * (M * A ^ 2 / narrowedSumSq (roundTo 24 (-149)) M x) *
            (1 + |sacf M (fun i => (τ i : ℚ) * pow2 e) x w s (narrowedSumSq (roundTo 24 (-149)) M x) (k * pow2 e)|) := fun w hw =>
    error_core_of (exactUnit64 (ex := ex) (fu := fu) e ht.emin ht.emax) hmod d ht.built τ ht.times ht.inc j hrow hx hnorm
      hNle hN2 ga _ (by unfold KnownWeight; simp) r hg.run α hg.alpha n k hn hk hκ hN hb1 hb2 w hw s hs
  have fam := gauss_family (fu := fu) hg.scale hg.lower hg.upper hg.emax hg.lib
  obtain ⟨f, _, hf⟩ := fam (pow2 (-53) / 100) (by linarith) le_rfl
  obtain ⟨v, hv, _⟩ := main _ hf
  refine ⟨v, _, hv, rfl, ?_⟩
  rw [gaussAcf_sum]
  refine exp_limit (c := 250 * V * (M * A ^ 2 / narrowedSumSq (roundTo 24 (-149)) M x)) (mul_nonneg (by linarith) (div_nonneg hMA hN.le))
    (show 0 < pow2 (-53) / 100 by linarith) fun σ hσ hσu => ?_
  obtain ⟨f, hf1, hf2⟩ := fam σ hσ hσu
  obtain ⟨v', hv', hb⟩ := main _ hf2
  obtain rfl : v' = v := by simpa using At_unique hv' hv
  refine ⟨f, hf1, ?_⟩
  have e1 : sacf M (fun i => (τ i : ℚ) * pow2 e) x (weight f "gaussian" α) s (narrowedSumSq (roundTo 24 (-149)) M x) (k * pow2 e)
      = ∑ i ∈ range M with (τ i : ℚ) * pow2 e + k * pow2 e ≤ (τ (M - 1) : ℚ) * pow2 e,
        weight f "gaussian" α |(τ (s i) : ℚ) * pow2 e - (τ i * pow2 e + k * pow2 e)|
          * (dev M x i * dev M x (s i) / sumSq M x * (sumSq M x / narrowedSumSq (roundTo 24 (-149)) M x)) := by
    unfold sacf
    rw [sum_div]
    refine sum_congr rfl fun i _ => ?_
    have := hS.ne'
    field_simp
  rw [e1] at hb
  exact hb

/-- **C26 in binary64, Gaussian weight, lag zero**: the value is the ratio of the two sums of squares, within `250 V κ (1 + ratio)`. -/
theorem C26_zero_binary64_gaussian_partial (ht : Times64 d M τ e) (hM : 2 ≤ M) (hrow : d.HasRow j (samples M x)) (hA : pow2 (-126) ≤ A) (hA' : A ≤ pow2 127)
    (hx : ∀ i < M, |x i| ≤ A) (hx' : ∀ i < M, |roundTo 24 (-149) (x i)| ≤ A) (hV : M * pow2 (-53) ≤ V) (hV' : 100 * V ≤ 1)
    (hκ : 122 * V * (M * A ^ 2) ≤ narrowedSumSq (roundTo 24 (-149)) M x) (hS : 0 < sumSq M x) (hspan : τ (M - 1) - τ 0 ≤ 2 ^ 53)
    (hg : GaussRun64 d ga r α e) (n : ℕ) (hn : r.lags[n]? = some (.fin 0)) :
    ∃ v q : ℚ, r.At j n (.fin 0) (.fin v) ∧ q = sumSq M x / narrowedSumSq (roundTo 24 (-149)) M x ∧
      |v - q| ≤ 250 * V * (M * A ^ 2 / narrowedSumSq (roundTo 24 (-149)) M x) * (1 + q) := by
  have e0 : ((0 : ℤ) : ℚ) * pow2 e = 0 := by simp
  have hN' : sumSq M (fun i => (x i : ℝ)) ≠ 0 := by rw [sumSq_cast]; exact_mod_cast hS.ne'
  have hinc : Increasing M fun i => ((τ i * pow2 e : ℚ) : ℝ) := fun i i' h1 h2 => Rat.cast_lt.2 (ht.increasing i i' h1 h2)
  obtain ⟨v, ρ, h1, h2, h3⟩ := C26_binary64_gaussian_partial ht hM hrow hA hA' hx hx' hV hV' hκ hS hg n 0 (by rw [e0]; exact hn)
    (by simpa using hspan) (fun i => i) (by rw [e0]; exact selects_zero ht.increasing)
  have e1 : gaussAcf M τ e x α (fun i => i) 0 = 1 := by
    unfold gaussAcf
    rw [e0, Rat.cast_zero, sacf_zero (gauss_zero _) hinc, div_self hN']
  rw [e1, one_mul] at h2
  have hN : 0 ≤ narrowedSumSq (roundTo 24 (-149)) M x := sum_nonneg fun _ _ => sq_nonneg _
  have hq : 0 ≤ sumSq M x / narrowedSumSq (roundTo 24 (-149)) M x := div_nonneg hS.le hN
  rw [h2, abs_of_nonneg (a := ((sumSq M x / narrowedSumSq (roundTo 24 (-149)) M x : ℚ) : ℝ)) (by exact_mod_cast hq)] at h3
  rw [e0] at h1
  exact ⟨v, _, h1, rfl, by exact_mod_cast h3⟩

end narrowed

/-! ## missing values -/

section missing
variable {ex : ℚ → ℚ} {fu : Bool} {d : DS (D64 ex fu)} {M j : ℕ} {τ : ℕ → ℤ} {e : ℤ} {x : ℕ → Option ℚ} {A V α : ℚ}
  {ga : LagArgs (D64 ex fu)} {r : AcResult (D64 ex fu)}

/-- the values as real numbers -/
noncomputable def realOpt (x : ℕ → Option ℚ) (i : ℕ) : Option ℝ := (x i).map fun q => (q : ℝ)

theorem obsDev_cast (M : ℕ) (x : ℕ → Option ℚ) (i : ℕ) : obsDev M (realOpt x) i = (obsDev M x i : ℚ) := by
  have e1 : ∀ i, (realOpt x i).getD 0 = (((x i).getD 0 : ℚ) : ℝ) := fun i => by unfold realOpt; cases x i <;> simp
  have e2 : ∀ i, (realOpt x i).isSome = (x i).isSome := fun i => by unfold realOpt; cases x i <;> rfl
  unfold obsDev obsMean
  simp only [e1, e2]
  push_cast
  rfl

theorem obsSumSq_cast (M : ℕ) (x : ℕ → Option ℚ) : obsSumSq M (realOpt x) = (obsSumSq M x : ℚ) := by
  have e2 : ∀ i, (realOpt x i).isSome = (x i).isSome := fun i => by unfold realOpt; cases x i <;> rfl
  unfold obsSumSq
  simp only [e2, obsDev_cast]
  push_cast
  rfl

theorem obsAcf_sum (M : ℕ) (τ : ℕ → ℤ) (e : ℤ) (x : ℕ → Option ℚ) (α : ℚ) (s : ℕ → ℕ) (k : ℤ) :
    obsAcf M (fun i => ((τ i * pow2 e : ℚ) : ℝ)) (realOpt x) (weight Real.exp "gaussian" (α : ℝ)) s ((k * pow2 e : ℚ) : ℝ)
      = ∑ i ∈ range M with (τ i : ℚ) * pow2 e + k * pow2 e ≤ (τ (M - 1) : ℚ) * pow2 e,
      weight Real.exp "gaussian" (α : ℝ) ((|(τ (s i) : ℚ) * pow2 e - (τ i * pow2 e + k * pow2 e)| : ℚ) : ℝ)
        * ((obsDev M x i * obsDev M x (s i) / obsSumSq M x : ℚ) : ℝ) := by
  unfold obsAcf
  rw [filter_cast (fun i => (τ i : ℚ) * pow2 e), obsSumSq_cast, sum_div]
  refine sum_congr rfl fun i _ => ?_
  rw [obsDev_cast, obsDev_cast]
  push_cast
  ring

/-- **C35 in binary64, Gaussian weight**: a lag is NaN exactly if it uses a missing value; at every other lag the value is within `250 V κ (1 + |ρ|)` of the formula `ρ` over
the values that are there, with the real exponential. -/
theorem C35_binary64_gaussian_partial (ht : Times64 d M τ e) (hv : ObsValues64 d M j x A V) (hg : GaussRun64 d ga r α e)
    (n : ℕ) (k : ℤ) (hn : r.lags[n]? = some (.fin (k * pow2 e))) (hk : |k| + (τ (M - 1) - τ 0) ≤ 2 ^ 53)
    (s : ℕ → ℕ) (hs : Selects M (fun i => (τ i : ℚ) * pow2 e) (k * pow2 e) s) :
    (r.At j n (.fin (k * pow2 e)) .nan ↔ ¬ Unaffected M (fun i => (τ i : ℚ) * pow2 e) x s (k * pow2 e)) ∧
    (Unaffected M (fun i => (τ i : ℚ) * pow2 e) x s (k * pow2 e) → ∃ (v : ℚ) (ρ : ℝ), r.At j n (.fin (k * pow2 e)) (.fin v) ∧
      ρ = obsAcf M (fun i => ((τ i * pow2 e : ℚ) : ℝ)) (realOpt x) (weight Real.exp "gaussian" (α : ℝ)) s ((k * pow2 e : ℚ) : ℝ) ∧
      |(v : ℝ) - ρ| ≤ (250 * V * (M * A ^ 2 / obsSumSq M x) : ℚ) * (1 + |ρ|)) := by
  obtain ⟨hmod, hp, hc, hf, hN, hb1, hb2, hb3⟩ := obs_facts64 (ex := ex) (fu := fu) ht.one_le ht.le hv
  have h53 := pow2_pos (-53)
  have hMA : 0 ≤ (M : ℚ) * A ^ 2 := by positivity
  have hV0 : 0 ≤ V := (mul_nonneg (Nat.cast_nonneg _) h53.le).trans hv.unit
  have main := obs_ticks (exactUnit64 (ex := ex) (fu := fu) e ht.emin ht.emax) hmod d ht.built τ ht.times ht.inc j x hv.row hv.bound
    hp hc hf ga _ (by unfold KnownWeight; simp) r hg.run α hg.alpha n k hn hk hv.spread hN hb1 hb2
  have fam := gauss_family (fu := fu) hg.scale hg.lower hg.upper hg.emax hg.lib
  obtain ⟨f, _, hf0⟩ := fam (pow2 (-53) / 100) (by linarith) le_rfl
  have key := main _ hf0 s hs
  refine ⟨⟨fun h hun => ?_, key.2⟩, fun hun => ?_⟩
  · obtain ⟨v, h1, _⟩ := key.1 hun
    have := At_unique h h1
    simp at this
  obtain ⟨v, hv1, _⟩ := key.1 hun
  refine ⟨v, _, hv1, rfl, ?_⟩
  rw [obsAcf_sum]
  refine exp_limit (c := 250 * V * (M * A ^ 2 / obsSumSq M x)) (mul_nonneg (by linarith) (div_nonneg hMA hN.le))
    (show 0 < pow2 (-53) / 100 by linarith) fun σ hσ hσu => ?_
  obtain ⟨f, hf1, hf2⟩ := fam σ hσ hσu
  obtain ⟨v', hv', hb⟩ := (main _ hf2 s hs).1 hun
  obtain rfl : v' = v := by simpa using At_unique hv' hv1
  refine ⟨f, hf1, ?_⟩
  have e1 : obsAcf M (fun i => (τ i : ℚ) * pow2 e) x (weight f "gaussian" α) s (k * pow2 e)
      = ∑ i ∈ range M with (τ i : ℚ) * pow2 e + k * pow2 e ≤ (τ (M - 1) : ℚ) * pow2 e,
        weight f "gaussian" α |(τ (s i) : ℚ) * pow2 e - (τ i * pow2 e + k * pow2 e)|
          * (obsDev M x i * obsDev M x (s i) / obsSumSq M x) := by
    unfold obsAcf
    rw [sum_div]
    refine sum_congr rfl fun i _ => ?_
    ring
  rw [e1] at hb
  exact hb

end missing

/-! ## fast selection -/

section fast
variable {ex : ℚ → ℚ} {fu : Bool} {d : DS (D64 ex fu)} {M j : ℕ} {τ : ℕ → ℤ} {e : ℤ} {x : ℕ → ℚ} {A V α : ℚ}
  {ga : LagArgs (D64 ex fu)} {r : AcResult (D64 ex fu)}

theorem fastAcf_sum (M : ℕ) (τ : ℕ → ℤ) (e : ℤ) (x : ℕ → ℚ) (α : ℚ) (b c : ℕ) (k : ℤ) :
    fastAcf M (fun i => ((τ i * pow2 e : ℚ) : ℝ)) (fun i => (x i : ℝ)) (weight Real.exp "gaussian" (α : ℝ)) b c (sumSq M fun i => (x i : ℝ)) ((k * pow2 e : ℚ) : ℝ)
      = ∑ i ∈ range c, weight Real.exp "gaussian" (α : ℝ) ((|(τ (if b + i < c then b + i else 0) : ℚ) * pow2 e - (τ i * pow2 e + k * pow2 e)| : ℚ) : ℝ)
        * ((dev M x i * dev M x (if b + i < c then b + i else 0) / sumSq M x : ℚ) : ℝ) := by
  unfold fastAcf
  rw [sumSq_cast, sum_div]
  refine sum_congr rfl fun i _ => ?_
  rw [dev_cast, dev_cast]
  push_cast
  ring

/-- **C36 in binary64, Gaussian weight**: at a lag `k 2^e` the value is within `250 V κ (1 + |ρ|)` of the formula `ρ` of fast selection with the real exponential, and 0 where no
sample counts. -/
theorem C36_binary64_gaussian_partial (ht : Times64 d M τ e) (hv : Values64 d M j x A V) (hr : autocorrelation .fabs d ga "fast" "gaussian" = .ok r)
    (hα : r.corr.alpha = .fin α) (hα0 : pow2 (e - 400) ≤ α) (hα1 : pow2 (-500) ≤ α) (hα2 : α ≤ pow2 500) (he' : e ≤ 458)
    (hex : ∀ x : ℚ, x ≤ 0 → |(ex x : ℝ) - Real.exp x| ≤ (pow2 (-53) : ℚ))
    (n : ℕ) (k : ℤ) (hn : r.lags[n]? = some (.fin (k * pow2 e))) (hk : |k| + (τ (M - 1) - τ 0) ≤ 2 ^ 53) :
    ∃ b c, ShiftedCount M (fun i => (τ i : ℚ) * pow2 e) (k * pow2 e) c ∧ (0 < c → FirstFrom M (fun i => (τ i : ℚ) * pow2 e) (k * pow2 e) b) ∧
      ∃ (v : ℚ) (ρ : ℝ), r.At j n (.fin (k * pow2 e)) (.fin v) ∧ (c = 0 → v = 0) ∧
        ρ = fastAcf M (fun i => ((τ i * pow2 e : ℚ) : ℝ)) (fun i => (x i : ℝ)) (weight Real.exp "gaussian" (α : ℝ)) b c
          (sumSq M fun i => (x i : ℝ)) ((k * pow2 e : ℚ) : ℝ) ∧
        |(v : ℝ) - ρ| ≤ (250 * V * (M * A ^ 2 / sumSq M x) : ℚ) * (1 + |ρ|) := by
  have hMA : 0 ≤ (M : ℚ) * A ^ 2 := mul_nonneg (Nat.cast_nonneg _) (sq_nonneg _)
  have h53 := pow2_pos (-53)
  obtain ⟨hmod, hf, hN, hb1, hb2, hb3⟩ := facts64 (ex := ex) (fu := fu) ht.one_le ht.le hv.amin hv.amax hv.unit hv.small hv.bound hv.float hv.spread
  have hV0 : 0 ≤ V := (mul_nonneg (Nat.cast_nonneg _) h53.le).trans hv.unit
  obtain ⟨b, c, h1, h2, h3, h4⟩ := fast_ticks (exactUnit64 (ex := ex) (fu := fu) e ht.emin ht.emax) ht.built ht.times ht.inc hv.row (wt := "gaussian")
    (by unfold KnownWeight; simp) hr hn hk
  refine ⟨b, c, h1, h2, ?_⟩
  have hcM := h1.1
  have main : ∀ w : ℚ → ℚ, (∀ δ, 0 ≤ δ → δ ≤ ((2 ^ 53 : ℤ) : ℚ) * pow2 e →
      Near (fweight "gaussian" (.fin α) (.fin δ) : D64 ex fu) (w δ) (10 * pow2 (-53)) ∧ |w δ| ≤ 1) →
      ∃ v : ℚ, r.At j n (.fin (k * pow2 e)) (.fin v) ∧ (c = 0 → v = 0) ∧
        |v - fastAcf M (fun i => (τ i : ℚ) * pow2 e) x w b c (sumSq M x) (k * pow2 e)|
          ≤ 250 * V * (M * A ^ 2 / sumSq M x) * (1 + |fastAcf M (fun i => (τ i : ℚ) * pow2 e) x w b c (sumSq M x) (k * pow2 e)|) := by
    intro w hw
    obtain ⟨v, v1, v2⟩ := plan_value (x := fun i => some (x i)) hmod (by rw [present_some]; exact hmod.one_le) (by rw [present_some]; exact hmod.count)
      (fun i hi v hv' => by simp only [Option.some.injEq] at hv'; subst hv'; exact hv.bound i hi)
      (fun i hi v hv' => by simp only [Option.some.injEq] at hv'; subst hv'; exact hf i hi)
      (by rw [obsSumSq_some]; exact hv.spread) (by rw [obsSumSq_some]; exact hN) (by rw [obsSumSq_some]; exact hb1) (by rw [obsSumSq_some]; exact hb2)
      hcM (s := fun i => if b + i < c then b + i else 0) (fun i hi => by have := h1.1; split <;> omega) (fun i hi => ⟨rfl, rfl⟩)
      (W := fun i => fweight "gaussian" r.corr.alpha (.fin |(τ (if b + i < c then b + i else 0) : ℚ) * pow2 e - ((τ i : ℚ) * pow2 e + k * pow2 e)|))
      (w := fun i => w |(τ (if b + i < c then b + i else 0) : ℚ) * pow2 e - ((τ i : ℚ) * pow2 e + k * pow2 e)|) (fun i hi => by
        rw [hα]
        exact hw _ (abs_nonneg _) (h3 i hi))
    rw [obs_some] at v1
    simp only [obsDev_some, obsSumSq_some] at v2
    refine ⟨v, by rw [← v1]; exact h4, ?_, v2⟩
    rintro rfl
    exact corrValue_nil_zero v1
  have fam := gauss_family (fu := fu) hα0 hα1 hα2 he' hex
  obtain ⟨f, _, hf0⟩ := fam (pow2 (-53) / 100) (by linarith) le_rfl
  obtain ⟨v, hv1, hv2, _⟩ := main _ hf0
  refine ⟨v, _, hv1, hv2, rfl, ?_⟩
  rw [fastAcf_sum]
  refine exp_limit (c := 250 * V * (M * A ^ 2 / sumSq M x)) (mul_nonneg (by linarith) (div_nonneg hMA hN.le))
    (show 0 < pow2 (-53) / 100 by linarith) fun σ hσ hσu => ?_
  obtain ⟨f, hf1, hf2⟩ := fam σ hσ hσu
  obtain ⟨v', hv', _, hb⟩ := main _ hf2
  obtain rfl : v' = v := by simpa using At_unique hv' hv1
  refine ⟨f, hf1, ?_⟩
  have e1 : fastAcf M (fun i => (τ i : ℚ) * pow2 e) x (weight f "gaussian" α) b c (sumSq M x) (k * pow2 e)
      = ∑ i ∈ range c, weight f "gaussian" α |(τ (if b + i < c then b + i else 0) : ℚ) * pow2 e - (τ i * pow2 e + k * pow2 e)|
          * (dev M x i * dev M x (if b + i < c then b + i else 0) / sumSq M x) := by
    unfold fastAcf
    rw [sum_div]
    refine sum_congr rfl fun i _ => ?_
    ring
  rw [e1] at hb
  exact hb

theorem fastAcf_self {K : Type} [Field K] [LinearOrder K] [IsStrictOrderedRing K] {M : ℕ} {t x : ℕ → K} {w : K → K} {k : K} (hN : sumSq M x ≠ 0) :
    fastAcf M t x w 0 M (sumSq M x) k = w |k| := by
  unfold fastAcf
  rw [div_eq_iff hN]
  unfold sumSq
  rw [mul_sum]
  refine sum_congr rfl fun i hi => ?_
  rw [Nat.zero_add, if_pos (mem_range.1 hi), show t i - (t i + k) = -k by ring, abs_neg]
  ring

theorem fastAcf_zero {K : Type} [Field K] [LinearOrder K] [IsStrictOrderedRing K] {M : ℕ} {t x : ℕ → K} {w : K → K} (hM : 1 ≤ M) (hw : w 0 = 1)
    (hN : sumSq M x ≠ 0) : fastAcf M t x w 0 (M - 1) (sumSq M x) 0 = 1 - dev M x (M - 1) ^ 2 / sumSq M x := by
  unfold fastAcf
  rw [eq_sub_iff_add_eq, ← add_div, div_eq_one_iff_eq hN]
  obtain ⟨m, rfl⟩ : ∃ m, M = m + 1 := ⟨M - 1, by omega⟩
  have e1 : sumSq (m + 1) x = ∑ i ∈ range (m + 1), dev (m + 1) x i ^ 2 := rfl
  rw [e1, sum_range_succ, Nat.add_sub_cancel]
  congr 1
  refine sum_congr rfl fun i hi => ?_
  rw [Nat.zero_add, if_pos (mem_range.1 hi), add_zero, sub_self, abs_zero, hw]
  ring

/-- **C36 in binary64, Gaussian weight**: at a negative lag the value is `exp(-lag² / 2 alpha²)`, up to the error bound, whatever the data. -/
theorem C36_binary64_negative_gaussian_partial (ht : Times64 d M τ e) (hv : Values64 d M j x A V) (hr : autocorrelation .fabs d ga "fast" "gaussian" = .ok r)
    (hα : r.corr.alpha = .fin α) (hα0 : pow2 (e - 400) ≤ α) (hα1 : pow2 (-500) ≤ α) (hα2 : α ≤ pow2 500) (he' : e ≤ 458)
    (hex : ∀ x : ℚ, x ≤ 0 → |(ex x : ℝ) - Real.exp x| ≤ (pow2 (-53) : ℚ))
    (n : ℕ) (k : ℤ) (hn : r.lags[n]? = some (.fin (k * pow2 e))) (hk : |k| + (τ (M - 1) - τ 0) ≤ 2 ^ 53) (hk' : k < 0) :
    ∃ v : ℚ, r.At j n (.fin (k * pow2 e)) (.fin v) ∧
      |(v : ℝ) - Real.exp (-((k * pow2 e : ℚ) : ℝ) ^ 2 / (2 * (α : ℝ) ^ 2))| ≤ (500 * V * (M * A ^ 2 / sumSq M x) : ℚ) := by
  obtain ⟨b, c, h1, h2, v, ρ, h3, _, h4, h5⟩ := C36_binary64_gaussian_partial ht hv hr hα hα0 hα1 hα2 he' hex n k hn hk
  have hp := pow2_pos e
  have hM1 := ht.one_le
  have hkp : (k : ℚ) * pow2 e < 0 := mul_neg_of_neg_of_pos (by exact_mod_cast hk') hp
  have hcM : c = M := by
    have a1 := h1.1
    have := (h1.2 (M - 1) (by omega)).2 (by linarith)
    omega
  subst hcM
  have hb0 : b = 0 := by
    by_contra hne
    have := (h2 (by omega)).2.2 0 (by omega)
    linarith
  subst hb0
  obtain ⟨hN, hV0⟩ := hv.pos ht
  rw [fastAcf_self (by rw [sumSq_cast]; exact_mod_cast hN.ne')] at h4
  have e1 : ρ = Real.exp (-((k * pow2 e : ℚ) : ℝ) ^ 2 / (2 * (α : ℝ) ^ 2)) := by
    rw [h4]
    show Real.exp _ = _
    rw [sq_abs, neg_div]
  have hρ : |ρ| ≤ 1 := by
    rw [h4]
    have := gauss_bounds (α : ℝ) |((k * pow2 e : ℚ) : ℝ)|
    rw [abs_of_nonneg this.1]
    exact this.2
  rw [← e1]
  refine ⟨v, h3, h5.trans ?_⟩
  have hc : (0 : ℝ) ≤ (250 * V * (c * A ^ 2 / sumSq c x) : ℚ) := by exact_mod_cast (by positivity)
  have := mul_le_mul_of_nonneg_left (show 1 + |ρ| ≤ 2 by linarith) hc
  push_cast at this ⊢
  linarith

/-- **C36 in binary64, Gaussian weight**: the value at lag zero is `1 - dev² / N`, up to the error bound, where `dev` is the deviation of the last sample and `N` the normaliser. -/
theorem C36_binary64_zero_gaussian_partial (ht : Times64 d M τ e) (hv : Values64 d M j x A V) (hM : 2 ≤ M) (hr : autocorrelation .fabs d ga "fast" "gaussian" = .ok r)
    (hα : r.corr.alpha = .fin α) (hα0 : pow2 (e - 400) ≤ α) (hα1 : pow2 (-500) ≤ α) (hα2 : α ≤ pow2 500) (he' : e ≤ 458)
    (hex : ∀ x : ℚ, x ≤ 0 → |(ex x : ℝ) - Real.exp x| ≤ (pow2 (-53) : ℚ))
    (n : ℕ) (hn : r.lags[n]? = some (.fin 0)) (hk : τ (M - 1) - τ 0 ≤ 2 ^ 53) :
    ∃ v : ℚ, r.At j n (.fin 0) (.fin v) ∧
      |v - (1 - dev M x (M - 1) ^ 2 / sumSq M x)| ≤ 250 * V * (M * A ^ 2 / sumSq M x) * (1 + |1 - dev M x (M - 1) ^ 2 / sumSq M x|) := by
  have h00 : ((0 : ℤ) : ℚ) * pow2 e = 0 := by simp
  obtain ⟨b, c, h1, h2, v, ρ, h3, _, h4, h5⟩ := C36_binary64_gaussian_partial ht hv hr hα hα0 hα1 hα2 he' hex n 0 (by rw [h00]; exact hn) (by simpa using hk)
  rw [h00] at h1 h2 h3 h4
  have hp := pow2_pos e
  have hcM : c = M - 1 := by
    have a0 := h1.1
    have a1 := h1.2 (M - 1) (by omega)
    have a2 := (h1.2 (M - 2) (by omega)).2 (by
      have := ht.inc (M - 2) (M - 1) (by omega) (by omega)
      simp only [add_zero]
      rw [mul_lt_mul_iff_left₀ hp, Int.cast_lt]
      exact this)
    have : ¬ M - 1 < c := fun hl => by have := a1.1 hl; simp at this
    omega
  subst hcM
  have hb0 : b = 0 := by
    by_contra hne
    have := (h2 (by omega)).2.2 0 (by omega)
    simp at this
  subst hb0
  obtain ⟨hN, _⟩ := hv.pos ht
  rw [Rat.cast_zero, fastAcf_zero ht.one_le (gauss_zero _) (by rw [sumSq_cast]; exact_mod_cast hN.ne'), dev_cast, sumSq_cast] at h4
  rw [h4] at h5
  exact ⟨v, h3, by exact_mod_cast h5⟩

end fast
end Sacf
