import Verif.Model.Binary64
import Verif.Lemmas.Result
import Verif.Lemmas.Round
import Mathlib.Algebra.Order.Archimedean.Basic

/-! Rounding errors in binary64, and the lag grid computed with them. -/

set_option linter.unusedSectionVars false
set_option linter.unusedVariables false

namespace Sacf

open Arith

/-- rounding to `double` -/
abbrev b64 (x : ℚ) : ℚ := roundTo 53 (-1074) x

/-- `DBL_MAX` -/
def big : ℚ := (2 ^ 53 - 1) * pow2 971

variable {ex : ℚ → ℚ} {fu : Bool}

/-- binary64 numbers -/
abbrev D64 (ex : ℚ → ℚ) (fu : Bool) := XF (Rnd.binary64 ex fu)

/-- a multiple of the least positive double -/
def IsMul (x : ℚ) : Prop := ∃ n : Int, x = n * pow2 (-1074)

theorem IsMul.add {x y : ℚ} (hx : IsMul x) (hy : IsMul y) : IsMul (x + y) := by
  obtain ⟨a, rfl⟩ := hx
  obtain ⟨b, rfl⟩ := hy
  exact ⟨a + b, by push_cast; ring⟩

theorem IsMul.neg {x : ℚ} (hx : IsMul x) : IsMul (-x) := by
  obtain ⟨a, rfl⟩ := hx
  exact ⟨-a, by push_cast; ring⟩

theorem IsMul.sub {x y : ℚ} (hx : IsMul x) (hy : IsMul y) : IsMul (x - y) := by
  rw [sub_eq_add_neg]; exact hx.add hy.neg

theorem b64_isMul (x : ℚ) : IsMul (b64 x) := by
  obtain ⟨n, e, _, h2, h3, _⟩ := roundTo_form (p := 53) (emin := -1074) x
  obtain ⟨m, hm⟩ := pow2_sub_int h2
  exact ⟨n * m, by rw [b64, h3, hm]; push_cast; ring⟩

/-- relative error of a sum of doubles -/
theorem b64_error {x : ℚ} (hx : IsMul x) : |b64 x - x| ≤ |x| * pow2 (-53) := by
  by_cases h0 : x = 0
  · subst h0; simp [b64, roundTo_zero]
  by_cases hl : lastPlace 53 (-1074) x = -1074
  · obtain ⟨n, rfl⟩ := hx
    have : b64 ((n : ℚ) * pow2 (-1074)) = n * pow2 (-1074) := by
      unfold b64 roundTo
      rw [if_neg h0, hl]
      have : (n : ℚ) * pow2 (-1074) / pow2 (-1074) = n := by
        have := pow2_pos (-1074); field_simp
      rw [this, roundEven_int]
    rw [this, sub_self, abs_zero]
    have := pow2_pos (-53)
    positivity
  · have h1 := roundTo_error (p := 53) (emin := -1074) x
    have hl2 : lastPlace 53 (-1074) x = ilog2 |x| - 52 := by
      unfold lastPlace at hl ⊢
      push_cast at hl ⊢
      omega
    refine h1.trans ?_
    rw [hl2]
    have h2 := (ilog2_spec (abs_pos.2 h0)).1
    have e : pow2 (ilog2 |x| - 52) / 2 = pow2 (ilog2 |x|) * pow2 (-53) := by
      rw [← pow2_add]
      have : ilog2 |x| - 52 = (ilog2 |x| + -53) + 1 := by ring
      rw [this, pow2_add _ 1, pow2_one]; ring
    rw [e]
    exact mul_le_mul_of_nonneg_right h2 (pow2_pos _).le

theorem b64_mono {x y : ℚ} (h : x ≤ y) : b64 x ≤ b64 y := roundTo_mono (by norm_num) h

theorem b64_neg (x : ℚ) : b64 (-x) = -b64 x := roundTo_neg x

theorem b64_big : b64 big = big := by
  have := roundTo_fixed (p := 53) (emin := -1074) (n := 2 ^ 53 - 1) (e := 971) (by norm_num) (by norm_num) (by norm_num)
  have e : big = ((2 ^ 53 - 1 : Int) : ℚ) * pow2 971 := by unfold big; push_cast; ring
  rw [e]; exact this

theorem big_pos : 0 < big := mul_pos (by norm_num) (pow2_pos 971)

/-- integers up to 2^53 are doubles -/
theorem b64_int {n : Int} (h : |n| ≤ 2 ^ 53) : b64 n = n := by
  have := roundTo_fixed (p := 53) (emin := -1074) (n := n) (e := 0) (by norm_num) h (by norm_num)
  simpa [pow2_zero] using this

/-- twice a double -/
theorem b64_two_mul {x : ℚ} (h : b64 x = x) : b64 (2 * x) = 2 * x := by
  obtain ⟨n, e, h1, h2, h3, _⟩ := roundTo_form (p := 53) (emin := -1074) x
  have hx : x = n * pow2 e := by rw [← h]; exact h3
  have := roundTo_fixed (p := 53) (emin := -1074) (n := n) (e := e + 1) (by norm_num) h1 (by omega)
  have e2 : 2 * x = n * pow2 (e + 1) := by rw [hx, pow2_add, pow2_one]; ring
  rw [e2]; exact this

/-- half of the largest double -/
theorem b64_half_big : b64 (big / 2) = big / 2 := by
  have := roundTo_fixed (p := 53) (emin := -1074) (n := 2 ^ 53 - 1) (e := 970) (by norm_num) (by norm_num) (by norm_num)
  have e : big / 2 = ((2 ^ 53 - 1 : Int) : ℚ) * pow2 970 := by
    unfold big
    have : pow2 971 = pow2 970 * 2 := by rw [← pow2_one, ← pow2_add]; rfl
    rw [this]; push_cast; ring
  rw [e]; exact this

theorem d64_round {x : ℚ} (h : |x| ≤ big) : (XF.round x : D64 ex fu) = .fin (b64 x) := by
  rw [abs_le] at h
  have h1 := b64_mono h.2
  have h2 := b64_mono h.1
  rw [b64_neg] at h2
  rw [b64_big] at h1 h2
  show (XF.clip (some big) (b64 x) : D64 ex fu) = _
  unfold XF.clip
  simp only
  rw [if_neg (by linarith), if_neg (by linarith)]

theorem d64_isDouble {x : ℚ} (h : (.fin x : D64 ex fu).IsDouble) : b64 x = x ∧ |x| ≤ big := by
  have h' : (XF.clip (some big) (b64 x) : D64 ex fu) = .fin x := h
  unfold XF.clip at h'
  simp only at h'
  split at h'
  · simp at h'
  · split at h'
    · simp at h'
    · rename_i h1 h2
      simp only [XF.fin.injEq] at h'
      rw [h'] at h1 h2
      exact ⟨h', abs_le.2 ⟨by linarith, by linarith⟩⟩

theorem d64_add {x y : ℚ} (h : |x + y| ≤ big) : Arith.add (.fin x : D64 ex fu) (.fin y) = .fin (b64 (x + y)) := d64_round h

theorem d64_sub {x y : ℚ} (h : |x - y| ≤ big) : Arith.sub (.fin x : D64 ex fu) (.fin y) = .fin (b64 (x - y)) := by
  have := d64_round (ex := ex) (fu := fu) h
  rw [sub_eq_add_neg] at this ⊢
  exact this

theorem d64_div {x y : ℚ} (hy : y ≠ 0) (h : |x / y| ≤ big) :
    Arith.div (.fin x : D64 ex fu) (.fin y) = .fin (b64 (x / y)) := by
  show (if y = 0 then _ else XF.round (x / y)) = _
  rw [if_neg hy, d64_round h]

/-! ### the grid -/

theorem gridPt_succ' {F : Type} [Arith F] (lo res : F) (m : Nat) :
    gridPt lo res (m + 1) = add (gridPt lo res m) res := by
  induction m generalizing lo with
  | zero => rfl
  | succ m ih => rw [gridPt_succ, ih, ← gridPt_succ]

/-- the grid as rational numbers -/
def kGrid (lo r : ℚ) : Nat → ℚ
  | 0 => lo
  | n + 1 => b64 (kGrid lo r n + r)

theorem kGrid_isMul {lo r : ℚ} (h : IsMul lo) (n : Nat) : IsMul (kGrid lo r n) := by
  cases n with
  | zero => exact h
  | succ n => exact b64_isMul _

structure GridHyp (T r : ℚ) : Prop where
  T_mul : IsMul T
  r_mul : IsMul r
  r_pos : 0 < r
  r_le : r ≤ T
  ratio : T ≤ (2 ^ 25 + 1 / 2) * r
  range : 2 * T ≤ big

theorem pow2_m53 : pow2 (-53) = 1 / 2 ^ 53 := by rw [pow2_eq]; norm_num

/-- as long as the points stay below `T`, every step advances by at least `r - 2^-52 T` -/
theorem kGrid_lower {T r : ℚ} (h : GridHyp T r) (n : Nat) (hn : ∀ i < n, kGrid (-T) r i ≤ T) :
    -T + n * (r - T / 2 ^ 52) ≤ kGrid (-T) r n ∧ -T ≤ kGrid (-T) r n ∧
    gridPt (.fin (-T) : D64 ex fu) (.fin r) n = .fin (kGrid (-T) r n) := by
  have hr := h.r_pos
  have hrat := h.ratio
  have hstep : 0 < r - T / 2 ^ 52 := by linarith
  induction n with
  | zero => exact ⟨by simp [kGrid], le_rfl, rfl⟩
  | succ n ih =>
    obtain ⟨h1, h2, h3⟩ := ih fun i hi => hn i (by omega)
    have h4 := hn n (by omega)
    have habs : |kGrid (-T) r n + r| ≤ 2 * T := by
      rw [abs_le]; have := h.r_le; constructor <;> linarith
    have herr := b64_error ((kGrid_isMul (r := r) h.T_mul.neg n).add h.r_mul)
    rw [pow2_m53] at herr
    have herr2 : |b64 (kGrid (-T) r n + r) - (kGrid (-T) r n + r)| ≤ T / 2 ^ 52 := by
      refine herr.trans ?_
      have : |kGrid (-T) r n + r| * (1 / 2 ^ 53) ≤ 2 * T * (1 / 2 ^ 53) := by gcongr
      linarith
    have hlow : kGrid (-T) r n + r - T / 2 ^ 52 ≤ kGrid (-T) r (n + 1) := by
      have := (abs_le.1 herr2).1
      show _ ≤ b64 (kGrid (-T) r n + r)
      linarith
    refine ⟨?_, by linarith, ?_⟩
    · push_cast
      linarith
    · rw [gridPt_succ', h3, d64_add (habs.trans h.range)]
      rfl

theorem grid64 {T r : ℚ} (h : GridHyp T r) :
    ∃ m, GridCount (.fin (-T) : D64 ex fu) (.fin T) (.fin r) m ∧ 1 ≤ m ∧ ((m : ℚ) - 2) * r ≤ 2 * T := by
  have hr := h.r_pos
  have hT : 0 < T := lt_of_lt_of_le hr h.r_le
  have hrat := h.ratio
  have hstep : r / 2 ≤ r - T / 2 ^ 52 := by linarith
  have hex : ∃ m, T < kGrid (-T) r m := by
    by_contra hc
    push Not at hc
    obtain ⟨n, hn⟩ := exists_nat_gt (2 * T / (r / 2))
    have h1 := (kGrid_lower (ex := ex) (fu := false) h n fun i _ => hc i).1
    have h2 := hc n
    rw [div_lt_iff₀ (by linarith)] at hn
    have : (n : ℚ) * (r / 2) ≤ n * (r - T / 2 ^ 52) := by gcongr
    linarith
  classical
  let m := Nat.find hex
  have hm : T < kGrid (-T) r m := Nat.find_spec hex
  have hlt : ∀ i < m, kGrid (-T) r i ≤ T := fun i hi => not_lt.1 (Nat.find_min hex hi)
  have hm1 : 1 ≤ m := by
    by_contra hc
    have : m = 0 := by omega
    rw [this] at hm
    simp only [kGrid] at hm
    linarith
  refine ⟨m, ⟨?_, ?_⟩, hm1, ?_⟩
  · intro i hi
    rw [(kGrid_lower (ex := ex) (fu := fu) h i fun i' hi' => hlt i' (by omega)).2.2]
    simpa using hlt i hi
  · rw [(kGrid_lower (ex := ex) (fu := fu) h m hlt).2.2]
    simpa using hm
  · have h1 := (kGrid_lower (ex := ex) (fu := false) h (m - 1) fun i hi => hlt i (by omega)).1
    have h2 := hlt (m - 1) (by omega)
    have hc : ((m - 1 : Nat) : ℚ) = (m : ℚ) - 1 := by rw [Nat.cast_sub hm1]; simp
    rw [hc] at h1
    generalize (m : ℚ) = x at *
    -- (x - 1) (r - ε) ≤ 2 T and (x - 1) ε ≤ r
    have h3 : (x - 1) * (r - T / 2 ^ 52) ≤ 2 * T := by linarith
    have h4 : (x - 1) * (r / 2) ≤ 2 * T ∨ x - 1 < 0 := by
      by_cases hx : x - 1 < 0
      · exact Or.inr hx
      · left
        push Not at hx
        have : (x - 1) * (r / 2) ≤ (x - 1) * (r - T / 2 ^ 52) := by gcongr
        linarith
    rcases h4 with h4 | h4
    · -- sharper bound on x - 1
      have h5 : (x - 1) * (r * (1 - 1 / 2 ^ 26)) ≤ 2 * T ∨ x - 1 < 0 := by
        by_cases hx : x - 1 < 0
        · exact Or.inr hx
        · left
          push Not at hx
          have : r * (1 - 1 / 2 ^ 26) ≤ r - T / 2 ^ 52 := by linarith
          have : (x - 1) * (r * (1 - 1 / 2 ^ 26)) ≤ (x - 1) * (r - T / 2 ^ 52) := by gcongr
          linarith
      rcases h5 with h5 | h5
      · have h6 : (x - 1) * (1 - 1 / 2 ^ 26) * r ≤ 2 * ((2 ^ 25 + 1 / 2) * r) := by linarith
        have h7 : (x - 1) * (1 - 1 / 2 ^ 26) ≤ 2 * (2 ^ 25 + 1 / 2) := le_of_mul_le_mul_right (by linarith) hr
        have h8 : (x - 1) ≤ 2 ^ 26 + 4 := by linarith
        have h9 : (x - 1) * (T / 2 ^ 52) ≤ r := by
          have hTd : 0 ≤ T / 2 ^ 52 := by positivity
          calc (x - 1) * (T / 2 ^ 52) ≤ (2 ^ 26 + 4) * (T / 2 ^ 52) := by gcongr
            _ ≤ (2 ^ 26 + 4) * (((2 ^ 25 + 1 / 2) * r) / 2 ^ 52) := by gcongr
            _ ≤ r := by linarith
        linarith
      · nlinarith
    · nlinarith

/-! ### times -/

theorem normT_samples64 {M : ℕ} (t : ℕ → ℚ) (h : (samples M t : List (D64 ex fu)) ≠ [])
    (hs : ∀ i < M, |t i - t 0| ≤ big) :
    (samples M t : List (D64 ex fu)).map (fun x => Arith.sub x ((samples M t : List (D64 ex fu)).head h))
      = samples M (fun i => b64 (t i - t 0)) := by
  rw [samples_head]
  unfold samples
  rw [List.map_map]
  apply List.map_congr_left
  intro i hi
  exact d64_sub (hs i (List.mem_range.1 hi))

theorem built_times64 {d : DS (D64 ex fu)} (hd : Constructed d) {M : ℕ} {t : ℕ → ℚ} (ht : d.timeseries = samples M t)
    (hs : ∀ i < M, |t i - t 0| ≤ big) :
    0 < M ∧ d.normT = samples M (fun i => b64 (t i - t 0)) := by
  obtain ⟨t', data, err, N, hN, hb⟩ := hd.built
  have e : t' = samples M t := by rw [← hb.ht]; exact ht
  subst e
  have hM : 0 < M := by
    have := List.length_pos_iff.2 hb.tne
    simpa using this
  exact ⟨hM, by rw [hb.normT, normT_samples64 _ _ hs]⟩

theorem findMinDiff_go64 (l : List ℚ) (a : ℚ) (hs : ∀ i (h : i + 1 < l.length), |l[i + 1] - l[i]| ≤ big) :
    ∃ b, findMinDiff.go (.fin a : D64 ex fu) (l.map .fin) = .fin b ∧ b ≤ a ∧
      (∀ i (h : i + 1 < l.length), b ≤ b64 (l[i + 1] - l[i])) ∧
      (b = a ∨ ∃ i, ∃ (h : i + 1 < l.length), b = b64 (l[i + 1] - l[i])) := by
  induction l generalizing a with
  | nil => exact ⟨a, rfl, le_rfl, by simp, Or.inl rfl⟩
  | cons x l ih =>
    cases l with
    | nil => exact ⟨a, rfl, le_rfl, by simp, Or.inl rfl⟩
    | cons y rest =>
      have hd : Arith.sub (.fin y : D64 ex fu) (.fin x) = .fin (b64 (y - x)) := d64_sub (hs 0 (by simp))
      obtain ⟨b, h1, h2, h3, h4⟩ := ih (if b64 (y - x) < a then b64 (y - x) else a) (fun i hi => by
        have := hs (i + 1) (by simp at hi ⊢; omega)
        simpa using this)
      refine ⟨b, ?_, ?_, ?_, ?_⟩
      · rw [← h1]
        simp only [List.map_cons]
        rw [findMinDiff.go]
        simp only [hd, xf_lt, decide_eq_true_eq]
        split <;> rfl
      · refine h2.trans ?_
        split <;> linarith
      · intro i hi
        cases i with
        | zero =>
          simp only [Nat.zero_add, List.getElem_cons_succ, List.getElem_cons_zero]
          refine h2.trans ?_
          split <;> linarith
        | succ i =>
          have := h3 i (by simp at hi ⊢; omega)
          simpa using this
      · rcases h4 with h4 | ⟨i, hi, h4⟩
        · split at h4
          · exact Or.inr ⟨0, by simp, by simpa using h4⟩
          · exact Or.inl h4
        · exact Or.inr ⟨i + 1, by simp at hi ⊢; omega, by simpa using h4⟩

theorem findMinDiff_samples64 (M : ℕ) (u : ℕ → ℚ) (hs : ∀ i, i + 1 < M → |u (i + 1) - u i| ≤ big) :
    ∃ b, findMinDiff (samples M u : List (D64 ex fu)) = .fin b ∧ (∀ i, i + 1 < M → b ≤ b64 (u (i + 1) - u i)) ∧
      (b = big ∨ ∃ i, i + 1 < M ∧ b = b64 (u (i + 1) - u i)) := by
  obtain ⟨b, h1, h2, h3, h4⟩ := findMinDiff_go64 (ex := ex) ((List.range M).map u) big (by
    intro i hi
    rw [List.getElem_map, List.getElem_map, List.getElem_range, List.getElem_range]
    exact hs i (by simpa using hi))
  rw [← samples_eq_map] at h1
  refine ⟨b, h1, ?_, ?_⟩
  · intro i hi
    have := h3 i (by simpa using hi)
    rwa [List.getElem_map, List.getElem_map, List.getElem_range, List.getElem_range] at this
  · rcases h4 with h4 | ⟨i, hi, h4⟩
    · exact Or.inl h4
    · right
      rw [List.getElem_map, List.getElem_map, List.getElem_range, List.getElem_range] at h4
      exact ⟨i, by simpa using hi, h4⟩

theorem toInt_floor64 (x : ℚ) : Arith.toInt (Arith.floor (.fin x : D64 ex fu)) = some ⌊x⌋ := by
  show XF.toInt (.fin ((⌊x⌋ : Int) : ℚ)) = _
  simp only [XF.toInt]
  split <;> simp

/-- size of the buffers -/
theorem slots64 {T r : ℚ} (hT : b64 T = T) (hr : 0 < r) (h0 : 0 ≤ T) (hb : 2 * T ≤ big) (hq : 2 * T / r ≤ 2 ^ 30) :
    lagSlots (.fin T : D64 ex fu) (.fin (-T)) (.fin r) = .ok (⌊b64 (2 * T / r)⌋ + 3).toNat := by
  unfold lagSlots
  have e : T - -T = 2 * T := by ring
  have hq0 : 0 ≤ 2 * T / r := by positivity
  have hbig : (2 : ℚ) ^ 30 ≤ big := by
    unfold big
    have : (1 : ℚ) ≤ pow2 971 := by rw [← pow2_zero]; exact pow2_mono (by norm_num)
    nlinarith
  have h1 : b64 (2 * T / r) ≤ 2 ^ 30 := by
    have := b64_mono hq
    have e2 : b64 (2 ^ 30) = 2 ^ 30 := by
      have := b64_int (n := 2 ^ 30) (by norm_num)
      push_cast at this
      norm_num at this ⊢
      exact this
    rwa [e2] at this
  have h2 : 0 ≤ b64 (2 * T / r) := roundTo_nonneg hq0
  rw [d64_sub (by rw [e, abs_of_nonneg (by linarith)]; exact hb), e, b64_two_mul hT,
    d64_div hr.ne' (by rw [abs_of_nonneg hq0]; linarith), toInt_floor64]
  have h3 : (0 : Int) ≤ ⌊b64 (2 * T / r)⌋ := Int.floor_nonneg.2 h2
  have h4 : ⌊b64 (2 * T / r)⌋ ≤ 2 ^ 30 := by
    have := Int.floor_le_floor h1
    have e3 : ⌊(2 : ℚ) ^ 30⌋ = 2 ^ 30 := by
      have : (2 : ℚ) ^ 30 = ((2 ^ 30 : Int) : ℚ) := by push_cast; rfl
      rw [this, Int.floor_intCast]
    rwa [e3] at this
  simp only
  norm_num at h4
  rw [if_pos (by constructor <;> omega), if_pos (by omega)]

end Sacf
