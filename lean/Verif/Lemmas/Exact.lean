import Verif.Spec.Acf
import Verif.Lemmas.Reach
import Mathlib.Algebra.BigOperators.Intervals
import Mathlib.Tactic.Ring
import Mathlib.Tactic.FieldSimp
import Mathlib.Tactic.Linarith
import Mathlib.Tactic.Positivity

/-! Facts about the arithmetic `XF R` and about lists of finite samples. -/

set_option linter.unusedSectionVars false
set_option linter.unusedSimpArgs false

namespace Sacf

open Finset

variable {K : Type} [Field K] [LinearOrder K] [IsStrictOrderedRing K] [FloorRing K]

section any
variable {R : Rnd K}

@[simp] theorem xf_zero : (Arith.zero : XF R) = .fin 0 := rfl
@[simp] theorem xf_one : (Arith.one : XF R) = .fin 1 := rfl
@[simp] theorem xf_two : (Arith.two : XF R) = .fin 2 := rfl
@[simp] theorem xf_lt (x y : K) : Arith.lt (.fin x : XF R) (.fin y) = decide (x < y) := rfl
@[simp] theorem xf_le (x y : K) : Arith.le (.fin x : XF R) (.fin y) = decide (x ≤ y) := rfl
@[simp] theorem xf_eq (x y : K) : Arith.eq (.fin x : XF R) (.fin y) = decide (x = y) := rfl
@[simp] theorem xf_neg (x : K) : Arith.neg (.fin x : XF R) = .fin (-x) := rfl
@[simp] theorem xf_fabs (x : K) : Arith.fabs (.fin x : XF R) = .fin |x| := rfl
@[simp] theorem xf_isNaN (x : K) : Arith.isNaN (.fin x : XF R) = false := rfl
@[simp] theorem xf_isNaN_nan : Arith.isNaN (.nan : XF R) = true := rfl
@[simp] theorem xf_dblMax : (Arith.dblMax : XF R) = .fin R.dblMax := rfl
@[simp] theorem xf_floor (x : K) : Arith.floor (.fin x : XF R) = .fin (⌊x⌋ : Int) := rfl

@[simp] theorem samples_length (M : ℕ) (f : ℕ → K) : (samples M f : List (XF R)).length = M := by
  simp [samples]

theorem samples_getElem? {M : ℕ} {f : ℕ → K} {i : ℕ} (h : i < M) :
    (samples M f : List (XF R))[i]? = some (.fin (f i)) := by simp [samples, h]

theorem samples_getD {M : ℕ} {f : ℕ → K} {i : ℕ} (h : i < M) (z : XF R) :
    (samples M f : List (XF R)).getD i z = .fin (f i) := by simp [samples, h]

theorem samples_ne_nil {M : ℕ} {f : ℕ → K} (h : 0 < M) : (samples M f : List (XF R)) ≠ [] := by
  rw [← List.length_pos_iff]; simpa using h

theorem samples_head {M : ℕ} {f : ℕ → K} (h : (samples M f : List (XF R)) ≠ []) :
    (samples M f : List (XF R)).head h = .fin (f 0) := by
  have hM : 0 < M := by rw [← List.length_pos_iff] at h; simpa using h
  rw [List.head_eq_getElem]
  simp [samples]

theorem samples_last {M : ℕ} {f : ℕ → K} (h : 0 < M) :
    lastD (samples M f : List (XF R)) = .fin (f (M - 1)) := by
  have := lastD_eq_getElem (samples_ne_nil (R := R) (f := f) h)
  rw [samples_length, samples_getElem? (by omega)] at this
  simpa using this.symm

theorem samples_congr {M : ℕ} {f g : ℕ → K} (h : ∀ i < M, f i = g i) :
    (samples M f : List (XF R)) = samples M g := by
  unfold samples
  apply List.map_congr_left
  intro i hi
  rw [h i (List.mem_range.1 hi)]

theorem samples_mem {M : ℕ} {f : ℕ → K} {x : XF R} :
    x ∈ (samples M f : List (XF R)) ↔ ∃ i < M, .fin (f i) = x := by
  simp [samples]

end any

theorem clip_mono {R : Rnd K} {b : Option K} (hb : ∀ c ∈ b, 1 ≤ c) {x y : K} (h : x ≤ y) :
    XF.le (XF.clip b x : XF R) (XF.clip b y) = true := by
  unfold XF.clip
  cases b with
  | none => simpa [XF.le] using h
  | some c =>
    have hc := hb c (by simp)
    simp only
    split <;> rename_i h1
    · rw [if_pos (by linarith)]; rfl
    · split <;> rename_i h2
      · split
        · rfl
        · split <;> rfl
      · split
        · rfl
        · rw [if_neg (by linarith)]; simpa [XF.le] using h

theorem round_mono {R : Rnd K} {x y : K} (h : x ≤ y) : XF.le (XF.round x : XF R) (XF.round y) = true :=
  clip_mono R.maxFin_ge_one (R.rnd_mono x y h)

theorem round_zero {R : Rnd K} : (XF.round 0 : XF R) = .fin 0 := by
  unfold XF.round XF.clip
  rw [R.rnd_zero]
  cases h : R.maxFin with
  | none => rfl
  | some c =>
    have := R.maxFin_ge_one c (by simp [h])
    simp only
    rw [if_neg (by linarith), if_neg (by linarith)]

section exact
variable {dm : K} {f32 ex : K → K}

local notation "E" => XF (Rnd.exact dm f32 ex)

@[simp] theorem ex_round (x : K) : (XF.round x : E) = .fin x := rfl
@[simp] theorem ex_add (x y : K) : Arith.add (.fin x : E) (.fin y) = .fin (x + y) := rfl
@[simp] theorem ex_sub (x y : K) : Arith.sub (.fin x : E) (.fin y) = .fin (x - y) := by
  rw [sub_eq_add_neg]; rfl
@[simp] theorem ex_mul (x y : K) : Arith.mul (.fin x : E) (.fin y) = .fin (x * y) := rfl
@[simp] theorem ex_addMul (c a b : E) : Arith.addMul c a b = Arith.add c (Arith.mul a b) := rfl
theorem ex_div {x y : K} (h : y ≠ 0) : Arith.div (.fin x : E) (.fin y) = .fin (x / y) := by
  show XF.div _ _ = _
  simp [XF.div, h]
@[simp] theorem ex_ofInt (n : Int) : (Arith.ofInt n : E) = .fin (n : K) := rfl
@[simp] theorem ex_toFloat (x : K) : Arith.toFloat (.fin x : E) = .fin (f32 x) := rfl
@[simp] theorem ex_exp (x : K) : Arith.exp (.fin x : E) = .fin (ex x) := rfl

theorem foldl_add_samples (M : ℕ) (x : ℕ → K) (a : K) :
    (samples M x : List E).foldl Arith.add (.fin a) = .fin (a + ∑ i ∈ range M, x i) := by
  induction M with
  | zero => simp [samples]
  | succ M ih =>
    unfold samples at *
    rw [List.range_succ, List.map_append, List.foldl_append, ih, Finset.sum_range_succ]
    simp [add_assoc]

theorem meanOf_samples {M : ℕ} (hM : 0 < M) (x : ℕ → K) :
    meanOf (samples M x : List E) = .fin (mean M x) := by
  unfold meanOf
  have hf : (samples M x : List E).filter (fun d => !Arith.isNaN d) = samples M x := by
    rw [List.filter_eq_self]
    intro a ha
    obtain ⟨i, _, rfl⟩ := samples_mem.1 ha
    rfl
  have h0 : ((M : ℤ) : K) ≠ 0 := by
    have : (M : K) ≠ 0 := by exact_mod_cast hM.ne'
    simpa using this
  simp only [hf, xf_zero, foldl_add_samples, samples_length, ex_ofInt]
  rw [ex_div h0]
  simp [mean]

theorem dev_samples {M : ℕ} (hM : 0 < M) (x : ℕ → K) :
    (samples M x : List E).map (fun v => Arith.sub v (meanOf (samples M x : List E)))
      = samples M (dev M x) := by
  rw [meanOf_samples hM]
  unfold samples
  rw [List.map_map]
  apply List.map_congr_left
  intro i _
  simp [dev]

/-- the normaliser as computed, with the data narrowed by `f32` -/
theorem normOfRow_samples (M : ℕ) (x : ℕ → K) (m : K) :
    normOfRow (samples M x : List E) (.fin m) = .fin (∑ i ∈ range M, (f32 (x i) - m) ^ 2) := by
  unfold normOfRow
  induction M with
  | zero => simp [samples]
  | succ M ih =>
    unfold samples at *
    rw [List.range_succ, List.map_append, List.foldl_append, ih, Finset.sum_range_succ]
    simp [pow_two]

theorem normT_samples {M : ℕ} (t : ℕ → K) (h : (samples M t : List E) ≠ []) :
    (samples M t : List E).map (fun x => Arith.sub x ((samples M t : List E).head h))
      = samples M (fun i => t i - t 0) := by
  rw [samples_head]
  unfold samples
  rw [List.map_map]
  apply List.map_congr_left
  intro i _
  simp

theorem Increasing.le {M : ℕ} {t : ℕ → K} (h : Increasing M t) {i j : ℕ} (hij : i ≤ j) (hj : j < M) :
    t i ≤ t j := by
  rcases Nat.lt_or_eq_of_le hij with h1 | h1
  · exact (h i j h1 hj).le
  · rw [h1]

/-- what `findMinDiff` computes -/
theorem findMinDiff_go (l : List K) (a : K) :
    ∃ b, findMinDiff.go (.fin a : E) (l.map .fin) = .fin b ∧ b ≤ a ∧
      (∀ i (h : i + 1 < l.length), b ≤ l[i + 1] - l[i]) ∧
      (b = a ∨ ∃ i, ∃ (h : i + 1 < l.length), b = l[i + 1] - l[i]) := by
  induction l generalizing a with
  | nil => exact ⟨a, rfl, le_rfl, by simp, Or.inl rfl⟩
  | cons x l ih =>
    cases l with
    | nil => exact ⟨a, rfl, le_rfl, by simp, Or.inl rfl⟩
    | cons y rest =>
      obtain ⟨b, h1, h2, h3, h4⟩ := ih (if y - x < a then y - x else a)
      refine ⟨b, ?_, ?_, ?_, ?_⟩
      · rw [← h1]
        simp only [List.map_cons, findMinDiff.go, ex_sub, xf_lt, decide_eq_true_eq]
        split <;> rfl
      · split at h2 <;> linarith
      · intro i hi
        cases i with
        | zero =>
          simp only [List.getElem_cons_succ, List.getElem_cons_zero]
          split at h2
          · exact h2
          · push Not at *; linarith
        | succ i => exact h3 i (by simpa using hi)
      · rcases h4 with h4 | ⟨i, hi, h4⟩
        · split at h4
          · right; exact ⟨0, by simp, by simpa using h4⟩
          · left; exact h4
        · right; exact ⟨i + 1, by simpa using hi, h4⟩

theorem samples_eq_map (M : ℕ) (f : ℕ → K) {R : Rnd K} :
    (samples M f : List (XF R)) = ((List.range M).map f).map .fin := by
  simp [samples]

theorem findMinDiff_samples (M : ℕ) (u : ℕ → K) :
    ∃ b, findMinDiff (samples M u : List E) = .fin b ∧ b ≤ dm ∧ (∀ i, i + 1 < M → b ≤ u (i + 1) - u i) ∧
      (b = dm ∨ ∃ i, i + 1 < M ∧ b = u (i + 1) - u i) := by
  obtain ⟨b, h1, h2, h3, h4⟩ := findMinDiff_go (dm := dm) (f32 := f32) (ex := ex) ((List.range M).map u) dm
  rw [← samples_eq_map] at h1
  refine ⟨b, h1, h2, ?_, ?_⟩
  · intro i hi
    have := h3 i (by simpa using hi)
    rwa [List.getElem_map, List.getElem_map, List.getElem_range, List.getElem_range] at this
  · rcases h4 with h4 | ⟨i, hi, h4⟩
    · exact Or.inl h4
    · right
      rw [List.getElem_map, List.getElem_map, List.getElem_range, List.getElem_range] at h4
      exact ⟨i, by simpa using hi, h4⟩

theorem IsMinGap.unique {M : ℕ} {t : ℕ → K} {δ δ' : K} (h : IsMinGap M t δ) (h' : IsMinGap M t δ') :
    δ = δ' := by
  obtain ⟨⟨i, j, hij, hj, he⟩, h2⟩ := h
  obtain ⟨⟨i', j', hij', hj', he'⟩, h2'⟩ := h'
  have a := h2 i' j' hij' hj'
  have b := h2' i j hij hj
  linarith

theorem findMinDiff_gap {M : ℕ} {u : ℕ → K} (hM : 2 ≤ M) (hu : Increasing M u)
    (hspan : u (M - 1) - u 0 ≤ dm) :
    ∃ δ, findMinDiff (samples M u : List E) = .fin δ ∧ IsMinGap M u δ ∧ 0 < δ := by
  obtain ⟨b, h1, h2, h3, h4⟩ := findMinDiff_samples (dm := dm) (f32 := f32) (ex := ex) M u
  have hattain : ∃ i, i + 1 < M ∧ b = u (i + 1) - u i := by
    rcases h4 with h4 | h4
    · refine ⟨0, by omega, ?_⟩
      have := h3 0 (by omega)
      have h5 := hu.le (show 1 ≤ M - 1 by omega) (by omega)
      simp only [Nat.zero_add] at this ⊢
      linarith
    · exact h4
  obtain ⟨i, hi, hb⟩ := hattain
  refine ⟨b, h1, ⟨⟨i, i + 1, by omega, hi, hb.symm⟩, ?_⟩, ?_⟩
  · intro i' j' hij hj
    have a := h3 i' (by omega)
    have := hu.le (show i' + 1 ≤ j' by omega) hj
    linarith
  · have := hu i (i + 1) (by omega) hi
    linarith

theorem toInt_floor (x : K) : Arith.toInt (Arith.floor (.fin x : E)) = some ⌊x⌋ := by
  show XF.toInt (.fin ((⌊x⌋ : Int) : K)) = _
  simp only [XF.toInt]
  split <;> simp

theorem slots_exact {T δ : K} (hδ : δ ≠ 0) :
    lagSlots (.fin T : E) (.fin (-T)) (.fin δ)
      = if -2147483648 ≤ ⌊2 * T / δ⌋ ∧ ⌊2 * T / δ⌋ + 3 < 2147483648 then
          (if 0 ≤ ⌊2 * T / δ⌋ + 3 then .ok (⌊2 * T / δ⌋ + 3).toNat else .ub)
        else .ub := by
  unfold lagSlots
  have : T - -T = 2 * T := by ring
  rw [ex_sub, this, ex_div hδ, toInt_floor]

theorem Increasing.sub_const {M : ℕ} {t : ℕ → K} (h : Increasing M t) (c : K) :
    Increasing M (fun i => t i - c) := fun i j hij hj => by have := h i j hij hj; simp; linarith

/-- times of a constructed data structure -/
theorem built_times {d : DS E} (hd : Constructed d) {M : ℕ} {t : ℕ → K} (ht : d.timeseries = samples M t) :
    0 < M ∧ d.normT = samples M (fun i => t i - t 0) ∧ d.M = M := by
  obtain ⟨t', data, err, N, hN, hb⟩ := hd.built
  have e : t' = samples M t := by rw [← hb.ht]; exact ht
  subst e
  have hM : 0 < M := by
    have := List.length_pos_iff.2 hb.tne
    simpa using this
  exact ⟨hM, by rw [hb.normT, normT_samples], by rw [hb.hM]; simp⟩

/-! ### one lag with natural selection -/

theorem takeWhile_all {α : Type} {p : α → Bool} {l : List α} (h : ∀ a ∈ l, p a = true) :
    l.takeWhile p = l := by
  induction l with
  | nil => rfl
  | cons a l ih => rw [List.takeWhile_cons, if_pos (h a (by simp)), ih fun b hb => h b (by simp [hb])]

theorem takeWhile_range {α : Type} (p : α → Bool) (f : ℕ → α) (M : ℕ)
    (hmono : ∀ i j, i ≤ j → j < M → p (f j) = true → p (f i) = true) :
    ∃ m ≤ M, ((List.range M).map f).takeWhile p = (List.range m).map f ∧ ∀ i < M, (i < m ↔ p (f i) = true) := by
  induction M with
  | zero => exact ⟨0, le_rfl, rfl, by simp⟩
  | succ M ih =>
    obtain ⟨m, hm, h1, h2⟩ := ih (fun i j hij hj => hmono i j hij (by omega))
    by_cases hmM : m = M
    · subst hmM
      by_cases hp : p (f m) = true
      · refine ⟨m + 1, le_rfl, ?_, ?_⟩
        · apply takeWhile_all
          intro a ha
          obtain ⟨i, hi, rfl⟩ := List.mem_map.1 ha
          exact hmono i m (by have := List.mem_range.1 hi; omega) (by omega) hp
        · intro i hi
          simp only [hi, true_iff]
          exact hmono i m (by omega) (by omega) hp
      · refine ⟨m, by omega, ?_, ?_⟩
        · rw [List.range_succ, List.map_append, List.takeWhile_append]
          rw [h1]
          simp [hp]
        · intro i hi
          by_cases him : i < m
          · exact h2 i him
          · have : i = m := by omega
            subst this; simpa using hp
    · refine ⟨m, by omega, ?_, ?_⟩
      · rw [List.range_succ, List.map_append, List.takeWhile_append, h1]
        simp
        omega
      · intro i hi
        by_cases him : i < M
        · exact h2 i him
        · have : i = M := by omega
          subst this
          constructor
          · intro h; omega
          · intro h
            have := (h2 m (by omega)).2 (hmono m i (by omega) (by omega) h)
            omega

/-- natural selection finds the nearest sample -/
theorem selectNat_nearest {M : ℕ} {u : ℕ → K} (hM : 0 < M) (hu : Increasing M u) {s : K}
    (hs : s ≤ u (M - 1)) :
    ∃ j, Corr.selectNat .fabs (samples M u : List E) (.fin s) = .ok j ∧ IsNearest M u s j := by
  have hlast : Arith.lt (lastD (samples M u : List E)) (.fin s) = false := by
    rw [samples_last hM]; simpa using hs
  obtain ⟨r, j, h1, h2, h3, h4, h5, h6⟩ := selectNat_fabs (samples_ne_nil hM) hlast
  rw [samples_length] at *
  refine ⟨j, h4, h5, ?_⟩
  have hr : s ≤ u r := by
    obtain ⟨x, hx, hl⟩ := h2.above h3
    rw [samples_getElem? h3] at hx
    simp at hx; subst hx
    simpa using hl
  have hr1 : 0 < r → u (r - 1) < s := by
    intro h0
    obtain ⟨x, hx, hl⟩ := h2.below h0
    rw [samples_getElem? (by omega)] at hx
    simp at hx; subst hx
    simpa using hl
  have above : ∀ i, r < i → i < M → |u r - s| < |u i - s| := by
    intro i hi hiM
    have := hu r i hi hiM
    rw [abs_of_nonneg (by linarith), abs_of_nonneg (by linarith)]; linarith
  have below : ∀ i, i < r - 1 → |u (r - 1) - s| < |u i - s| := by
    intro i hi
    have h := hu i (r - 1) hi (by omega)
    have := hr1 (by omega)
    rw [abs_of_nonpos (by linarith), abs_of_nonpos (by linarith)]; linarith
  rcases h6 with ⟨h0, rfl⟩ | ⟨h0, lo, hi, hlo, hhi, hj⟩
  · intro i hi
    by_cases hi0 : i = 0
    · right; subst hi0; simp
    · left; have := above i (by omega) hi; rwa [h0] at this
  · rw [samples_getElem? (by omega)] at hlo
    rw [samples_getElem? h3] at hhi
    simp only [Option.some.injEq] at hlo hhi
    subst hlo hhi
    simp only [ex_sub, xf_fabs, xf_lt, decide_eq_true_eq] at hj
    rw [abs_sub_comm s, abs_sub_comm s] at hj
    split at hj
    · rename_i hlt
      subst hj
      intro i hi
      rcases Nat.lt_trichotomy i (r - 1) with h | h | h
      · left; exact below i h
      · right; subst h; simp
      · left
        rcases Nat.lt_or_eq_of_le (show r ≤ i by omega) with h' | h'
        · exact lt_trans hlt (above i h' hi)
        · rw [← h']; exact hlt
    · rename_i hlt
      subst hj
      push Not at hlt
      intro i hi
      rcases Nat.lt_trichotomy i j with h | h | h
      · rcases Nat.lt_or_eq_of_le (show i ≤ j - 1 by omega) with h' | h'
        · left; exact lt_of_le_of_lt hlt (below i h')
        · rcases lt_or_eq_of_le hlt with h'' | h''
          · left; rw [h']; exact h''
          · right; rw [h']; exact ⟨h'', by omega⟩
      · right; subst h; simp
      · left; exact above i h hi

theorem planNat_nearest {M : ℕ} {u : ℕ → K} (hM : 0 < M) (hu : Increasing M u) (k : K) :
    ∃ (m : ℕ) (s : ℕ → ℕ), m ≤ M ∧ (∀ i < M, (i < m ↔ u i + k ≤ u (M - 1))) ∧
      (∀ i < m, IsNearest M u (u i + k) (s i)) ∧
      shiftedNat (samples M u : List E) (.fin k) = samples m (fun i => u i + k) ∧
      planNat .fabs (samples M u : List E) (.fin k) = .ok ((List.range m).map s) := by
  classical
  obtain ⟨m, hm, h1, h2⟩ := takeWhile_range (fun s => !Arith.lt (.fin (u (M - 1)) : E) s)
    (fun i => (.fin (u i + k) : E)) M (by
      intro i j hij hj h
      have := hu.le hij hj
      simp at h ⊢
      linarith)
  have hsh : shiftedNat (samples M u : List E) (.fin k) = samples m (fun i => u i + k) := by
    unfold shiftedNat
    rw [samples_last hM]
    unfold samples
    rw [List.map_map]
    exact h1
  have hmem : ∀ i < M, (i < m ↔ u i + k ≤ u (M - 1)) := by
    intro i hi
    rw [h2 i hi]; simp
  have hsel : ∀ i, ∃ j, i < m → (Corr.selectNat .fabs (samples M u : List E) (.fin (u i + k)) = .ok j ∧
      IsNearest M u (u i + k) j) := by
    intro i
    by_cases hi : i < m
    · obtain ⟨j, hj⟩ := selectNat_nearest (dm := dm) (f32 := f32) (ex := ex) hM hu
        ((hmem i (by omega)).1 hi)
      exact ⟨j, fun _ => hj⟩
    · exact ⟨0, fun h => absurd h hi⟩
  choose s hs using hsel
  refine ⟨m, s, hm, hmem, fun i hi => (hs i hi).2, hsh, ?_⟩
  unfold planNat
  rw [hsh]
  unfold samples
  rw [Res.mapL_map]
  exact Res.mapL_ok fun i hi => (hs i (List.mem_range.1 hi)).1

/-- the weight function of the model is the specified one -/
theorem planWt_weight {wt : String} (hw : KnownWeight wt) {α : K} (hα : 0 < α) :
    ∃ w, planWt (F := E) wt = .ok w ∧ ∀ δ, 0 ≤ δ → w (.fin α) (.fin δ) = .fin (weight ex wt α δ) := by
  rcases hw with rfl | rfl | rfl
  · refine ⟨_, rfl, fun δ hδ => ?_⟩
    simp only [Corr.gaussianWeight, weight, if_true, ex_mul, xf_neg, xf_two]
    rw [ex_div (by positivity), ex_exp]
    congr 2
    ring
  · refine ⟨_, rfl, fun δ hδ => ?_⟩
    have : (0 : K) ≤ δ / α := by positivity
    simp only [Corr.fractionWeight, weight, xf_one]
    rw [ex_div hα.ne', ex_add, ex_div (by linarith)]
    simp
  · refine ⟨_, rfl, fun δ hδ => ?_⟩
    have : (0 : K) ≤ (δ / α) * (δ / α) := by positivity
    simp only [Corr.fractionSquaredWeight, weight, xf_one]
    rw [ex_div hα.ne', ex_addMul, ex_mul, ex_add, ex_div (by linarith)]
    simp [pow_two]

/-- the pairs of one lag -/
theorem lagPlan_exact {M : ℕ} {u : ℕ → K} (hM : 0 < M) (hu : Increasing M u) {wt : String}
    (hw : KnownWeight wt) {α : K} (hα : 0 < α) (k : K) :
    ∃ (m : ℕ) (s : ℕ → ℕ), m ≤ M ∧ (∀ i < M, (i < m ↔ u i + k ≤ u (M - 1))) ∧
      (∀ i < m, IsNearest M u (u i + k) (s i)) ∧
      lagPlan .fabs "natural" wt (samples M u : List E) (.fin α) (.fin k)
        = .ok ((List.range m).map fun i => (.fin (weight ex wt α |u (s i) - (u i + k)|), s i)) := by
  obtain ⟨m, s, h1, h2, h3, h4, h5⟩ := planNat_nearest (dm := dm) (f32 := f32) (ex := ex) hM hu k
  obtain ⟨w, hw1, hw2⟩ := planWt_weight (dm := dm) (f32 := f32) (ex := ex) hw hα
  refine ⟨m, s, h1, h2, h3, ?_⟩
  unfold lagPlan planSel
  rw [if_neg (by decide), if_pos rfl, h5]
  simp only [Res.ok_bind]
  rw [planDelta_fabs (by
    intro j hj
    obtain ⟨i, hi, rfl⟩ := List.mem_map.1 hj
    rw [samples_length]; exact (h3 i (List.mem_range.1 hi)).1), hw1, h4]
  simp only [Res.ok_bind]
  congr 1
  apply List.ext_getElem
  · simp [samples]
  · intro i hi1 hi2
    have hi : i < m := by simpa using hi2
    have hsM := (h3 i hi).1
    simp only [List.getElem_zip, List.getElem_map, List.getElem_range, samples]
    rw [Prod.mk.injEq]
    refine ⟨?_, rfl⟩
    have := samples_getD (R := Rnd.exact dm f32 ex) (f := u) hsM (Arith.zero)
    unfold samples at this
    rw [this]
    simp only [ex_sub, xf_fabs]
    exact hw2 _ (abs_nonneg _)

/-- the value of one correlation -/
theorem corrValue_samples {M m : ℕ} (hm : m ≤ M) (y w : ℕ → K) (s : ℕ → ℕ) (hs : ∀ i < m, s i < M) {n : K}
    (hn : n ≠ 0) :
    corrValue (samples M y : List E) (.fin n) ((List.range m).map fun i => (.fin (w i), s i))
      = .fin ((∑ i ∈ range m, w i * y i * y (s i)) / n) := by
  have key : ∀ m ≤ M, (∀ i < m, s i < M) →
      ((List.range m).map fun i => ((.fin (w i) : E), s i)).zipIdx.foldl
        (fun acc p => Arith.addMul acc (Arith.mul p.1.1 ((samples M y).getD p.2 Arith.zero))
          ((samples M y).getD p.1.2 Arith.zero)) (.fin 0)
      = .fin (∑ i ∈ range m, w i * y i * y (s i)) := by
    intro m
    induction m with
    | zero => simp
    | succ m ih =>
      intro hm hs
      rw [List.range_succ, List.map_append, List.zipIdx_append, List.foldl_append,
        ih (by omega) (fun i hi => hs i (by omega)), Finset.sum_range_succ]
      have e1 := samples_getD (R := Rnd.exact dm f32 ex) (f := y) (show m < M by omega) (Arith.zero)
      have e2 := samples_getD (R := Rnd.exact dm f32 ex) (f := y) (hs m (by omega)) (Arith.zero)
      simp only [List.map_cons, List.map_nil, List.zipIdx_cons, List.zipIdx_nil, List.foldl_cons,
        List.foldl_nil, List.length_map, List.length_range, Nat.zero_add, e1, e2, ex_addMul, ex_mul, ex_add]
  unfold corrValue
  have key := key m hm hs
  simp only [xf_zero, xf_one] at key ⊢
  rw [key, ex_div hn, ex_mul]
  congr 1
  ring

end exact

end Sacf
