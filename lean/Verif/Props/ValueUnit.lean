import Verif.Lemmas.Dyadic
import Verif.Props.Rounded
import Verif.Props.AnyTimes
import Verif.Cases.Base

/-! C100: the unit of the values.  Multiplying every value by a power of two changes no bit of the result, as long as
the values stay within the range of `float` (they are narrowed to `float` for the normaliser). -/

set_option linter.unusedSectionVars false
set_option linter.unusedVariables false

namespace Sacf

open Arith

variable {ex : ℚ → ℚ} {fu : Bool}

/-- `y = x * 2 ^ s`, or both are missing; both are multiples of `2 ^ e` of size at most `B` -/
def SRel (e s : ℤ) (B : ℚ) (x y : D64 ex fu) : Prop :=
  (x = .nan ∧ y = .nan) ∨ ∃ v, x = .fin v ∧ y = .fin (v * pow2 s) ∧ Lat e v ∧ Lat e (v * pow2 s) ∧
    |v| ≤ B ∧ |v * pow2 s| ≤ B

theorem srel_zero {e s : ℤ} {B : ℚ} (hB : 0 ≤ B) : SRel e s B (Arith.zero : D64 ex fu) Arith.zero := by
  refine Or.inr ⟨0, rfl, by rw [zero_mul]; rfl, Lat.zero, by rw [zero_mul]; exact Lat.zero, by simpa, by simpa⟩

theorem SRel.mono {e f s : ℤ} {B C : ℚ} (he : f ≤ e) (hB : B ≤ C) {x y : D64 ex fu} (h : SRel e s B x y) : SRel f s C x y := by
  rcases h with h | ⟨v, h1, h2, h3, h4, h5, h6⟩
  · exact Or.inl h
  · exact Or.inr ⟨v, h1, h2, h3.mono he, h4.mono he, h5.trans hB, h6.trans hB⟩

/-- one rounding -/
theorem srel_round {e s : ℤ} (he : -1074 ≤ e) {C v : ℚ} (hC : b64 C = C) (hC' : C ≤ big) (h1 : Lat e v)
    (h2 : Lat e (v * pow2 s)) (h3 : |v| ≤ C) (h4 : |v * pow2 s| ≤ C) :
    SRel e s C (XF.round v : D64 ex fu) (XF.round (v * pow2 s)) := by
  rw [d64_round (h3.trans hC'), d64_round (h4.trans hC')]
  have hr : b64 (v * pow2 s) = b64 v * pow2 s :=
    roundTo_mul_pow2 (by norm_num) (h1.mono he) (h2.mono he)
  refine Or.inr ⟨b64 v, rfl, by rw [hr], h1.roundTo (by norm_num) he, ?_, roundTo_abs_le (by norm_num) hC h3, ?_⟩
  · rw [← hr]; exact h2.roundTo (by norm_num) he
  · rw [← hr]; exact roundTo_abs_le (by norm_num) hC h4

theorem srel_add {e s : ℤ} (he : -1074 ≤ e) {A B C : ℚ} (hC : b64 C = C) (hC' : C ≤ big) (hs : A + B ≤ C)
    {x y x' y' : D64 ex fu} (h : SRel e s A x y) (h' : SRel e s B x' y') :
    SRel e s C (Arith.add x x') (Arith.add y y') := by
  rcases h with ⟨rfl, rfl⟩ | ⟨v, rfl, rfl, h1, h2, h3, h4⟩
  · exact Or.inl ⟨add_nan_left _, add_nan_left _⟩
  rcases h' with ⟨rfl, rfl⟩ | ⟨w, rfl, rfl, k1, k2, k3, k4⟩
  · exact Or.inl ⟨add_nan_right _, add_nan_right _⟩
  have := srel_round (ex := ex) (fu := fu) he hC hC' (h1.add k1) (s := s) (by rw [add_mul]; exact h2.add k2)
    ((abs_add_le _ _).trans ((add_le_add h3 k3).trans hs))
    (by rw [add_mul]; exact (abs_add_le _ _).trans ((add_le_add h4 k4).trans hs))
  rw [add_mul] at this
  exact this

theorem srel_neg {e s : ℤ} {A : ℚ} {x y : D64 ex fu} (h : SRel e s A x y) : SRel e s A (Arith.neg x) (Arith.neg y) := by
  rcases h with ⟨rfl, rfl⟩ | ⟨v, rfl, rfl, h1, h2, h3, h4⟩
  · exact Or.inl ⟨rfl, rfl⟩
  · exact Or.inr ⟨-v, rfl, by rw [neg_mul]; rfl, h1.neg, by rw [neg_mul]; exact h2.neg, by rwa [abs_neg],
      by rwa [neg_mul, abs_neg]⟩

theorem srel_sub {e s : ℤ} (he : -1074 ≤ e) {A B C : ℚ} (hC : b64 C = C) (hC' : C ≤ big) (hs : A + B ≤ C)
    {x y x' y' : D64 ex fu} (h : SRel e s A x y) (h' : SRel e s B x' y') :
    SRel e s C (Arith.sub x x') (Arith.sub y y') := by
  have := srel_add he hC hC' hs h (srel_neg h')
  exact this

theorem mul_pow2_mul (v w : ℚ) (s t : ℤ) : v * pow2 s * (w * pow2 t) = v * w * pow2 (s + t) := by
  rw [pow2_add]; ring

theorem abs_mul_le {v w A B : ℚ} (h : |v| ≤ A) (h' : |w| ≤ B) : |v * w| ≤ A * B := by
  rw [abs_mul]
  exact mul_le_mul h h' (abs_nonneg _) ((abs_nonneg _).trans h)

theorem srel_mul {e f s t : ℤ} (he : -1074 ≤ e + f) {A B C : ℚ} (hC : b64 C = C) (hC' : C ≤ big) (hs : A * B ≤ C)
    {x y x' y' : D64 ex fu} (h : SRel e s A x y) (h' : SRel f t B x' y') :
    SRel (e + f) (s + t) C (Arith.mul x x') (Arith.mul y y') := by
  rcases h with ⟨rfl, rfl⟩ | ⟨v, rfl, rfl, h1, h2, h3, h4⟩
  · exact Or.inl ⟨by cases x' <;> rfl, by cases y' <;> rfl⟩
  rcases h' with ⟨rfl, rfl⟩ | ⟨w, rfl, rfl, k1, k2, k3, k4⟩
  · exact Or.inl ⟨rfl, rfl⟩
  have := srel_round (ex := ex) (fu := fu) he hC hC' (h1.mul k1) (s := s + t)
    (by rw [← mul_pow2_mul]; exact h2.mul k2) ((abs_mul_le h3 k3).trans hs)
    (by rw [← mul_pow2_mul]; exact (abs_mul_le h4 k4).trans hs)
  rw [← mul_pow2_mul] at this
  exact this

theorem srel_addMul {e f s t : ℤ} (he : -1074 ≤ e + f) {A B D C E : ℚ} (hC : b64 C = C) (hC' : C ≤ big) (hs : D + E ≤ C)
    (hE : b64 E = E) (hE' : E ≤ big) (hp : A * B ≤ E)
    {c c' x y x' y' : D64 ex fu} (hc : SRel (e + f) (s + t) D c c') (h : SRel e s A x y) (h' : SRel f t B x' y') :
    SRel (e + f) (s + t) C (Arith.addMul c x x') (Arith.addMul c' y y') := by
  cases hf : (Rnd.binary64 ex fu).fused with
  | false =>
    rw [addMul_false hf, addMul_false hf]
    exact srel_add he hC hC' hs hc (srel_mul he hE hE' hp h h')
  | true =>
    rw [addMul_true hf, addMul_true hf]
    rcases h with ⟨rfl, rfl⟩ | ⟨v, rfl, rfl, h1, h2, h3, h4⟩
    · refine Or.inl ⟨?_, ?_⟩
      · rw [fma_eq (by rintro a b ⟨h, _⟩; cases h)]
        rw [show (XF.mul .nan x' : D64 ex fu) = .nan by cases x' <;> rfl]; exact add_nan_right _
      · rw [fma_eq (by rintro a b ⟨h, _⟩; cases h)]
        rw [show (XF.mul .nan y' : D64 ex fu) = .nan by cases y' <;> rfl]; exact add_nan_right _
    rcases h' with ⟨rfl, rfl⟩ | ⟨w, rfl, rfl, k1, k2, k3, k4⟩
    · refine Or.inl ⟨?_, ?_⟩
      · rw [fma_eq (by rintro a b ⟨_, h⟩; cases h)]
        exact add_nan_right _
      · rw [fma_eq (by rintro a b ⟨_, h⟩; cases h)]
        exact add_nan_right _
    rcases hc with ⟨rfl, rfl⟩ | ⟨z, rfl, rfl, c1, c2, c3, c4⟩
    · exact Or.inl ⟨rfl, rfl⟩
    have := srel_round (ex := ex) (fu := fu) he hC hC' (c1.add (h1.mul k1)) (s := s + t)
      (by rw [add_mul, ← mul_pow2_mul]; exact c2.add (h2.mul k2))
      ((abs_add_le _ _).trans ((add_le_add c3 ((abs_mul_le h3 k3).trans hp)).trans hs))
      (by rw [add_mul, ← mul_pow2_mul]
          exact (abs_add_le _ _).trans ((add_le_add c4 ((abs_mul_le h4 k4).trans hp)).trans hs))
    rw [add_mul, ← mul_pow2_mul] at this
    exact this

theorem srel_isNaN {e s : ℤ} {A : ℚ} {x y : D64 ex fu} (h : SRel e s A x y) : Arith.isNaN x = Arith.isNaN y := by
  rcases h with ⟨rfl, rfl⟩ | ⟨v, rfl, rfl, _⟩ <;> rfl

theorem b64_nat_pow2 {n : ℕ} (hn : n ≤ 2 ^ 53) {k : ℤ} (hk : -1074 ≤ k) : b64 (n * pow2 k) = n * pow2 k := by
  have := roundTo_fixed (p := 53) (emin := -1074) (n := n) (e := k) (by norm_num) (by rw [abs_of_nonneg (by omega)]; exact_mod_cast hn) hk
  simpa using this

theorem nat_pow2_le {n : ℕ} (hn : n ≤ 2 ^ 53) {k : ℤ} (hk : k ≤ 970) : n * pow2 k ≤ big := by
  have h1 : (n : ℚ) ≤ 2 ^ 53 := by exact_mod_cast hn
  have h2 : pow2 k ≤ pow2 970 := pow2_mono hk
  have h3 : (2 ^ 53 : ℚ) * pow2 970 ≤ big := by
    unfold big
    rw [show (971 : ℤ) = 970 + 1 by norm_num, pow2_add, pow2_one]
    have := pow2_pos 970
    nlinarith
  refine le_trans ?_ h3
  exact mul_le_mul h1 h2 (pow2_pos k).le (by norm_num)

theorem b64_pow2 {k : ℤ} (hk : -1074 ≤ k) : b64 (pow2 k) = pow2 k := by
  have := b64_nat_pow2 (n := 1) (by norm_num) hk
  simpa using this

theorem pow2_small_le {k : ℤ} (hk : k ≤ 970) : pow2 k ≤ big := by
  have := nat_pow2_le (n := 1) (by norm_num) hk
  simpa using this

theorem pow2_succ (k : ℤ) : pow2 k + pow2 k = pow2 (k + 1) := by rw [pow2_add, pow2_one]; ring

/-- a sum over a list of related numbers -/
theorem srel_sum {s : ℤ} {l l' : List (D64 ex fu)} (h : List.Forall₂ (SRel (-149) s (pow2 127)) l l') :
    ∀ {n : ℕ} {c c' : D64 ex fu}, n + l.length ≤ 2 ^ 53 → SRel (-149) s (n * pow2 127) c c' →
      SRel (-149) s ((n + l.length : ℕ) * pow2 127) (l.foldl Arith.add c) (l'.foldl Arith.add c') := by
  induction h with
  | nil => intro n c c' _ hc; simpa using hc
  | @cons x y l l' hxy _ ih =>
    intro n c c' hn hc
    rw [List.length_cons] at hn ⊢
    have h1 := srel_add (e := -149) (by norm_num) (C := ((n + 1 : ℕ) : ℚ) * pow2 127) (b64_nat_pow2 (by omega) (by norm_num))
      (nat_pow2_le (by omega) (by norm_num)) (by push_cast; linarith) hc hxy
    have := ih (n := n + 1) (by omega) h1
    rw [show n + (l.length + 1) = n + 1 + l.length by omega]
    exact this

/-- a sum of products -/
theorem srel_dot {ι : Type} {s : ℤ} (skip skip' : ι → Bool) (a b a' b' : ι → D64 ex fu) {e f : ℤ} (he : -1074 ≤ e + f) {s' t' : ℤ} (hst : s' + t' = s)
    (l : List ι) (hk : ∀ i ∈ l, skip i = skip' i)
    (ha : ∀ i ∈ l, skip i = false → SRel e s' (pow2 128) (a i) (a' i))
    (hb : ∀ i ∈ l, skip i = false → SRel f t' (pow2 128) (b i) (b' i)) :
    ∀ {n : ℕ} {c c' : D64 ex fu}, n + l.length ≤ 2 ^ 53 → SRel (e + f) s (n * pow2 256) c c' →
      SRel (e + f) s ((n + l.length : ℕ) * pow2 256)
        (l.foldl (fun acc i => if skip i then acc else Arith.addMul acc (a i) (b i)) c)
        (l.foldl (fun acc i => if skip' i then acc else Arith.addMul acc (a' i) (b' i)) c') := by
  subst hst
  induction l with
  | nil => intro n c c' _ hc; simpa using hc
  | cons x l ih =>
    intro n c c' hn hc
    rw [List.length_cons] at hn ⊢
    rw [show n + (l.length + 1) = n + 1 + l.length by omega]
    rw [List.foldl_cons, List.foldl_cons]
    refine ih (fun i hi => hk i (by simp [hi])) (fun i hi => ha i (by simp [hi])) (fun i hi => hb i (by simp [hi])) (by omega) ?_
    rw [← hk x (by simp)]
    cases hs : skip x with
    | true =>
      simp only [if_true]
      refine hc.mono le_rfl ?_
      push_cast
      have := pow2_pos 256
      nlinarith
    | false =>
      simp only [Bool.false_eq_true, if_false]
      exact srel_addMul he (C := ((n + 1 : ℕ) : ℚ) * pow2 256) (b64_nat_pow2 (by omega) (by norm_num))
        (nat_pow2_le (by omega) (by norm_num)) (by push_cast; linarith) (E := pow2 256) (b64_pow2 (by norm_num))
        (pow2_small_le (by norm_num)) (by rw [← pow2_add]; norm_num) hc (ha x (by simp) hs) (hb x (by simp) hs)

/-- the values of one row, before and after the change of unit -/
abbrev VRel (s : ℤ) (row row' : List (D64 ex fu)) : Prop := List.Forall₂ (SRel (-149) s (pow2 127)) row row'

theorem vrel_filter {s : ℤ} {row row' : List (D64 ex fu)} (h : VRel s row row') :
    VRel s (row.filter fun d => !Arith.isNaN d) (row'.filter fun d => !Arith.isNaN d) := by
  induction h with
  | nil => exact List.Forall₂.nil
  | @cons x y l l' hxy _ ih =>
    rw [List.filter_cons, List.filter_cons, srel_isNaN hxy]
    split
    · exact List.Forall₂.cons hxy ih
    · exact ih

theorem d64_ofNat {n : ℕ} (hn : n ≤ 2 ^ 53) : (Arith.ofInt (n : ℤ) : D64 ex fu) = .fin n := by
  show (XF.round ((n : ℤ) : ℚ) : D64 ex fu) = _
  have h1 : b64 n = n := by
    have := b64_nat_pow2 (k := 0) hn (by norm_num)
    simpa [pow2_zero] using this
  have h2 : (n : ℚ) ≤ big := by
    have := nat_pow2_le (k := 0) hn (by norm_num)
    simpa [pow2_zero] using this
  rw [Int.cast_natCast, d64_round (by rwa [abs_of_nonneg (by positivity)]), h1]

/-- the mean -/
theorem srel_mean {s : ℤ} {row row' : List (D64 ex fu)} (h : VRel s row row') (hl : row.length ≤ 2 ^ 53) :
    SRel (-254) s (pow2 127) (meanOf row) (meanOf row') := by
  unfold meanOf
  simp only
  have hf := vrel_filter h
  have hlen := hf.length_eq
  have hle : (row.filter fun d => !Arith.isNaN d).length ≤ 2 ^ 53 := (List.length_filter_le _ _).trans hl
  generalize (row.filter fun d => !Arith.isNaN d) = l at *
  generalize (row'.filter fun d => !Arith.isNaN d) = l' at *
  rw [← hlen, d64_ofNat hle]
  have hsum := srel_sum hf (n := 0) (c := Arith.zero) (c' := Arith.zero) (by omega) (by simpa using srel_zero le_rfl)
  rw [Nat.zero_add] at hsum
  generalize l.foldl Arith.add Arith.zero = S at *
  generalize l'.foldl Arith.add Arith.zero = S' at *
  rcases hsum with ⟨rfl, rfl⟩ | ⟨v, rfl, rfl, h1, h2, h3, h4⟩
  · exact Or.inl ⟨rfl, rfl⟩
  by_cases hz : l.length = 0
  · rw [hz] at h3 ⊢
    have hv : v = 0 := by simpa using h3
    subst hv
    left
    constructor
    · simp [Arith.div, XF.div, XF.infSign]
    · simp [Arith.div, XF.div, XF.infSign]
  have hn0 : (0 : ℚ) < l.length := by exact_mod_cast Nat.pos_of_ne_zero hz
  have hn : (l.length : ℚ) ≤ pow2 53 := by
    rw [show (53 : ℤ) = ((53 : ℕ) : ℤ) by rfl, pow2_nat]
    exact_mod_cast hle
  have hdiv : ∀ x : ℚ, (Arith.div (.fin x) (.fin (l.length : ℚ)) : D64 ex fu) = XF.round (x / l.length) := by
    intro x
    show (if ((l.length : ℕ) : ℚ) = 0 then _ else _) = _
    rw [if_neg hn0.ne']
  have hbd : ∀ x : ℚ, |x| ≤ l.length * pow2 127 → |x / l.length| ≤ pow2 127 := by
    intro x hx
    rw [abs_div, abs_of_pos hn0, div_le_iff₀ hn0]; linarith
  have hlow : ∀ x : ℚ, Lat (-149) x → x / l.length = 0 ∨ pow2 (-202) ≤ |x / l.length| := by
    intro x hx
    by_cases hx0 : x = 0
    · left; rw [hx0, zero_div]
    · right
      rw [abs_div, abs_of_pos hn0, le_div_iff₀ hn0]
      refine le_trans ?_ (hx.le_abs hx0)
      rw [show (-149 : ℤ) = -202 + 53 by norm_num, pow2_add]
      exact mul_le_mul_of_nonneg_left hn (pow2_pos _).le
  rw [hdiv, hdiv]
  have e1 : v * pow2 s / (l.length : ℚ) = v / l.length * pow2 s := by ring
  have hb1 := hbd _ h3
  have hb2 := hbd _ h4
  have hl1 := hlow _ h1
  have hl2 := hlow _ h2
  rw [e1] at hb2 hl2 ⊢
  generalize v / (l.length : ℚ) = m at *
  have hbig : pow2 127 ≤ big := pow2_small_le (by norm_num)
  have hfix : b64 (pow2 127) = pow2 127 := b64_pow2 (by norm_num)
  rw [d64_round (hb1.trans hbig), d64_round (hb2.trans hbig)]
  have hr : b64 (m * pow2 s) = b64 m * pow2 s := by
    by_cases hm : m = 0
    · rw [hm, zero_mul]; show roundTo _ _ _ = roundTo _ _ _ * _; rw [roundTo_zero, zero_mul]
    · have g1 := le_ilog2 (hl1.resolve_left hm)
      have g2 := le_ilog2 (hl2.resolve_left (mul_ne_zero hm (pow2_pos s).ne'))
      rw [abs_mul_pow2, ilog2_mul_pow2 (abs_pos.2 hm)] at g2
      exact roundTo_mul_pow2_normal hm (by push_cast; omega) (by push_cast; omega)
  refine Or.inr ⟨b64 m, rfl, by rw [hr], ?_, ?_, roundTo_abs_le (by norm_num) hfix hb1, ?_⟩
  · have := roundTo_lat (p := 53) (emin := -1074) hl1
    exact this
  · rw [← hr]
    have := roundTo_lat (p := 53) (emin := -1074) hl2
    exact this
  · rw [← hr]; exact roundTo_abs_le (by norm_num) hfix hb2

theorem srel_toFloat {s : ℤ} {x y : D64 ex fu} (h : SRel (-149) s (pow2 127) x y) :
    SRel (-149) s (pow2 127) (Arith.toFloat x) (Arith.toFloat y) := by
  rcases h with ⟨rfl, rfl⟩ | ⟨v, rfl, rfl, h1, h2, h3, h4⟩
  · exact Or.inl ⟨rfl, rfl⟩
  have hfix : roundTo 24 (-149) (pow2 127) = pow2 127 := by
    have := roundTo_fixed (p := 24) (emin := -149) (n := 1) (e := 127) (by norm_num) (by norm_num) (by norm_num)
    simpa using this
  have hclip : ∀ z : ℚ, |z| ≤ pow2 127 → (Arith.toFloat (.fin z) : D64 ex fu) = .fin (roundTo 24 (-149) z) := by
    intro z hz
    have hb := roundTo_abs_le (p := 24) (emin := -149) (by norm_num) hfix hz
    have hmax : pow2 127 ≤ (2 ^ 24 - 1) * pow2 104 := by decide +kernel
    rw [abs_le] at hb
    show (XF.clip (some ((2 ^ 24 - 1) * pow2 104)) (roundTo 24 (-149) z) : D64 ex fu) = _
    unfold XF.clip
    simp only
    rw [if_neg (by linarith), if_neg (by linarith)]
  rw [hclip _ h3, hclip _ h4]
  have hr : roundTo 24 (-149) (v * pow2 s) = roundTo 24 (-149) v * pow2 s := roundTo_mul_pow2 (by norm_num) h1 h2
  refine Or.inr ⟨_, rfl, by rw [hr], h1.roundTo (by norm_num) le_rfl, ?_, roundTo_abs_le (by norm_num) hfix h3, ?_⟩
  · rw [← hr]; exact h2.roundTo (by norm_num) le_rfl
  · rw [← hr]; exact roundTo_abs_le (by norm_num) hfix h4

/-- the deviations from the mean -/
theorem srel_dev {s : ℤ} {x y m m' : D64 ex fu} (h : SRel (-149) s (pow2 127) x y) (hm : SRel (-254) s (pow2 127) m m') :
    SRel (-254) s (pow2 128) (Arith.sub x m) (Arith.sub y m') :=
  srel_sub (by norm_num) (b64_pow2 (by norm_num)) (pow2_small_le (by norm_num)) (le_of_eq (pow2_succ 127))
    (h.mono (by norm_num) le_rfl) hm

theorem foldl_forall₂ {α β : Type} {r : α → α → Prop} {f g : β → α → β} {l l' : List α} (h : List.Forall₂ r l l') :
    ∀ c : β, l'.foldl f c = (l.zip l').foldl (fun acc p => f acc p.2) c ∧ l.foldl g c = (l.zip l').foldl (fun acc p => g acc p.1) c := by
  induction h with
  | nil => intro c; simp
  | cons _ _ ih => intro c; simpa using ⟨(ih _).1, (ih _).2⟩

/-- the normaliser -/
theorem srel_norm {s : ℤ} {row row' : List (D64 ex fu)} (h : VRel s row row') (hl : row.length ≤ 2 ^ 53) :
    SRel (-508) (s + s) (row.length * pow2 256) (normOfRow row (meanOf row)) (normOfRow row' (meanOf row')) := by
  have hm := srel_mean h hl
  generalize meanOf row = m at *
  generalize meanOf row' = m' at *
  unfold normOfRow
  rw [(foldl_forall₂ (f := fun acc x => if Arith.isNaN (Arith.toFloat x) then acc
    else Arith.addMul acc (Arith.sub (Arith.toFloat x) m') (Arith.sub (Arith.toFloat x) m')) (g := fun acc _ => acc) h _).1,
    (foldl_forall₂ (f := fun acc _ => acc) (g := fun acc x => if Arith.isNaN (Arith.toFloat x) then acc
    else Arith.addMul acc (Arith.sub (Arith.toFloat x) m) (Arith.sub (Arith.toFloat x) m)) h _).2]
  have hz : ∀ q ∈ row.zip row', SRel (-149) s (pow2 127) q.1 q.2 := by
    intro q hq
    exact (List.forall₂_iff_zip.1 h).2 hq
  have hlen : (row.zip row').length = row.length := by rw [List.length_zip, ← h.length_eq, min_self]
  have := srel_dot (ex := ex) (fu := fu) (s := s + s) (fun q : D64 ex fu × D64 ex fu => Arith.isNaN (Arith.toFloat q.1))
    (fun q => Arith.isNaN (Arith.toFloat q.2)) (fun q => Arith.sub (Arith.toFloat q.1) m) (fun q => Arith.sub (Arith.toFloat q.1) m)
    (fun q => Arith.sub (Arith.toFloat q.2) m') (fun q => Arith.sub (Arith.toFloat q.2) m') (e := -254) (f := -254) (by norm_num)
    (s' := s) (t' := s) rfl (row.zip row') (fun q hq => srel_isNaN (srel_toFloat (hz q hq)))
    (fun q hq _ => srel_dev (srel_toFloat (hz q hq)) hm) (fun q hq _ => srel_dev (srel_toFloat (hz q hq)) hm)
    (n := 0) (c := Arith.zero) (c' := Arith.zero) (by omega) (by simpa using srel_zero le_rfl)
  rw [Nat.zero_add, hlen] at this
  exact this

/-- a weight that is missing, or in `[0, 1]` and not extremely small -/
def SafeWeight (w : D64 ex fu) : Prop := w = .nan ∨ ∃ v, w = .fin v ∧ 0 ≤ v ∧ v ≤ 1 ∧ Lat (-560) v

theorem SafeWeight.srel {w : D64 ex fu} (h : SafeWeight w) : SRel (-560) 0 1 w w := by
  rcases h with h | ⟨v, h1, h2, h3, h4⟩
  · exact Or.inl ⟨h, h⟩
  · refine Or.inr ⟨v, h1, by rw [pow2_zero, mul_one]; exact h1, h4, by rwa [pow2_zero, mul_one], ?_, ?_⟩
    · rwa [abs_of_nonneg h2]
    · rwa [pow2_zero, mul_one, abs_of_nonneg h2]

/-- the final division: `1 / N`, with `N` and `N * 2 ^ s` -/
theorem srel_quot {s : ℤ} {S S' N N' : D64 ex fu} {e : ℤ} {B : ℚ} {M : ℕ} (hM : M ≤ 2 ^ 53) (hS : SRel e s B S S')
    (hN : SRel (-508) s (M * pow2 256) N N') :
    Arith.mul S (Arith.div Arith.one N) = Arith.mul S' (Arith.div Arith.one N') := by
  have hMq : (M : ℚ) * pow2 256 ≤ pow2 309 := by
    rw [show (309 : ℤ) = ((53 : ℕ) : ℤ) + 256 by norm_num, pow2_add, pow2_nat]
    refine mul_le_mul_of_nonneg_right ?_ (pow2_pos _).le
    exact_mod_cast hM
  rcases hN with ⟨rfl, rfl⟩ | ⟨v, rfl, rfl, h1, h2, h3, h4⟩
  · have : (Arith.div Arith.one .nan : D64 ex fu) = .nan := rfl
    rw [this]
    have hm : ∀ x : D64 ex fu, Arith.mul x .nan = .nan := fun x => by cases x <;> rfl
    rw [hm, hm]
  rcases hS with ⟨rfl, rfl⟩ | ⟨z, rfl, rfl, _⟩
  · have hm : ∀ x : D64 ex fu, (Arith.mul .nan x : D64 ex fu) = .nan := fun x => by cases x <;> rfl
    rw [hm, hm]
  have hdiv : ∀ x : ℚ, (Arith.div Arith.one (.fin x) : D64 ex fu) = if x = 0 then .pinf else XF.round (1 / x) := by
    intro x
    show (if x = 0 then XF.infSign (1 : ℚ) else XF.round (1 / x) : D64 ex fu) = _
    split
    · simp [XF.infSign]
    · rfl
  have hps := pow2_pos s
  by_cases hv : v = 0
  · rw [hv, zero_mul, hdiv, if_pos rfl]
    show (XF.infSign z : D64 ex fu) = XF.infSign (z * pow2 s)
    unfold XF.infSign
    have p1 : 0 < z * pow2 s ↔ 0 < z := by constructor <;> intro h <;> nlinarith
    have p2 : z * pow2 s < 0 ↔ z < 0 := by constructor <;> intro h <;> nlinarith
    simp only [p1, p2]
  · have hv' : v * pow2 s ≠ 0 := mul_ne_zero hv hps.ne'
    rw [hdiv, hdiv, if_neg hv, if_neg hv']
    have hup : ∀ x : ℚ, x ≠ 0 → Lat (-508) x → |1 / x| ≤ pow2 508 := by
      intro x hx hl
      have hx0 := abs_pos.2 hx
      rw [abs_div, abs_one, div_le_iff₀ hx0]
      have := hl.le_abs hx
      calc (1 : ℚ) = pow2 508 * pow2 (-508) := by rw [← pow2_add]; norm_num [pow2_zero]
        _ ≤ _ := mul_le_mul_of_nonneg_left this (pow2_pos _).le
    have hlo : ∀ x : ℚ, x ≠ 0 → |x| ≤ M * pow2 256 → pow2 (-309) ≤ |1 / x| := by
      intro x hx hl
      have hx0 := abs_pos.2 hx
      rw [abs_div, abs_one, le_div_iff₀ hx0]
      calc pow2 (-309) * |x| ≤ pow2 (-309) * pow2 309 := mul_le_mul_of_nonneg_left (hl.trans hMq) (pow2_pos _).le
        _ = 1 := by rw [← pow2_add]; norm_num [pow2_zero]
    have hbig : pow2 508 ≤ big := pow2_small_le (by norm_num)
    rw [d64_round ((hup _ hv h1).trans hbig), d64_round ((hup _ hv' h2).trans hbig)]
    have e1 : 1 / (v * pow2 s) = 1 / v * pow2 (-s) := by
      have := pow2_mul_neg s
      field_simp
      linarith
    have g1 := le_ilog2 (hlo _ hv h3)
    have g2 := le_ilog2 (hlo _ hv' h4)
    rw [e1] at g2 ⊢
    have hi : (1 / v : ℚ) ≠ 0 := one_div_ne_zero hv
    generalize (1 / v : ℚ) = u at *
    rw [abs_mul_pow2, ilog2_mul_pow2 (abs_pos.2 hi)] at g2
    have hr : b64 (u * pow2 (-s)) = b64 u * pow2 (-s) :=
      roundTo_mul_pow2_normal hi (by push_cast; omega) (by push_cast; omega)
    rw [hr]
    show (XF.round (z * b64 u) : D64 ex fu) = XF.round (z * pow2 s * (b64 u * pow2 (-s)))
    congr 1
    have := pow2_mul_neg s
    rw [show z * pow2 s * (b64 u * pow2 (-s)) = z * b64 u * (pow2 s * pow2 (-s)) by ring, this, mul_one]

theorem forall₂_getD {s e : ℤ} {B : ℚ} (hB : 0 ≤ B) {l l' : List (D64 ex fu)} (h : List.Forall₂ (SRel e s B) l l') (i : ℕ) :
    SRel e s B (l.getD i Arith.zero) (l'.getD i Arith.zero) := by
  rw [List.getD_eq_getElem?_getD, List.getD_eq_getElem?_getD]
  by_cases hi : i < l.length
  · have hi' : i < l'.length := by rw [← h.length_eq]; exact hi
    rw [List.getElem?_eq_getElem hi, List.getElem?_eq_getElem hi']
    exact List.Forall₂.get h hi hi'
  · rw [List.getElem?_eq_none (by omega), List.getElem?_eq_none (by rw [← h.length_eq]; omega)]
    exact srel_zero hB

/-- one correlation value -/
theorem corrValue_unit {s : ℤ} {row row' : List (D64 ex fu)} (h : VRel s row row') (hl : row.length ≤ 2 ^ 53)
    {ps : List (D64 ex fu × ℕ)} (hps : ps.length ≤ 2 ^ 53) (hw : ∀ q ∈ ps, SafeWeight q.1) :
    corrValue (row.map fun x => Arith.sub x (meanOf row)) (normOfRow row (meanOf row)) ps
      = corrValue (row'.map fun x => Arith.sub x (meanOf row')) (normOfRow row' (meanOf row')) ps := by
  have hN := srel_norm h hl
  have hm := srel_mean h hl
  have hdev : List.Forall₂ (SRel (-254) s (pow2 128)) (row.map fun x => Arith.sub x (meanOf row))
      (row'.map fun x => Arith.sub x (meanOf row')) := by
    rw [List.forall₂_map_left_iff, List.forall₂_map_right_iff]
    exact h.imp fun x y hxy => srel_dev hxy hm
  unfold corrValue
  generalize (row.map fun x => Arith.sub x (meanOf row)) = ys at *
  generalize (row'.map fun x => Arith.sub x (meanOf row')) = ys' at *
  have hy := forall₂_getD (pow2_pos 128).le hdev
  have hsum := srel_dot (ex := ex) (fu := fu) (s := s + s) (fun _ : (D64 ex fu × ℕ) × ℕ => false) (fun _ => false)
    (fun p => Arith.mul p.1.1 (ys.getD p.2 Arith.zero)) (fun p => ys.getD p.1.2 Arith.zero)
    (fun p => Arith.mul p.1.1 (ys'.getD p.2 Arith.zero)) (fun p => ys'.getD p.1.2 Arith.zero)
    (e := -560 + -254) (f := -254) (by norm_num) (s' := 0 + s) (t' := s) (by ring) ps.zipIdx (fun _ _ => rfl)
    (fun p hp _ => srel_mul (by norm_num) (b64_pow2 (by norm_num)) (pow2_small_le (by norm_num)) (by rw [one_mul])
      (hw p.1 (List.fst_mem_of_mem_zipIdx hp)).srel (hy p.2))
    (fun p _ _ => hy p.1.2) (n := 0) (c := Arith.zero) (c' := Arith.zero) (by simpa using hps) (by simpa using srel_zero le_rfl)
  simp only [Bool.false_eq_true, if_false] at hsum
  exact srel_quot hl hsum hN

theorem rowCorr_unit {s : ℤ} {row row' : List (D64 ex fu)} (h : VRel s row row') (hl : row.length ≤ 2 ^ 53)
    {L : List (D64 ex fu × List (D64 ex fu × ℕ))} (hL : ∀ p ∈ L, p.2.length ≤ 2 ^ 53 ∧ ∀ q ∈ p.2, SafeWeight q.1) :
    rowCorr row' L = rowCorr row L := by
  unfold rowCorr
  apply List.map_congr_left
  intro p hp
  exact (corrValue_unit h hl (hL p hp).1 (hL p hp).2).symm

/-- `x * 2 ^ s` (a missing value stays missing) -/
def inUnit (s : ℤ) : D64 ex fu → D64 ex fu
  | .fin v => .fin (v * pow2 s)
  | x => x

/-- a multiple of the least positive `float`, of size at most `2 ^ 127` -/
def InFloatRange (v : ℚ) : Prop := Lat (-149) v ∧ |v| ≤ pow2 127

/-- the weights of the pairs at a lag -/
theorem lagPlan_weights {F : Type} [Arith F] {a : AbsFn} {sel wt : String} {nt : List F} {α k : F} {ps : List (F × ℕ)}
    (h : lagPlan a sel wt nt α k = .ok ps) : ∀ q ∈ ps, ∃ t ∈ nt, ∃ u ∈ nt, ∃ δ,
      a.app (Arith.sub t (Arith.add u k)) = .ok δ ∧ q.1 = fweight wt α δ := by
  unfold lagPlan at h
  simp only [Res.bind_eq_ok, Res.ok.injEq] at h
  obtain ⟨p, h1, dl, h2, w, h3, rfl⟩ := h
  intro q hq
  have hw : w = fweight wt := by
    by_cases e1 : wt = "gaussian"
    · subst e1; exact (Res.ok.inj h3).symm
    · by_cases e2 : wt = "fractional"
      · subst e2; exact (Res.ok.inj h3).symm
      · by_cases e3 : wt = "fractional_squared"
        · subst e3; exact (Res.ok.inj h3).symm
        · unfold planWt at h3
          rw [if_neg e1, if_neg e2, if_neg e3] at h3
          simp at h3
  subst hw
  have hq1 := (List.of_mem_zip (a := q.1) (b := q.2) hq).1
  obtain ⟨δ, hδ, hqe⟩ := List.mem_map.1 hq1
  obtain ⟨i, hi⟩ := List.mem_iff_getElem?.1 hδ
  have hlen := Res.mapL_length h2
  have hil : i < (p.1.zip p.2).length := by
    rw [← hlen]
    rw [List.getElem?_eq_some_iff] at hi
    exact hi.1
  obtain ⟨y, hy, hy2⟩ := Res.mapL_eq_ok_getElem h2 i _ (List.getElem?_eq_getElem hil)
  rw [hi] at hy
  obtain rfl := Option.some.inj hy
  rw [Res.bind_eq_ok] at hy2
  obtain ⟨t, ht, hy3⟩ := hy2
  have hz := List.getElem_mem hil
  generalize (p.1.zip p.2)[i] = z at *
  have hz2 : z.2 ∈ p.2 := (List.of_mem_zip (a := z.1) (b := z.2) hz).2
  have hsh : ∃ u ∈ nt, z.2 = Arith.add u k := by
    have hsub : z.2 ∈ nt.map fun t => Arith.add t k := by
      unfold planSel at h1
      split at h1
      · rw [Res.bind_eq_ok] at h1
        obtain ⟨_, _, h1⟩ := h1
        obtain rfl := Res.ok.inj h1
        exact (List.takeWhile_sublist _).subset hz2
      · split at h1
        · rw [Res.bind_eq_ok] at h1
          obtain ⟨_, _, h1⟩ := h1
          obtain rfl := Res.ok.inj h1
          exact (List.takeWhile_sublist _).subset hz2
        · simp at h1
    obtain ⟨u, hu, he⟩ := List.mem_map.1 hsub
    exact ⟨u, hu, he.symm⟩
  obtain ⟨u, hu, hzu⟩ := hsh
  rw [atGet_eq_ok] at ht
  refine ⟨t, List.mem_of_getElem? ht, u, hu, δ, ?_, hqe.symm⟩
  rw [← hzu]; exact hy3

/-- **C100** (binary64): every value is multiplied by `2 ^ s`; all values – before and after – are missing or multiples of the least positive `float` of
size at most `2 ^ 127`, and the weights that occur are NaN, or in `[0, 1]` and multiples of `2 ^ -560`.  Then lags and correlations are the same, to
the last bit, for every choice of parameters, selection and weight function; and so are failures. -/
theorem C100_unit (a : AbsFn) {d d' : DS (D64 ex fu)} (hd : Constructed d) (hd' : Constructed d')
    (ht : d.timeseries = d'.timeseries) (s : ℤ) (rows : List (List (D64 ex fu))) (h : d.data2d = .ok rows)
    (h' : d'.data2d = .ok (rows.map fun row => row.map (inUnit s)))
    (hv : ∀ row ∈ rows, row.length ≤ 2 ^ 53 ∧
      ∀ x ∈ row, x = .nan ∨ ∃ v, x = .fin v ∧ InFloatRange v ∧ InFloatRange (v * pow2 s))
    (g : LagArgs (D64 ex fu)) (sel wt : String)
    (hw : ∀ r, autocorrelation a d g sel wt = .ok r → ∀ k ∈ r.lags, ∀ t ∈ d.normT, ∀ u ∈ d.normT, ∀ δ,
      a.app (Arith.sub t (Arith.add u k)) = .ok δ → SafeWeight (fweight wt r.corr.alpha δ)) :
    acOut a d' g sel wt = acOut a d g sel wt := by
  have hnt : d.normT = d'.normT := by
    obtain ⟨t, _, _, _, _, hb⟩ := hd.built
    obtain ⟨t', _, _, _, _, hb'⟩ := hd'.built
    have e : t = t' := by rw [← hb.ht, ← hb'.ht]; exact ht
    subst e
    rw [hb.normT, hb'.normT]
  rw [acOut_table a hd h, acOut_table a hd' h', ← hnt, ← median_of_normT hd hd' hnt]
  apply Res.bind_congr
  intro L hL
  rw [List.map_map]
  congr 2
  apply List.map_congr_left
  intro row hrow
  obtain ⟨hl, hx⟩ := hv row hrow
  have hrel : VRel s row (row.map (inUnit s)) := by
    unfold VRel
    rw [List.forall₂_map_right_iff, List.forall₂_same]
    intro x hxm
    rcases hx x hxm with rfl | ⟨v, rfl, h1, h2⟩
    · exact Or.inl ⟨rfl, rfl⟩
    · exact Or.inr ⟨v, rfl, rfl, h1.1, h2.1, h1.2, h2.2⟩
  refine rowCorr_unit hrel hl ?_
  -- the call succeeds
  have hok : ∃ r, autocorrelation a d g sel wt = .ok r := by
    have he := acOut_table a hd h g sel wt
    rw [hL, Res.ok_bind] at he
    obtain ⟨out, ho, _⟩ := corrOut_ok (rs := rows.map fun row => rowCorr row L)
      (by rw [List.length_map]; exact List.length_pos_of_mem hrow)
    rw [ho, Res.ok_bind] at he
    unfold acOut at he
    rw [Res.bind_eq_ok] at he
    obtain ⟨r, hr, _⟩ := he
    exact ⟨r, hr⟩
  obtain ⟨r, hr⟩ := hok
  obtain ⟨j, hj⟩ := List.mem_iff_getElem?.1 hrow
  obtain ⟨L', hL', hlags, _, hpl⟩ := result_row hd hr (j := j) (row := row) ⟨rows, h, hj⟩
  obtain rfl := Res.ok.inj (hL.symm.trans hL')
  intro p hp
  have hpp := hpl p hp
  have hlen : d.normT.length = row.length := by
    obtain ⟨t, data, err, N, hN, hb⟩ := hd.built
    obtain ⟨hj', hrow'⟩ := hb.row ⟨rows, h, hj⟩
    rw [← hrow', hb.normT, List.length_map, rowOf_length hb.hsize hj']
  refine ⟨?_, ?_⟩
  · have := (lagPlan_bounds hpp).1
    omega
  · intro q hq
    obtain ⟨t, ht, u, hu, δ, hδ, he⟩ := lagPlan_weights hpp q hq
    rw [he]
    exact hw r hr p.1 (by rw [hlags]; exact List.mem_map_of_mem hp) t ht u hu δ hδ

theorem safe_reciprocal {y : ℚ} (h1 : 1 ≤ y) (h2 : y ≤ pow2 402) :
    SafeWeight (Arith.div Arith.one (.fin y) : D64 ex fu) := by
  have h0 : 0 < y := by linarith
  have hlo : pow2 (-402) ≤ 1 / y := by
    rw [le_div_iff₀ h0]
    calc pow2 (-402) * y ≤ pow2 (-402) * pow2 402 := mul_le_mul_of_nonneg_left h2 (pow2_pos _).le
      _ = 1 := by rw [← pow2_add]; norm_num [pow2_zero]
  have hup : 1 / y ≤ 1 := by rw [div_le_one h0]; exact h1
  have hpos : (0 : ℚ) ≤ 1 / y := by positivity
  have hone : b64 1 = 1 := roundTo_one (by norm_num) (by norm_num)
  have hb : (1 : ℚ) ≤ big := by
    have := pow2_small_le (k := 0) (by norm_num)
    rwa [pow2_zero] at this
  right
  refine ⟨b64 (1 / y), ?_, roundTo_nonneg hpos, ?_, ?_⟩
  · show (if y = 0 then _ else XF.round (1 / y) : D64 ex fu) = _
    rw [if_neg h0.ne', d64_round (by rw [abs_of_nonneg hpos]; linarith)]
  · have := b64_mono hup
    rwa [hone] at this
  · refine Lat.mono (e := -402 + 1 - (53 : ℕ)) (by norm_num) (roundTo_lat (.inr ?_))
    rwa [abs_of_nonneg hpos]

/-- the fractional weights are safe unless the distance is more than `2 ^ 200` times `alpha` -/
theorem safe_fractional {wt : String} (hw : wt = "fractional" ∨ wt = "fractional_squared") {α : ℚ} (hα : 0 < α) {δ : ℚ} (h0 : 0 ≤ δ)
    (h : δ ≤ pow2 200 * α) : SafeWeight (fweight wt (.fin α) (.fin δ) : D64 ex fu) := by
  have hq0 : 0 ≤ δ / α := by positivity
  have hq1 : δ / α ≤ pow2 200 := by rw [div_le_iff₀ hα]; exact h
  have hdiv : (Arith.div (.fin δ) (.fin α) : D64 ex fu) = .fin (b64 (δ / α)) :=
    d64_div hα.ne' (by rw [abs_of_nonneg hq0]; exact hq1.trans (pow2_small_le (by norm_num)))
  have hx0 : 0 ≤ b64 (δ / α) := roundTo_nonneg hq0
  have hx1 : b64 (δ / α) ≤ pow2 200 := by
    have := b64_mono hq1
    rwa [b64_pow2 (by norm_num)] at this
  have hone : b64 1 = 1 := roundTo_one (by norm_num) (by norm_num)
  have hrnd : ∀ y : ℚ, 1 ≤ y → y ≤ pow2 402 → (XF.round y : D64 ex fu) = .fin (b64 y) ∧ 1 ≤ b64 y ∧ b64 y ≤ pow2 402 := by
    intro y h1 h2
    refine ⟨d64_round (by rw [abs_of_nonneg (by linarith)]; exact h2.trans (pow2_small_le (by norm_num))), ?_, ?_⟩
    · have := b64_mono h1
      rwa [hone] at this
    · have := b64_mono h2
      rwa [b64_pow2 (by norm_num)] at this
  have hone' : (1 : ℚ) ≤ pow2 200 := by rw [← pow2_zero]; exact pow2_mono (by norm_num)
  have hone'' : (1 : ℚ) ≤ pow2 400 := by rw [← pow2_zero]; exact pow2_mono (by norm_num)
  have e1 : pow2 402 = pow2 400 * 4 := by decide +kernel
  have e2 : pow2 400 = pow2 200 * pow2 200 := by decide +kernel
  generalize b64 (δ / α) = x at *
  have hxx : x * x ≤ pow2 400 := by rw [e2]; exact mul_le_mul hx1 hx1 hx0 (pow2_pos _).le
  have hx4 : x ≤ pow2 400 := hx1.trans (by rw [e2]; nlinarith)
  rcases hw with rfl | rfl
  · show SafeWeight (Arith.div Arith.one (Arith.add Arith.one (Arith.div (.fin δ) (.fin α))))
    rw [hdiv]
    obtain ⟨h1, h2, h3⟩ := hrnd (1 + x) (by linarith) (by linarith)
    have : (Arith.add Arith.one (.fin x) : D64 ex fu) = .fin (b64 (1 + x)) := h1
    rw [this]
    exact safe_reciprocal h2 h3
  · show SafeWeight (Arith.div Arith.one (Arith.addMul Arith.one (Arith.div (.fin δ) (.fin α)) (Arith.div (.fin δ) (.fin α))))
    rw [hdiv]
    have hsum : ∃ y, (Arith.addMul Arith.one (.fin x) (.fin x) : D64 ex fu) = .fin y ∧ 1 ≤ y ∧ y ≤ pow2 402 := by
      cases hf : (Rnd.binary64 ex fu).fused with
      | false =>
        rw [addMul_false hf]
        have hm : (Arith.mul (.fin x) (.fin x) : D64 ex fu) = .fin (b64 (x * x)) :=
          d64_round (by rw [abs_of_nonneg (by positivity)]; exact hxx.trans (pow2_small_le (by norm_num)))
        rw [hm]
        have hm0 : 0 ≤ b64 (x * x) := roundTo_nonneg (by positivity)
        have hm1 : b64 (x * x) ≤ pow2 400 := by
          have := b64_mono hxx
          rwa [b64_pow2 (by norm_num)] at this
        obtain ⟨h1, h2, h3⟩ := hrnd (1 + b64 (x * x)) (by linarith) (by linarith)
        exact ⟨_, h1, h2, h3⟩
      | true =>
        rw [addMul_true hf]
        obtain ⟨h1, h2, h3⟩ := hrnd (1 + x * x) (by nlinarith) (by linarith)
        exact ⟨_, h1, h2, h3⟩
    obtain ⟨y, hy, h2, h3⟩ := hsum
    rw [hy]
    exact safe_reciprocal h2 h3

theorem inFloatRange_of_double {s : ℤ} {x : D64 ex fu} (h : x = .nan ∨ ∃ v, x = .fin v ∧ b64 v = v ∧
      (v = 0 ∨ pow2 (-97) ≤ |v| ∧ |v| ≤ pow2 127 ∧ pow2 (-97) ≤ |v * pow2 s| ∧ |v * pow2 s| ≤ pow2 127)) :
    x = .nan ∨ ∃ v, x = .fin v ∧ InFloatRange v ∧ InFloatRange (v * pow2 s) := by
  rcases h with rfl | ⟨v, rfl, hb, h0 | ⟨h1, h2, h3, h4⟩⟩
  · exact Or.inl rfl
  · refine Or.inr ⟨v, rfl, ?_, ?_⟩
    · rw [h0]; exact ⟨Lat.zero, by rw [abs_zero]; exact (pow2_pos _).le⟩
    · rw [h0, zero_mul]; exact ⟨Lat.zero, by rw [abs_zero]; exact (pow2_pos _).le⟩
  · have hv0 : v ≠ 0 := by
      rintro rfl
      rw [abs_zero] at h1
      exact absurd h1 (not_le.2 (pow2_pos _))
    have g1 := le_ilog2 h1
    have g2 := le_ilog2 h3
    rw [abs_mul_pow2, ilog2_mul_pow2 (abs_pos.2 hv0)] at g2
    have hbs : b64 (v * pow2 s) = v * pow2 s := by
      have : b64 (v * pow2 s) = b64 v * pow2 s := roundTo_mul_pow2_normal hv0 (by push_cast; omega) (by push_cast; omega)
      rw [this, hb]
    refine Or.inr ⟨v, rfl, ⟨?_, h2⟩, ⟨?_, h4⟩⟩
    · have : Lat (-97 + 1 - (53 : ℕ)) (b64 v) := roundTo_lat (.inr h1)
      rw [hb] at this
      exact this
    · have : Lat (-97 + 1 - (53 : ℕ)) (b64 (v * pow2 s)) := roundTo_lat (.inr h3)
      rw [hbs] at this
      exact this

/-- **C100** (binary64, fractional weights): the values are doubles – NaN for a missing one – which before and after the change of the unit are zero or
between `2 ^ -97` and `2 ^ 127` in size; times from the first sample and lags are at most `2 ^ m`, and `alpha` is at least `2 ^ (m - 190)`.  Then nothing
changes in what the call returns. -/
theorem C100_fractional {d d' : DS (D64 ex fu)} (hd : Constructed d) (hd' : Constructed d')
    (ht : d.timeseries = d'.timeseries) (s : ℤ) (rows : List (List (D64 ex fu))) (h : d.data2d = .ok rows)
    (h' : d'.data2d = .ok (rows.map fun row => row.map (inUnit s)))
    (hv : ∀ row ∈ rows, row.length ≤ 2 ^ 53 ∧ ∀ x ∈ row, x = .nan ∨ ∃ v, x = .fin v ∧ b64 v = v ∧
      (v = 0 ∨ pow2 (-97) ≤ |v| ∧ |v| ≤ pow2 127 ∧ pow2 (-97) ≤ |v * pow2 s| ∧ |v * pow2 s| ≤ pow2 127))
    (g : LagArgs (D64 ex fu)) (sel wt : String) (hwt : wt = "fractional" ∨ wt = "fractional_squared")
    (m : ℤ) (hm : -1000 ≤ m) (hm' : m ≤ 900) (hnt : ∀ t ∈ d.normT, ∃ τ, t = .fin τ ∧ |τ| ≤ pow2 m)
    (hr : ∀ r, autocorrelation .fabs d g sel wt = .ok r → (∀ k ∈ r.lags, ∃ κ, k = .fin κ ∧ |κ| ≤ pow2 m) ∧
      ∃ α, r.corr.alpha = .fin α ∧ pow2 (m - 190) ≤ α) :
    acOut .fabs d' g sel wt = acOut .fabs d g sel wt := by
  refine C100_unit .fabs hd hd' ht s rows h h' ?_ g sel wt ?_
  · intro row hrow
    refine ⟨(hv row hrow).1, fun x hx => ?_⟩
    exact inFloatRange_of_double ((hv row hrow).2 x hx)
  · intro r hr' k hk t htm u hum δ hδ
    obtain ⟨hlag, α, hα, hαm⟩ := hr r hr'
    obtain ⟨κ, rfl, hκ⟩ := hlag k hk
    obtain ⟨τ, rfl, hτ⟩ := hnt t htm
    obtain ⟨υ, rfl, hυ⟩ := hnt u hum
    obtain rfl := Res.ok.inj hδ
    rw [hα]
    have hα0 : 0 < α := lt_of_lt_of_le (pow2_pos _) hαm
    have hs1 : |υ + κ| ≤ pow2 (m + 1) := by
      rw [← pow2_succ]; exact (abs_add_le _ _).trans (add_le_add hυ hκ)
    have hadd : (Arith.add (.fin υ) (.fin κ) : D64 ex fu) = .fin (b64 (υ + κ)) :=
      d64_add (hs1.trans (pow2_small_le (by omega)))
    have hs2 : |b64 (υ + κ)| ≤ pow2 (m + 1) := roundTo_abs_le (by norm_num) (b64_pow2 (by omega)) hs1
    have hs3 : |τ - b64 (υ + κ)| ≤ pow2 (m + 2) := by
      rw [show m + 2 = m + 1 + 1 by ring, ← pow2_succ]
      exact (abs_sub _ _).trans (add_le_add (hτ.trans (pow2_mono (by omega))) hs2)
    have hsub : (Arith.sub (.fin τ) (.fin (b64 (υ + κ))) : D64 ex fu) = .fin (b64 (τ - b64 (υ + κ))) :=
      d64_sub (hs3.trans (pow2_small_le (by omega)))
    have hs4 : |b64 (τ - b64 (υ + κ))| ≤ pow2 (m + 2) := roundTo_abs_le (by norm_num) (b64_pow2 (by omega)) hs3
    rw [hadd, hsub]
    show SafeWeight (fweight wt (.fin α) (.fin |b64 (τ - b64 (υ + κ))|))
    refine safe_fractional hwt hα0 (abs_nonneg _) (hs4.trans ?_)
    calc pow2 (m + 2) ≤ pow2 (200 + (m - 190)) := pow2_mono (by omega)
      _ = pow2 200 * pow2 (m - 190) := pow2_add _ _
      _ ≤ _ := mul_le_mul_of_nonneg_left hαm (pow2_pos _).le

/-- **Outside the range of `float` the unit matters** (binary64): the values 1, 2, 6 have correlation 1 at lag zero and less elsewhere, the values
`2 ^ -160` times as large 14/27 (they are narrowed to zero when the normaliser is computed), and the values `2 ^ 130` times as large 0 at every lag. -/
theorem C100_outside : ∃ d d' d'' : DS B, Constructed d ∧ Constructed d' ∧ Constructed d'' ∧
    d.timeseries = d'.timeseries ∧ d.timeseries = d''.timeseries ∧ d.data2d = .ok [b [1, 2, 6]] ∧
    d'.data2d = .ok [(b [1, 2, 6]).map (inUnit (-160))] ∧ d''.data2d = .ok [(b [1, 2, 6]).map (inUnit 130)] ∧
    ∃ r r' r'' : AcResult B, autocorrelation .fabs d {} = .ok r ∧ autocorrelation .fabs d' {} = .ok r' ∧ autocorrelation .fabs d'' {} = .ok r'' ∧
      r.At 0 2 (.fin 0) (.fin 1) ∧ (∃ v, |v - 14/27| ≤ 1/10 ^ 15 ∧ r'.At 0 2 (.fin 0) (.fin v)) ∧ ∀ n k v, r''.At 0 n k v → v = .fin 0 := by
  obtain ⟨d, r, hd, hr, h1, h2, h3, h4⟩ := callOf_ok .fabs (b [0, 1, 2]) [b [1, 2, 6]] {} "natural" "fractional"
    (fun d r => d.timeseries = b [0, 1, 2] ∧ d.data2d = .ok [b [1, 2, 6]] ∧ r.lags[2]? = some (.fin 0) ∧
      (r.corrs.rows[0]?.bind (·[2]?)) = some (.fin 1)) (by decide +kernel)
  obtain ⟨d', r', hd', hr', h1', h2', h3', h4'⟩ := callOf_ok .fabs (b [0, 1, 2]) [(b [1, 2, 6]).map (inUnit (-160))] {} "natural" "fractional"
    (fun d r => d.timeseries = b [0, 1, 2] ∧ d.data2d = .ok [(b [1, 2, 6]).map (inUnit (-160))] ∧ r.lags[2]? = some (.fin 0) ∧
      (r.corrs.rows[0]?.bind (·[2]?)) = some (.fin (4670399613569403 / 9007199254740992))) (by decide +kernel)
  obtain ⟨d'', r'', hd'', hr'', h1'', h2'', h4''⟩ := callOf_ok .fabs (b [0, 1, 2]) [(b [1, 2, 6]).map (inUnit 130)] {} "natural" "fractional"
    (fun d r => d.timeseries = b [0, 1, 2] ∧ d.data2d = .ok [(b [1, 2, 6]).map (inUnit 130)] ∧ r.corrs.rows[0]? = some [.fin 0, .fin 0, .fin 0, .fin 0, .fin 0]) (by decide +kernel)
  refine ⟨d, d', d'', .table hd, .table hd', .table hd'', h1.trans h1'.symm, h1.trans h1''.symm, h2, h2', h2'', r, r', r'', hr, hr', hr'',
    ⟨h3, Option.bind_eq_some_iff.1 h4⟩, ⟨_, ?_, ⟨h3', Option.bind_eq_some_iff.1 h4'⟩⟩, ?_⟩
  · norm_num
  · rintro n k v ⟨_, row, hrow, hv⟩
    rw [h4''] at hrow
    obtain rfl := Option.some.inj hrow
    have := List.mem_of_getElem? hv
    simpa using this

end Sacf
