import Verif.Spec.Error
import Verif.Lemmas.Round
import Mathlib.Tactic.Linarith
import Mathlib.Tactic.Ring
import Mathlib.Tactic.FieldSimp
import Mathlib.Algebra.Order.BigOperators.Group.Finset

/-! Propagation of rounding errors through the sums of the correlator. -/

set_option linter.unusedSectionVars false
set_option linter.unusedVariables false

namespace Sacf

open Arith Finset

variable {K : Type} [Field K] [LinearOrder K] [IsStrictOrderedRing K] [FloorRing K] {R : Rnd K} {u η big : K}

theorem Near.mono {z : XF R} {x e e' : K} (h : Near z x e) (he : e ≤ e') : Near z x e' := by
  obtain ⟨y, h1, h2⟩ := h
  exact ⟨y, h1, h2.trans he⟩

theorem Near.err_nonneg {z : XF R} {x e : K} (h : Near z x e) : 0 ≤ e := by
  obtain ⟨y, h1, h2⟩ := h
  exact (abs_nonneg _).trans h2

theorem near_fin (x : K) : Near (.fin x : XF R) x 0 := ⟨x, rfl, by simp⟩

theorem near_round (h : Accurate R u η big) {z x e Z : K} (hz : |z| ≤ Z) (hZ : Z ≤ big) (he : |z - x| ≤ e) :
    Near (XF.round z : XF R) x (e + u * Z + η) := by
  obtain ⟨y, h1, h2⟩ := h.round z (hz.trans hZ)
  refine ⟨y, h1, ?_⟩
  have e1 : y - x = (y - z) + (z - x) := by ring
  have := mul_le_mul_of_nonneg_left hz h.u_nonneg
  rw [e1]
  exact (abs_add_le _ _).trans (by linarith)

theorem near_abs {y x e : K} (h : |y - x| ≤ e) {X : K} (hx : |x| ≤ X) : |y| ≤ X + e := by
  have e1 : y = (y - x) + x := by ring
  rw [e1]
  exact (abs_add_le _ _).trans (by linarith)

theorem near_add (h : Accurate R u η big) {a b : XF R} {x y e f Z : K} (ha : Near a x e) (hb : Near b y f)
    (hZ1 : |x + y| + e + f ≤ Z) (hZ : Z ≤ big) : Near (Arith.add a b) (x + y) (e + f + u * Z + η) := by
  obtain ⟨a', rfl, ha⟩ := ha
  obtain ⟨b', rfl, hb⟩ := hb
  have h1 : |(a' + b') - (x + y)| ≤ e + f := by
    have e1 : (a' + b') - (x + y) = (a' - x) + (b' - y) := by ring
    rw [e1]
    exact (abs_add_le _ _).trans (by linarith)
  exact near_round h ((near_abs h1 le_rfl).trans (by linarith)) hZ h1

theorem near_neg {b : XF R} {y f : K} (hb : Near b y f) : Near (XF.neg b) (-y) f := by
  obtain ⟨b', rfl, hb⟩ := hb
  refine ⟨-b', rfl, ?_⟩
  have e1 : -b' - -y = -(b' - y) := by ring
  rwa [e1, abs_neg]

theorem near_sub (h : Accurate R u η big) {a b : XF R} {x y e f Z : K} (ha : Near a x e) (hb : Near b y f)
    (hZ1 : |x - y| + e + f ≤ Z) (hZ : Z ≤ big) : Near (Arith.sub a b) (x - y) (e + f + u * Z + η) := by
  rw [sub_eq_add_neg] at hZ1 ⊢
  exact near_add h ha (near_neg hb) hZ1 hZ

theorem mul_dist {a b x y e f X Y : K} (ha : |a - x| ≤ e) (hb : |b - y| ≤ f) (hx : |x| ≤ X) (hy : |y| ≤ Y) :
    |a * b - x * y| ≤ X * f + Y * e + e * f := by
  have e1 : a * b - x * y = x * (b - y) + y * (a - x) + (a - x) * (b - y) := by ring
  have he : 0 ≤ e := (abs_nonneg _).trans ha
  rw [e1]
  refine (abs_add_le _ _).trans (add_le_add ((abs_add_le _ _).trans (add_le_add ?_ ?_)) ?_)
  · rw [abs_mul]; exact mul_le_mul hx hb (abs_nonneg _) ((abs_nonneg _).trans hx)
  · rw [abs_mul]; exact mul_le_mul hy ha (abs_nonneg _) ((abs_nonneg _).trans hy)
  · rw [abs_mul]; exact mul_le_mul ha hb (abs_nonneg _) he

theorem near_mul (h : Accurate R u η big) {a b : XF R} {x y e f X Y E Z : K} (ha : Near a x e) (hb : Near b y f)
    (hx : |x| ≤ X) (hy : |y| ≤ Y) (hE : X * f + Y * e + e * f ≤ E) (hZ1 : X * Y + E ≤ Z) (hZ : Z ≤ big) :
    Near (Arith.mul a b) (x * y) (E + u * Z + η) := by
  obtain ⟨a', rfl, ha⟩ := ha
  obtain ⟨b', rfl, hb⟩ := hb
  have h1 := (mul_dist ha hb hx hy).trans hE
  have h2 : |x * y| ≤ X * Y := by
    rw [abs_mul]; exact mul_le_mul hx hy (abs_nonneg _) ((abs_nonneg _).trans hx)
  exact near_round h ((near_abs h1 h2).trans hZ1) hZ h1

/-- two computed numbers whose product, rounded or not, is within `e` of `p` -/
def NearProd (a b : XF R) (p e : K) : Prop :=
  Near (Arith.mul a b) p e ∧ ∃ a' b' : K, a = .fin a' ∧ b = .fin b' ∧ |a' * b' - p| ≤ e

theorem NearProd.mono {a b : XF R} {p e e' : K} (h : NearProd a b p e) (he : e ≤ e') : NearProd a b p e' := by
  obtain ⟨h1, a', b', ha, hb, h2⟩ := h
  exact ⟨h1.mono he, a', b', ha, hb, h2.trans he⟩

theorem nearProd_mul (h : Accurate R u η big) {a b : XF R} {x y e f X Y E Z : K} (ha : Near a x e) (hb : Near b y f)
    (hx : |x| ≤ X) (hy : |y| ≤ Y) (hE : X * f + Y * e + e * f ≤ E) (hZ1 : X * Y + E ≤ Z) (hZ : Z ≤ big) :
    NearProd a b (x * y) (E + u * Z + η) := by
  refine ⟨near_mul h ha hb hx hy hE hZ1 hZ, ?_⟩
  obtain ⟨a', rfl, ha⟩ := ha
  obtain ⟨b', rfl, hb⟩ := hb
  refine ⟨a', b', rfl, rfl, ((mul_dist ha hb hx hy).trans hE).trans ?_⟩
  have hE0 : 0 ≤ E := (abs_nonneg _).trans ((mul_dist ha hb hx hy).trans hE)
  have hXY : 0 ≤ X * Y := mul_nonneg ((abs_nonneg _).trans hx) ((abs_nonneg _).trans hy)
  have := mul_nonneg h.u_nonneg (show 0 ≤ Z by linarith)
  linarith [h.η_nonneg]

/-- adding a product, contracted or not -/
theorem near_addMul (h : Accurate R u η big) {c a b : XF R} {s p e f Z : K} (hc : Near c s e) (hp : NearProd a b p f)
    (hZ1 : |s + p| + e + f ≤ Z) (hZ : Z ≤ big) : Near (Arith.addMul c a b) (s + p) (e + f + u * Z + η) := by
  obtain ⟨h1, a', b', rfl, rfl, h2⟩ := hp
  cases hf : R.fused with
  | false => rw [addMul_false hf]; exact near_add h hc h1 hZ1 hZ
  | true =>
    rw [addMul_true hf]
    obtain ⟨c', rfl, hc⟩ := hc
    have h3 : |(c' + a' * b') - (s + p)| ≤ e + f := by
      have e1 : (c' + a' * b') - (s + p) = (c' - s) + (a' * b' - p) := by ring
      rw [e1]
      exact (abs_add_le _ _).trans (by linarith)
    exact near_round h ((near_abs h3 le_rfl).trans (by linarith)) hZ h3

/-- a sum of `n` numbers of size at most `X`, each known up to `e` -/
theorem near_sum (h : Accurate R u η big) {f : ℕ → XF R} {x : ℕ → K} {X e : K} (n : ℕ)
    (hf : ∀ i < n, Near (f i) (x i) e) (hx : ∀ i < n, |x i| ≤ X) (he : 0 ≤ e) (hX : 0 ≤ X) (hη : η ≤ u * X)
    (hu : 8 * (u * n) ≤ 1) (hbig : 2 * n * (X + e) ≤ big) :
    Near (seqSum f n) (∑ i ∈ range n, x i) (n * e + 2 * (u * n) * n * (X + e)) := by
  have hu0 := h.u_nonneg
  induction n with
  | zero => exact ⟨0, rfl, by simp⟩
  | succ n ih =>
    have hXe : 0 ≤ X + e := by linarith
    have hn0 : (0 : K) ≤ n := by positivity
    push_cast at hu hbig ⊢
    have hun : 0 ≤ u * n := mul_nonneg hu0 hn0
    have ih := ih (fun i hi => hf i (by omega)) (fun i hi => hx i (by omega)) (by linarith) (by nlinarith)
    have hS : |∑ i ∈ range n, x i| ≤ n * X := by
      refine (abs_sum_le_sum_abs _ _).trans ?_
      refine (sum_le_card_nsmul (range n) _ X fun i hi => hx i (by simp at hi; omega)).trans ?_
      simp
    have hxn := hx n (by omega)
    rw [sum_range_succ]
    unfold seqSum
    have hP : 0 ≤ n * (X + e) := mul_nonneg hn0 hXe
    have hq : 8 * (u * n) * (n * (X + e)) ≤ 1 * (n * (X + e)) := mul_le_mul_of_nonneg_right (by linarith) hP
    refine (near_add h ih (hf n (by omega)) (Z := (5 / 4 * n + 1) * (X + e)) ?_ ?_).mono ?_
    · have := abs_add_le (∑ i ∈ range n, x i) (x n)
      nlinarith
    · nlinarith
    · have : 0 ≤ u * (X + e) := mul_nonneg hu0 hXe
      have : 0 ≤ u * n * (X + e) := mul_nonneg hun hXe
      have : 0 ≤ u * e := mul_nonneg hu0 he
      nlinarith

/-- a sum of `n` products of size at most `X`, each known up to `e` -/
theorem near_dot (h : Accurate R u η big) {f g : ℕ → XF R} {x : ℕ → K} {X e : K} (n : ℕ)
    (hf : ∀ i < n, NearProd (f i) (g i) (x i) e) (hx : ∀ i < n, |x i| ≤ X) (he : 0 ≤ e) (hX : 0 ≤ X) (hη : η ≤ u * X)
    (hu : 8 * (u * n) ≤ 1) (hbig : 2 * n * (X + e) ≤ big) :
    Near (seqDot f g n) (∑ i ∈ range n, x i) (n * e + 2 * (u * n) * n * (X + e)) := by
  have hu0 := h.u_nonneg
  induction n with
  | zero => exact ⟨0, rfl, by simp⟩
  | succ n ih =>
    have hXe : 0 ≤ X + e := by linarith
    have hn0 : (0 : K) ≤ n := by positivity
    push_cast at hu hbig ⊢
    have hun : 0 ≤ u * n := mul_nonneg hu0 hn0
    have ih := ih (fun i hi => hf i (by omega)) (fun i hi => hx i (by omega)) (by linarith) (by nlinarith)
    have hS : |∑ i ∈ range n, x i| ≤ n * X := by
      refine (abs_sum_le_sum_abs _ _).trans ?_
      refine (sum_le_card_nsmul (range n) _ X fun i hi => hx i (by simp at hi; omega)).trans ?_
      simp
    have hxn := hx n (by omega)
    rw [sum_range_succ]
    unfold seqDot
    have hP : 0 ≤ n * (X + e) := mul_nonneg hn0 hXe
    have hq : 8 * (u * n) * (n * (X + e)) ≤ 1 * (n * (X + e)) := mul_le_mul_of_nonneg_right (by linarith) hP
    refine (near_addMul h ih (hf n (by omega)) (Z := (5 / 4 * n + 1) * (X + e)) ?_ ?_).mono ?_
    · have := abs_add_le (∑ i ∈ range n, x i) (x n)
      nlinarith
    · nlinarith
    · have : 0 ≤ u * (X + e) := mul_nonneg hu0 hXe
      have : 0 ≤ u * n * (X + e) := mul_nonneg hun hXe
      have : 0 ≤ u * e := mul_nonneg hu0 he
      nlinarith

/-! ### the pipeline -/

variable {V A : K} {M : ℕ} {x : ℕ → K}

theorem Moderate.facts (h : Moderate R u η big V A M) :
    0 ≤ u ∧ 0 ≤ η ∧ (1 : K) ≤ M ∧ u ≤ V ∧ 0 ≤ V ∧ u ≤ u * M ∧ 8 * (u * M) ≤ 1 ∧ 0 ≤ u * A ∧ u * A ≤ V * A ∧
      u * A ^ 2 ≤ V * A ^ 2 ∧ 100 * (V * A) ≤ A ∧ 100 * (V * A ^ 2) ≤ A ^ 2 ∧ A ≤ M * A ∧ A ^ 2 ≤ M * A ^ 2 ∧ 0 < A ^ 2 := by
  have hu := h.acc.u_nonneg
  have hM : (1 : K) ≤ M := by exact_mod_cast h.one_le
  have h1 : u ≤ u * M := by nlinarith
  have hA := h.pos
  have hA2 : 0 < A ^ 2 := by positivity
  have huM := h.uM
  have hV := h.V_le
  have huV : u ≤ V := by linarith
  refine ⟨hu, h.acc.η_nonneg, hM, huV, by linarith, h1, by linarith, by positivity, ?_, ?_, ?_, ?_, ?_, ?_, hA2⟩ <;> nlinarith

theorem abs_mean_le (hM : 1 ≤ M) (hx : ∀ i < M, |x i| ≤ A) : |mean M x| ≤ A := by
  have hM : (0 : K) < M := by exact_mod_cast hM
  have hS : |∑ i ∈ range M, x i| ≤ M * A := by
    refine (abs_sum_le_sum_abs _ _).trans ?_
    refine (sum_le_card_nsmul (range M) _ A fun i hi => hx i (by simpa using hi)).trans ?_
    simp
  unfold mean
  rw [abs_div, abs_of_pos hM, div_le_iff₀ hM]
  linarith

theorem abs_dev_le (hM : 1 ≤ M) (hx : ∀ i < M, |x i| ≤ A) {i : ℕ} (hi : i < M) : |dev M x i| ≤ 2 * A := by
  have := abs_mean_le hM hx
  have := hx i hi
  unfold dev
  exact (abs_sub _ _).trans (by linarith)

theorem near_mean (h : Moderate R u η big V A M) (hx : ∀ i < M, |x i| ≤ A) :
    Near (seqMean M fun i => (.fin (x i) : XF R)) (mean M x) (5 * (V * A)) := by
  obtain ⟨hu, hη, hM, huV, hV0, h1, h2, huA, h3, h4, h5, h6, h7, h8, h9⟩ := h.facts
  have hA := h.pos
  have huM := h.uM
  have hMpos : (0 : K) < M := by linarith
  have h2M : 0 ≤ u * M := by positivity
  obtain ⟨s, hs, hs'⟩ := near_sum h.acc (f := fun i => (.fin (x i) : XF R)) (x := x) (X := A) (e := 0) M
    (fun i _ => near_fin _) hx le_rfl hA.le h.underA h2 (by have := h.overA; nlinarith)
  unfold seqMean
  rw [hs]
  have hc : (Arith.ofInt (M : ℤ) : XF R) = .fin M := by
    have : ((M : ℤ) : K) = M := by push_cast; rfl
    show XF.round ((M : ℤ) : K) = _
    rw [this]; exact h.count
  rw [hc]
  have hd : (Arith.div (.fin s : XF R) (.fin (M : K))) = XF.round (s / M) := by
    show (if (M : K) = 0 then _ else XF.round (s / M)) = _
    rw [if_neg hMpos.ne']
  rw [hd]
  have hdist : |s / M - mean M x| ≤ 2 * (V * A) := by
    have e1 : s / M - mean M x = (s - ∑ i ∈ range M, x i) / M := by unfold mean; ring
    rw [e1, abs_div, abs_of_pos hMpos, div_le_iff₀ hMpos]
    have : u * M * (M * A) ≤ V * (M * A) := mul_le_mul_of_nonneg_right huM (by positivity)
    nlinarith
  have hm := abs_mean_le h.one_le hx
  refine (near_round h.acc (near_abs hdist hm) ?_ hdist).mono ?_
  · have := h.overA; nlinarith
  · have := h.underA
    have : u * (V * A) ≤ V * A := by nlinarith [mul_nonneg hV0 hA.le]
    have : u * (100 * (V * A)) ≤ u * A := mul_le_mul_of_nonneg_left h5 hu
    nlinarith

theorem near_dev (h : Moderate R u η big V A M) (hx : ∀ i < M, |x i| ≤ A) {i : ℕ} (hi : i < M) :
    Near (seqDev M (fun i => (.fin (x i) : XF R)) i) (dev M x i) (9 * (V * A)) := by
  obtain ⟨hu, hη, hM, huV, hV0, h1, h2, huA, h3, h4, h5, h6, h7, h8, h9⟩ := h.facts
  have hA := h.pos
  have hd := abs_dev_le h.one_le hx hi
  unfold dev at hd
  refine (near_sub h.acc (near_fin (x i)) (near_mean h hx) (Z := 2 * A + 5 * (V * A)) (by linarith) ?_).mono ?_
  · have := h.overA; nlinarith
  · have := h.underA
    have : u * (100 * (V * A)) ≤ u * A := mul_le_mul_of_nonneg_left h5 hu
    nlinarith

/-- a squared deviation in the normaliser; the narrowed value is within `2 V A` of `y` -/
theorem near_square_of (h : Moderate R u η big V A M) (hx : ∀ i < M, |x i| ≤ A) {i : ℕ} {y : K} (hd : |y - mean M x| ≤ 2 * A)
    (hf : Near (Arith.toFloat (.fin (x i) : XF R)) y (2 * (V * A))) :
    NearProd (Arith.sub (Arith.toFloat (.fin (x i) : XF R)) (seqMean M fun i => (.fin (x i) : XF R)))
      (Arith.sub (Arith.toFloat (.fin (x i) : XF R)) (seqMean M fun i => (.fin (x i) : XF R)))
      ((y - mean M x) ^ 2) (51 * (V * A ^ 2)) := by
  obtain ⟨hu, hη, hM, huV, hV0, h1, h2, huA, h3, h4, h5, h6, h7, h8, h9⟩ := h.facts
  have hA := h.pos
  have hVA : 0 ≤ V * A := mul_nonneg hV0 hA.le
  have hVA2 : 0 ≤ V * A ^ 2 := mul_nonneg hV0 h9.le
  have hdev : Near (Arith.sub (Arith.toFloat (.fin (x i) : XF R)) (seqMean M fun i => (.fin (x i) : XF R)))
      (y - mean M x) (11 * (V * A)) := by
    refine (near_sub h.acc hf (near_mean h hx) (Z := 2 * A + 7 * (V * A)) (by linarith) ?_).mono ?_
    · have := h.overA; linarith
    · have := h.underA
      have : u * (100 * (V * A)) ≤ u * A := mul_le_mul_of_nonneg_left h5 hu
      linarith
  have hVV : V * A * (100 * (V * A)) ≤ V * A * A := mul_le_mul_of_nonneg_left h5 hVA
  rw [sq]
  refine (nearProd_mul h.acc hdev hdev hd hd (E := 453 / 10 * (V * A ^ 2)) (Z := 45 / 10 * A ^ 2) ?_ ?_ ?_).mono ?_
  · linarith
  · linarith
  · have := h.overAA; linarith
  · have := h.underAA
    linarith

/-- the normaliser; the narrowed values are within `2 V A` of `y` -/
theorem near_norm_of (h : Moderate R u η big V A M) (hx : ∀ i < M, |x i| ≤ A) {y : ℕ → K} (hd : ∀ i < M, |y i - mean M x| ≤ 2 * A)
    (hf : ∀ i < M, Near (Arith.toFloat (.fin (x i) : XF R)) (y i) (2 * (V * A))) :
    Near (seqNorm M fun i => (.fin (x i) : XF R)) (∑ i ∈ range M, (y i - mean M x) ^ 2) (61 * V * (M * A ^ 2)) := by
  obtain ⟨hu, hη, hM, huV, hV0, h1, h2, huA, h3, h4, h5, h6, h7, h8, h9⟩ := h.facts
  have huM := h.uM
  have hVA2 : 0 ≤ V * A ^ 2 := mul_nonneg hV0 h9.le
  have e0 : (M : K) * (100 * (V * A ^ 2)) ≤ M * A ^ 2 := mul_le_mul_of_nonneg_left h6 (by linarith)
  refine (near_dot h.acc (X := 4 * A ^ 2) M (fun i hi => near_square_of h hx (hd i hi) (hf i hi)) ?_ (by linarith) (by linarith) ?_ h2 ?_).mono ?_
  · intro i hi
    have hd := hd i hi
    rw [abs_pow]
    nlinarith [abs_nonneg (y i - mean M x)]
  · have := h.underAA
    have : 0 ≤ u * A ^ 2 := by positivity
    linarith
  · have := h.overAA
    linarith
  · have hMA : 0 ≤ M * A ^ 2 := by linarith
    have e1 : u * M * (M * A ^ 2) ≤ V * (M * A ^ 2) := mul_le_mul_of_nonneg_right huM hMA
    have e2 : u * M * (M * (100 * (V * A ^ 2))) ≤ u * M * (M * A ^ 2) :=
      mul_le_mul_of_nonneg_left e0 (by linarith)
    have e3 : 0 ≤ V * (M * A ^ 2) := mul_nonneg hV0 hMA
    linarith

/-- the normaliser -/
theorem near_norm (h : Moderate R u η big V A M) (hx : ∀ i < M, |x i| ≤ A)
    (hf : ∀ i < M, Near (Arith.toFloat (.fin (x i) : XF R)) (x i) (2 * (V * A))) :
    Near (seqNorm M fun i => (.fin (x i) : XF R)) (sumSq M x) (61 * V * (M * A ^ 2)) :=
  near_norm_of h hx (fun _ hi => abs_dev_le h.one_le hx hi) hf

/-- one term of the numerator, the weight between 0 and 1 and known up to `10 u`, the deviations known up to `9 V A` -/
theorem near_term_of (h : Moderate R u η big V A M) {D D' W : XF R} {a b w : K} (hD : Near D a (9 * (V * A))) (hD' : Near D' b (9 * (V * A)))
    (hd : |a| ≤ 2 * A) (hd' : |b| ≤ 2 * A) (hW : Near W w (10 * u)) (hw : |w| ≤ 1) :
    NearProd (Arith.mul W D) D' (w * a * b) (96 * (V * A ^ 2)) ∧ |w * a * b| ≤ 4 * A ^ 2 := by
  obtain ⟨hu, hη, hM, huV, hV0, h1, h2, huA, h3, h4, h5, h6, h7, h8, h9⟩ := h.facts
  have hA := h.pos
  have hVA : 0 ≤ V * A := mul_nonneg hV0 hA.le
  have hVA2 : 0 ≤ V * A ^ 2 := mul_nonneg hV0 h9.le
  have hVV : V * A * (100 * (V * A)) ≤ V * A * A := mul_le_mul_of_nonneg_left h5 hVA
  have huVA : u * (100 * (V * A)) ≤ u * A := mul_le_mul_of_nonneg_left h5 hu
  have h10 : Near (Arith.mul W D) (w * a) (34 * (V * A)) := by
    refine (near_mul h.acc hW hD hw hd (E := 30 * (V * A)) (Z := 23 / 10 * A) ?_ ?_ ?_).mono ?_
    · linarith
    · linarith
    · have := h.overA; linarith
    · have := h.underA
      linarith
  have habs : |w * a| ≤ 2 * A := by
    rw [abs_mul]
    nlinarith [abs_nonneg w, abs_nonneg a]
  constructor
  · refine (nearProd_mul h.acc h10 hD' habs hd' (E := 90 * (V * A ^ 2)) (Z := 49 / 10 * A ^ 2)
      ?_ ?_ ?_).mono ?_
    · linarith
    · linarith
    · have := h.overAA; linarith
    · have := h.underAA
      linarith
  · rw [abs_mul]
    nlinarith [abs_nonneg (w * a), abs_nonneg b]

theorem near_term (h : Moderate R u η big V A M) (hx : ∀ i < M, |x i| ≤ A) {i k : ℕ} (hi : i < M) (hk : k < M)
    {W : XF R} {w : K} (hW : Near W w (10 * u)) (hw : |w| ≤ 1) :
    NearProd (Arith.mul W (seqDev M (fun i => (.fin (x i) : XF R)) i))
        (seqDev M (fun i => (.fin (x i) : XF R)) k) (w * dev M x i * dev M x k) (96 * (V * A ^ 2)) ∧
      |w * dev M x i * dev M x k| ≤ 4 * A ^ 2 :=
  near_term_of h (near_dev h hx hi) (near_dev h hx hk) (abs_dev_le h.one_le hx hi) (abs_dev_le h.one_le hx hk) hW hw

/-- the numerator -/
theorem near_numerator_of (h : Moderate R u η big V A M) {m : ℕ} (hm : m ≤ M) {D D' W : ℕ → XF R} {a b w : ℕ → K}
    (hD : ∀ i < m, Near (D i) (a i) (9 * (V * A))) (hD' : ∀ i < m, Near (D' i) (b i) (9 * (V * A)))
    (hd : ∀ i < m, |a i| ≤ 2 * A) (hd' : ∀ i < m, |b i| ≤ 2 * A) (hW : ∀ i < m, Near (W i) (w i) (10 * u))
    (hw : ∀ i < m, |w i| ≤ 1) :
    Near (seqDot (fun i => Arith.mul (W i) (D i)) D' m) (∑ i ∈ range m, w i * a i * b i) (110 * V * (M * A ^ 2)) := by
  obtain ⟨hu, hη, hM, huV, hV0, h1, h2, huA, h3, h4, h5, h6, h7, h8, h9⟩ := h.facts
  have huM := h.uM
  have hVA2 : 0 ≤ V * A ^ 2 := mul_nonneg hV0 h9.le
  have hmM : (m : K) ≤ M := by exact_mod_cast hm
  have hm0 : (0 : K) ≤ m := by positivity
  have hum : u * m ≤ u * M := mul_le_mul_of_nonneg_left hmM hu
  have hmA : (m : K) * A ^ 2 ≤ M * A ^ 2 := mul_le_mul_of_nonneg_right hmM h9.le
  have hmA0 : 0 ≤ (m : K) * A ^ 2 := by positivity
  have e3 : (m : K) * (100 * (V * A ^ 2)) ≤ m * A ^ 2 := mul_le_mul_of_nonneg_left h6 hm0
  have hterm := fun i (hi : i < m) => near_term_of h (hD i hi) (hD' i hi) (hd i hi) (hd' i hi) (hW i hi) (hw i hi)
  refine (near_dot h.acc (X := 4 * A ^ 2) m (fun i hi => (hterm i hi).1) (fun i hi => (hterm i hi).2) (by linarith) (by linarith) ?_
    (by linarith) ?_).mono ?_
  · have := h.underAA
    have : 0 ≤ u * A ^ 2 := by positivity
    linarith
  · have := h.overAA
    linarith
  · have hum0 : 0 ≤ u * m := by positivity
    have e1 : u * m * (m * A ^ 2) ≤ V * (M * A ^ 2) := mul_le_mul (by linarith) hmA hmA0 hV0
    have e2 : u * m * (m * (100 * (V * A ^ 2))) ≤ u * m * (m * A ^ 2) := mul_le_mul_of_nonneg_left e3 hum0
    have e4 : (m : K) * (V * A ^ 2) ≤ V * (M * A ^ 2) := by
      have := mul_le_mul_of_nonneg_right hmM hVA2
      linarith
    have e5 : 0 ≤ V * (M * A ^ 2) := mul_nonneg hV0 (by linarith)
    linarith

theorem near_numerator (h : Moderate R u η big V A M) (hx : ∀ i < M, |x i| ≤ A) {m : ℕ} (hm : m ≤ M) {s : ℕ → ℕ}
    (hs : ∀ i < m, s i < M) {W : ℕ → XF R} {w : ℕ → K} (hW : ∀ i < m, Near (W i) (w i) (10 * u))
    (hw : ∀ i < m, |w i| ≤ 1) :
    Near (seqDot (fun i => Arith.mul (W i) (seqDev M (fun i => (.fin (x i) : XF R)) i))
        (fun i => seqDev M (fun i => (.fin (x i) : XF R)) (s i)) m)
      (∑ i ∈ range m, w i * dev M x i * dev M x (s i)) (110 * V * (M * A ^ 2)) :=
  near_numerator_of h hm (fun i hi => near_dev h hx (show i < M by omega)) (fun i hi => near_dev h hx (hs i hi))
    (fun i hi => abs_dev_le h.one_le hx (show i < M by omega)) (fun i hi => abs_dev_le h.one_le hx (hs i hi)) hW hw

/-- the quotient: numerator times the reciprocal of the normaliser -/
theorem near_quotient_of (h : Moderate R u η big V A M) {P N : K} {p n : XF R} (hN : 0 < N) (hP4 : |P| ≤ 4 * (M * A ^ 2))
    (hNle : u * N ≤ V * (M * A ^ 2)) (hN2 : N ≤ 2 * (M * A ^ 2))
    (hp : Near p P (110 * V * (M * A ^ 2))) (hn : Near n N (61 * V * (M * A ^ 2))) (hκ : 122 * V * (M * A ^ 2) ≤ N)
    (hb1 : 2 ≤ N * big) (hb2 : 24 * (M * A ^ 2) ≤ N * big) :
    Near (Arith.mul p (Arith.div Arith.one n)) (P / N) (250 * V * (M * A ^ 2 / N) * (1 + |P / N|)) := by
  obtain ⟨hu, hη, hM, huV, hV0, h1, h2, huA, h3, h4, h5, h6, h7, h8, h9⟩ := h.facts
  obtain ⟨p', rfl, hp⟩ := hp
  obtain ⟨n', rfl, hn⟩ := hn
  have hMA : 0 < M * A ^ 2 := by linarith
  set Q := (M : K) * A ^ 2 with hQ
  have hn2 : N / 2 ≤ n' := by
    have := (abs_le.1 hn).1
    linarith
  have hn0 : 0 < n' := by linarith
  set κ := Q / N with hκdef
  have hκ1 : 1 ≤ 2 * κ := by
    have : 1 ≤ 2 * Q / N := by rw [le_div_iff₀ hN]; linarith
    rw [hκdef]
    linarith [mul_div_assoc 2 Q N]
  have hκ0 : 0 ≤ κ := by linarith
  have hQκ : Q = κ * N := by rw [hκdef]; field_simp
  set ρ := P / N with hρ
  have hPρ : P = ρ * N := by rw [hρ]; field_simp
  have hVκ : 122 * (V * κ) ≤ 1 := by
    have : 122 * (V * κ) * N ≤ 1 * N := by rw [hQκ] at hκ; linarith
    exact le_of_mul_le_mul_right this hN
  have hVκ0 : 0 ≤ V * κ := mul_nonneg hV0 hκ0
  have huκ : u ≤ V * κ := by
    rw [hQκ] at hNle
    refine le_of_mul_le_mul_right ?_ hN
    linarith
  -- the exact quotient of the computed numbers
  have hinv : 1 / n' ≤ 2 / N := by
    rw [div_le_div_iff₀ hn0 hN]; linarith
  have hinv0 : 0 < 1 / n' := by positivity
  have hρ0 := abs_nonneg ρ
  have hd0 : |p' / n' - ρ| ≤ 2 * (V * κ) * (110 + 61 * |ρ|) := by
    have e1 : p' / n' - ρ = ((p' - P) - ρ * (n' - N)) / n' := by
      rw [hPρ]; field_simp; ring
    rw [e1, abs_div, abs_of_pos hn0, div_le_iff₀ hn0]
    have e2 : |(p' - P) - ρ * (n' - N)| ≤ 110 * V * Q + |ρ| * (61 * V * Q) := by
      refine (abs_sub _ _).trans (add_le_add hp ?_)
      rw [abs_mul]
      exact mul_le_mul_of_nonneg_left hn hρ0
    refine e2.trans ?_
    rw [hQκ]
    have e3 : 0 ≤ (V * κ) * (110 + 61 * |ρ|) := mul_nonneg hVκ0 (by linarith)
    have := mul_le_mul_of_nonneg_left hn2 e3
    linarith
  -- the reciprocal
  have hone : (Arith.div Arith.one (.fin n') : XF R) = XF.round (1 / n') := by
    show (if n' = 0 then _ else XF.round (1 / n')) = _
    rw [if_neg hn0.ne']
  rw [hone]
  have hbig : 2 / N ≤ big := by rw [div_le_iff₀ hN]; linarith
  obtain ⟨v, hv, hv'⟩ := h.acc.round (1 / n') (by rw [abs_of_pos hinv0]; linarith)
  rw [hv]
  rw [abs_of_pos hinv0] at hv'
  have hp5 : |p'| ≤ 51 / 10 * Q := by
    have := near_abs hp hP4
    have : 100 * (V * Q) ≤ Q := by
      have := mul_le_mul_of_nonneg_right h.V_le hMA.le
      linarith
    linarith
  have hηQ : η * Q ≤ u := h.underM
  have hpv : |p' * v - p' / n'| ≤ u * |p' / n'| + 51 / 10 * u := by
    have e1 : p' * v - p' / n' = p' * (v - 1 / n') := by ring
    rw [e1, abs_mul]
    have e2 := mul_le_mul_of_nonneg_left hv' (abs_nonneg p')
    have e3 : |p' / n'| = |p'| * (1 / n') := by rw [abs_div, abs_of_pos hn0]; ring
    rw [e3]
    have e4 : η * |p'| ≤ η * (51 / 10 * Q) := mul_le_mul_of_nonneg_left hp5 hη
    linarith
  have hE0 : 2 * (V * κ) * (110 + 61 * |ρ|) ≤ 2 * (1 + |ρ|) := by
    have := mul_le_mul_of_nonneg_right hVκ hρ0
    linarith
  have hpn : |p' / n'| ≤ 3 * (1 + |ρ|) := by
    have := near_abs hd0 le_rfl
    linarith
  have hsmall : 100 * u ≤ 1 := by have := h.V_le; linarith
  have hd1 : |p' * v - ρ| ≤ 2 * (V * κ) * (110 + 61 * |ρ|) + (9 * u) * (1 + |ρ|) := by
    have e1 : p' * v - ρ = (p' * v - p' / n') + (p' / n' - ρ) := by ring
    rw [e1]
    refine (abs_add_le _ _).trans ?_
    have := mul_le_mul_of_nonneg_left hpn hu
    have : 0 ≤ u * |ρ| := mul_nonneg hu hρ0
    linarith
  have hpvabs : |p' * v| ≤ 4 * (1 + |ρ|) := by
    have := near_abs hd1 (le_refl |ρ|)
    have := mul_le_mul_of_nonneg_right hsmall hρ0
    linarith
  refine (near_round h.acc hpvabs ?_ hd1).mono ?_
  · have e1 : |ρ| ≤ 4 * κ := by
      rw [hρ, hκdef, abs_div, abs_of_pos hN, div_le_iff₀ hN]
      have : 4 * (Q / N) * N = 4 * Q := by field_simp
      linarith
    have e2 : 24 * κ ≤ big := by
      rw [hκdef]
      have : 24 * (Q / N) = 24 * Q / N := by ring
      rw [this, div_le_iff₀ hN]; linarith
    linarith
  · have := h.under1
    have e1 : u * (1 + |ρ|) ≤ V * κ * (1 + |ρ|) := mul_le_mul_of_nonneg_right huκ (by linarith)
    have e2 : 0 ≤ V * κ * |ρ| := mul_nonneg hVκ0 hρ0
    have e3 : 0 ≤ u * |ρ| := mul_nonneg hu hρ0
    linarith

theorem near_quotient (h : Moderate R u η big V A M) {P N : K} {p n : XF R} (hN : 0 < N) (hP4 : |P| ≤ 4 * (M * A ^ 2))
    (hNle : N ≤ M * A ^ 2)
    (hp : Near p P (110 * V * (M * A ^ 2))) (hn : Near n N (61 * V * (M * A ^ 2))) (hκ : 122 * V * (M * A ^ 2) ≤ N)
    (hb1 : 2 ≤ N * big) (hb2 : 24 * (M * A ^ 2) ≤ N * big) :
    Near (Arith.mul p (Arith.div Arith.one n)) (P / N) (250 * V * (M * A ^ 2 / N) * (1 + |P / N|)) := by
  obtain ⟨hu, hη, hM, huV, hV0, _⟩ := h.facts
  exact near_quotient_of h hN hP4 (mul_le_mul huV hNle hN.le hV0) (by linarith) hp hn hκ hb1 hb2

end Sacf
