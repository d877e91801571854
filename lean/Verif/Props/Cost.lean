import Verif.Model.Cost
import Verif.Props.Driver
import Verif.Props.Leak
import Mathlib.Data.Nat.Log

/-!
# Number of steps (C110, C111)
-/

set_option linter.unusedSectionVars false

namespace Sacf

open Arith

variable {F : Type} [Arith F] {α β σ : Type}

/-! ### the counter changes nothing -/

namespace Tick

theorem val_bind (m : Tick α) (f : α → Tick β) : (bind m f).val = m.val.bind fun x => (f x).val := by
  cases m with
  | ok p =>
    unfold bind val
    simp only [Res.ok_bind]
    cases f p.1 <;> rfl
  | _ => rfl

@[simp] theorem val_cost (n : Nat) (m : Res α) : (cost n m).val = m := by cases m <;> rfl

theorem val_foldL (f : σ → α → Tick σ) (s : σ) (l : List α) : (foldL f s l).val = Res.foldL (fun s x => (f s x).val) s l := by
  induction l generalizing s with
  | nil => rfl
  | cons x xs ih => simp only [foldL, Res.foldL, val_bind, val_cost, Res.ok_bind, ih]

theorem val_mapL (f : α → Tick β) (l : List α) : (mapL f l).val = Res.mapL (fun x => (f x).val) l := by
  induction l with
  | nil => rfl
  | cons x xs ih => simp only [mapL, Res.mapL, val_bind, val_cost, Res.ok_bind, ih]

theorem val_ite {p : Prop} [Decidable p] (m m' : Tick α) : val (if p then m else m') = if p then val m else val m' := by split <;> rfl

theorem bind_ok {m : Tick α} {f : α → Tick β} {y : β} {n : Nat} (h : bind m f = .ok (y, n)) :
    ∃ x a b, m = .ok (x, a) ∧ f x = .ok (y, b) ∧ n = a + b := by
  unfold bind at h
  obtain ⟨⟨x, a⟩, h1, h2⟩ := Res.bind_eq_ok.1 h
  obtain ⟨⟨y', b⟩, h3, h4⟩ := Res.bind_eq_ok.1 h2
  cases h4
  exact ⟨x, a, b, h1, h3, rfl⟩

theorem cost_ok {m : Res α} {y : α} {k n : Nat} (h : cost k m = .ok (y, n)) : m = .ok y ∧ n = k := by
  unfold cost at h
  obtain ⟨x, h1, h2⟩ := Res.bind_eq_ok.1 h
  cases h2
  exact ⟨h1, rfl⟩

theorem val_ok {m : Tick α} {y : α} {n : Nat} (h : m = .ok (y, n)) : m.val = .ok y := by rw [h]; rfl

theorem ok_of_val {m : Tick α} {y : α} (h : m.val = .ok y) : ∃ n, m = .ok (y, n) := by
  unfold val at h
  obtain ⟨⟨x, n⟩, h1, h2⟩ := Res.bind_eq_ok.1 h
  cases h2
  exact ⟨n, h1⟩

/-- at most `b` steps -/
def Le (m : Tick α) (b : Nat) : Prop := ∀ x n, m = .ok (x, n) → n ≤ b

theorem Le.mono {m : Tick α} {b b' : Nat} (h : m.Le b) (hb : b ≤ b') : m.Le b' := fun x n hx => (h x n hx).trans hb

theorem Le.cost {m : Res α} (n : Nat) : (cost n m).Le n := fun _ _ h => (cost_ok h).2.le

theorem Le.bind {m : Tick α} {f : α → Tick β} {a b : Nat} (h : m.Le a) (h' : ∀ x n, m = .ok (x, n) → (f x).Le b) : (bind m f).Le (a + b) := by
  intro y n hy
  obtain ⟨x, a', b', h1, h2, rfl⟩ := bind_ok hy
  exact Nat.add_le_add (h _ _ h1) (h' _ _ h1 _ _ h2)

theorem Le.foldL {f : σ → α → Tick σ} {l : List α} {b : Nat} (h : ∀ s, ∀ x ∈ l, (f s x).Le b) (s : σ) : (foldL f s l).Le (l.length * (b + 1)) := by
  induction l generalizing s with
  | nil => exact (Le.cost 0).mono (by simp)
  | cons x xs ih =>
    exact (Le.bind (Le.cost 1) fun _ _ _ => Le.bind (h s x (by simp)) fun s' _ _ => ih (fun s x hx => h s x (by simp [hx])) s').mono
      (by rw [List.length_cons, Nat.succ_mul]; omega)

theorem Le.mapL {f : α → Tick β} {l : List α} {b : Nat} (h : ∀ x ∈ l, (f x).Le b) : (mapL f l).Le (l.length * (b + 1)) := by
  induction l with
  | nil => exact (Le.cost 0).mono (by simp)
  | cons x xs ih =>
    exact (Le.bind (Le.cost 1) fun _ _ _ => Le.bind (h x (by simp)) fun y _ _ =>
      Le.bind (ih fun x hx => h x (by simp [hx])) fun _ _ _ => Le.cost 0).mono (by rw [List.length_cons, Nat.succ_mul]; omega)

theorem Le.ite {p : Prop} [Decidable p] {m m' : Tick α} {b : Nat} (h : m.Le b) (h' : m'.Le b) : Le (if p then m else m') b := by split <;> assumption

theorem mapL_length {f : α → Tick β} {l : List α} {ys : List β} {n : Nat} (h : mapL f l = .ok (ys, n)) : ys.length = l.length := by
  have := val_ok h
  rw [val_mapL] at this
  exact Res.mapL_length this

/-- a loop whose passes take known numbers of steps -/
theorem foldL_steps {f : σ → α → Tick σ} {g : α → Nat} {l : List α} (h : ∀ s, ∀ x ∈ l, ∀ s' n, f s x = .ok (s', n) → n = g x) {s s' : σ} {n : Nat}
    (hl : foldL f s l = .ok (s', n)) : n = l.length + (l.map g).sum := by
  induction l generalizing s n with
  | nil => exact (cost_ok hl).2
  | cons x xs ih =>
    obtain ⟨_, a, b, h1, h2, rfl⟩ := bind_ok hl
    obtain ⟨s1, a', b', h3, h4, rfl⟩ := bind_ok h2
    rw [(cost_ok h1).2, h s x (by simp) _ _ h3, ih (fun s x hx => h s x (by simp [hx])) h4]
    simp
    omega

theorem mapL_steps {f : α → Tick β} {g : α → Nat} {l : List α} (h : ∀ x ∈ l, ∀ y n, f x = .ok (y, n) → n = g x) {ys : List β} {n : Nat}
    (hl : mapL f l = .ok (ys, n)) : n = l.length + (l.map g).sum := by
  induction l generalizing ys n with
  | nil => exact (cost_ok hl).2
  | cons x xs ih =>
    obtain ⟨_, a, b, h1, h2, rfl⟩ := bind_ok hl
    obtain ⟨s1, a', b', h3, h4, rfl⟩ := bind_ok h2
    obtain ⟨s2, a2, b2, h5, h6, rfl⟩ := bind_ok h4
    rw [(cost_ok h1).2, h x (by simp) _ _ h3, ih (fun x hx => h x (by simp [hx])) h5, (cost_ok h6).2]
    simp
    omega

end Tick

theorem findMinDiffT_go_val (diff : F) (l : List F) : (findMinDiffT.go diff l).val = .ok (findMinDiff.go diff l) := by
  induction l generalizing diff with
  | nil => rfl
  | cons x l ih =>
    cases l with
    | nil => rfl
    | cons y rest =>
      rw [findMinDiffT.go, findMinDiff.go, Tick.val_bind, Tick.val_cost]
      exact ih _

theorem findMinDiffT_val (l : List F) : (findMinDiffT l).val = .ok (findMinDiff l) := findMinDiffT_go_val _ l

theorem findMinDiffT_go_steps {diff x : F} {l : List F} {n : Nat} (h : findMinDiffT.go diff l = .ok (x, n)) : n = l.length - 1 := by
  induction l generalizing diff n with
  | nil => exact (Tick.cost_ok h).2
  | cons y l ih =>
    cases l with
    | nil => exact (Tick.cost_ok h).2
    | cons z rest =>
      rw [findMinDiffT.go] at h
      obtain ⟨_, a, b, h1, h2, rfl⟩ := Tick.bind_ok h
      rw [(Tick.cost_ok h1).2, ih h2]
      simp
      omega

theorem lowerBoundGoT_val (v : List F) (val : F) (first len : Nat) : (lowerBoundGoT v val first len).val = lowerBoundGo v val first len := by
  induction len using Nat.strong_induction_on generalizing first with
  | _ len ih =>
    rw [lowerBoundGoT, lowerBoundGo]
    split
    · rfl
    · rw [Tick.val_bind, Tick.val_cost]
      congr 1
      funext mid
      split
      · exact ih _ (by omega) _
      · exact ih _ (by omega) _

/-- binary search: the number of comparisons is at most the number of binary digits of the length -/
theorem lowerBoundGoT_le (v : List F) (val : F) (first len : Nat) (k : Nat) (hk : len < 2 ^ k) : (lowerBoundGoT v val first len).Le k := by
  induction k generalizing first len with
  | zero =>
    have : len = 0 := by simpa using hk
    rw [lowerBoundGoT, dif_pos this]
    exact Tick.Le.cost 0
  | succ k ih =>
    rw [lowerBoundGoT]
    split
    · exact (Tick.Le.cost 0).mono (by omega)
    · rw [pow_succ] at hk
      refine (Tick.Le.bind (Tick.Le.cost 1) fun mid _ _ => ?_).mono (by omega : 1 + k ≤ k + 1)
      split
      · exact ih _ _ (by omega)
      · exact ih _ _ (by omega)

namespace Corr

theorem shiftNatT_val (k last : F) (l : List F) (out : Vec F) : (shiftNatT k last l out).val = .ok (shiftNat k last l out) := by
  induction l generalizing out with
  | nil => rfl
  | cons t ts ih =>
    rw [shiftNatT, shiftNat, Tick.val_bind, Tick.val_cost, Res.ok_bind, Tick.val_ite, ih]
    split <;> rfl

theorem shiftNatT_le (k last : F) (l : List F) (out : Vec F) : (shiftNatT k last l out).Le l.length := by
  induction l generalizing out with
  | nil => exact Tick.Le.cost 0
  | cons t ts ih =>
    rw [shiftNatT, List.length_cons]
    exact (Tick.Le.bind (Tick.Le.cost 1) fun _ _ _ => Tick.Le.ite ((Tick.Le.cost 0).mono (by omega)) (ih _)).mono (by omega)

theorem shiftNat_length (k last : F) (l : List F) (out : Vec F) : (shiftNat k last l out).elems.length ≤ out.elems.length + l.length := by
  induction l generalizing out with
  | nil => simp [shiftNat]
  | cons t ts ih =>
    rw [shiftNat]
    split
    · simp
    · refine (ih _).trans ?_
      simp [Vec.push]
      omega

theorem selectNatT_val (a : AbsFn) (nt : List F) (s : F) : (selectNatT a nt s).val = selectNat a nt s := by
  unfold selectNatT selectNat lowerBound
  rw [Tick.val_bind, lowerBoundGoT_val]
  congr 1
  funext idx
  rw [Tick.val_ite, Tick.val_cost, Tick.val_cost]

theorem naturalSelectionT_val (a : AbsFn) (c : Corr F) (it : CorrIt F) : (naturalSelectionT a c it).val = naturalSelection a c it := by
  unfold naturalSelectionT naturalSelection
  simp only [Tick.val_bind, Tick.val_cost, Tick.val_mapL, shiftNatT_val, selectNatT_val, Res.ok_bind]

theorem deltaTT_val (a : AbsFn) (c : Corr F) (it : CorrIt F) : (deltaTT a c it).val = deltaT a c it := by
  unfold deltaTT deltaT
  simp only [Tick.val_bind, Tick.val_cost, Tick.val_mapL]

theorem getFractionWeightsT_val (c : Corr F) (it : CorrIt F) : (getFractionWeightsT c it).val = .ok (getFractionWeights c it) := by
  unfold getFractionWeightsT getFractionWeights applyWeights
  simp only [Tick.val_bind, Tick.val_cost, Tick.val_mapL]
  rw [Res.mapL_ok (g := fractionWeight c.alpha) fun _ _ => rfl]
  rfl

theorem sumCorrelationT_val (c : Corr F) (it : CorrIt F) (j : Nat) (acc : F) : (sumCorrelationT c it j acc).val = sumCorrelation c it j acc := by
  unfold sumCorrelationT sumCorrelation
  simp only [Tick.val_foldL, Tick.val_cost]

theorem findCorrelationT_val (c : Corr F) (it : CorrIt F) : (findCorrelationT c it).val = findCorrelation c it := by
  unfold findCorrelationT findCorrelation
  simp only [Tick.val_bind, Tick.val_foldL, Tick.val_cost, sumCorrelationT_val]

theorem addCorrelationDataT_val (c : Corr F) (it : CorrIt F) (i : Nat) : (addCorrelationDataT c it i).val = addCorrelationData c it i := by
  unfold addCorrelationDataT addCorrelationData
  simp only [Tick.val_bind, Tick.val_foldL, Tick.val_cost]

theorem cleanCorrelationDataT_val (c : Corr F) (i : Nat) : (cleanCorrelationDataT c i).val = cleanCorrelationData c i := by
  unfold cleanCorrelationDataT cleanCorrelationData
  simp only [Tick.val_bind, Tick.val_foldL, Tick.val_cost, Res.ok_bind]

theorem standardStepT_val (a : AbsFn) (c : Corr F) (k : F) (i : Nat) : (standardStepT a c k i).val = standardStep a c k i := by
  unfold standardStepT standardStep
  simp only [Tick.val_bind, Tick.val_cost, Res.ok_bind, naturalSelectionT_val, deltaTT_val, getFractionWeightsT_val, findCorrelationT_val, addCorrelationDataT_val]

theorem standardLoopT_val (a : AbsFn) (fuel : Nat) (c : Corr F) (k : F) (isPos : Bool) (i : Nat) :
    (standardLoopT a fuel c k isPos i).val = standardLoop a fuel c k isPos i := by
  induction fuel generalizing c k isPos i with
  | zero => rfl
  | succ fuel ih =>
    rw [standardLoopT, standardLoop]
    simp only [Tick.val_ite, Tick.val_bind, Tick.val_cost, Res.ok_bind, standardStepT_val, ih]

theorem calculateStandardCorrelationT_val (a : AbsFn) (c : Corr F) : (calculateStandardCorrelationT a c).val = calculateStandardCorrelation a c := by
  unfold calculateStandardCorrelationT calculateStandardCorrelation
  simp only [Tick.val_bind, standardLoopT_val, cleanCorrelationDataT_val]

theorem normOfT_val (ds : DS F) (j : Nat) : (normOfT ds j).val = normOf ds j := by
  unfold normOfT normOf
  rw [Tick.val_foldL]
  congr 1
  funext acc i
  simp only [Tick.val_bind, Tick.val_cost, Tick.val_ite]
  congr 1
  funext x
  split
  · rfl
  · cases rawGet ds.dataMean j <;> rfl

theorem newT_val (ds : DS F) : (Corr.newT ds).val = Corr.new ds := by
  unfold Corr.newT Corr.new
  simp only [Tick.val_bind, Tick.val_cost, Tick.val_mapL, normOfT_val, findMinDiffT_val, Res.ok_bind]

/-! ### one lag -/

/-- the number of binary digits -/
abbrev digits (M : Nat) : Nat := Nat.log 2 M + 1

theorem selectNatT_le (a : AbsFn) (nt : List F) (s : F) : (selectNatT a nt s).Le (digits nt.length) := by
  unfold selectNatT
  exact Tick.Le.bind (b := 0) (lowerBoundGoT_le _ _ _ _ _ (Nat.lt_pow_succ_log_self (by omega) _)) fun idx _ _ => Tick.Le.ite (Tick.Le.cost 0) (Tick.Le.cost 0)

theorem naturalSelectionT_le (a : AbsFn) (c : Corr F) (k : F) (N : Nat) :
    (naturalSelectionT a c (CorrIt.new k N)).Le (c.ds.normT.length * (digits c.ds.normT.length + 2)) := by
  unfold naturalSelectionT
  refine (Tick.Le.bind (Tick.Le.cost 0) fun last _ _ => Tick.Le.bind (shiftNatT_le _ _ _ _) fun sh n hsh => ?_ :
    Tick.Le _ (0 + (c.ds.normT.length + c.ds.normT.length * (digits c.ds.normT.length + 1)))).mono (le_of_eq (by ring))
  have h1 := Tick.val_ok hsh
  rw [shiftNatT_val] at h1
  have h2 : sh.elems.length ≤ c.ds.normT.length := by
    cases h1
    refine (shiftNat_length _ _ _ _).trans ?_
    simp [CorrIt.new, Vec.empty]
  refine (Tick.Le.bind (b := 0) (Tick.Le.mapL (b := digits c.ds.normT.length) fun i _ => (Tick.Le.bind (Tick.Le.cost 0) fun s _ _ => selectNatT_le a _ s).mono (by omega))
    fun _ _ _ => Tick.Le.cost 0).mono ?_
  rw [List.length_range]
  exact Nat.mul_le_mul_right _ h2

/-- what the selection leaves in a new iterator -/
theorem naturalSelection_sizes {a : AbsFn} {c : Corr F} {k : F} {N : Nat} {it : CorrIt F} (h : naturalSelection a c (CorrIt.new k N) = .ok it) :
    it.selection.length ≤ c.ds.normT.length ∧ it.deltaT = [] ∧ it.weights = [] := by
  unfold naturalSelection at h
  obtain ⟨last, _, h⟩ := Res.bind_eq_ok.1 h
  obtain ⟨sel, h1, h⟩ := Res.bind_eq_ok.1 h
  have h2 := Res.mapL_length h1
  rw [List.length_range] at h2
  have h3 := shiftNat_length k last c.ds.normT (CorrIt.new k N).shifted
  cases h
  refine ⟨?_, rfl, rfl⟩
  simp only [CorrIt.new, List.nil_append, Vec.empty, List.length_nil, Nat.zero_add] at h2 h3 ⊢
  omega

theorem deltaT_sizes {a : AbsFn} {c : Corr F} {it it' : CorrIt F} (h : deltaT a c it = .ok it') :
    it'.deltaT.length = it.deltaT.length + it.selection.length ∧ it'.weights = it.weights := by
  unfold deltaT at h
  obtain ⟨ds, h1, h⟩ := Res.bind_eq_ok.1 h
  have h2 := Res.mapL_length h1
  cases h
  exact ⟨by simp [h2], rfl⟩

/-- steps for one lag -/
def lagSteps (M N : Nat) : Nat := M * (digits M + N + 4) + 4 * N

theorem standardStepT_le (a : AbsFn) (c : Corr F) (k : F) (i : Nat) : (standardStepT a c k i).Le (lagSteps c.ds.normT.length c.ds.N) := by
  unfold standardStepT
  set M := c.ds.normT.length with hM
  set N := c.ds.N with hN
  refine (Tick.Le.bind (Tick.Le.cost (2 * N)) fun it0 _ h0 => Tick.Le.bind (a := M * (digits M + 2)) (b := M + (M + (N * (M + 1) + N))) ?_ fun it1 _ h1 =>
    Tick.Le.bind (a := M) (b := M + (N * (M + 1) + N)) ?_ fun it2 _ h2 => Tick.Le.bind (a := M) (b := N * (M + 1) + N) ?_ fun it3 _ h3 =>
    Tick.Le.bind (a := N * (M + 1)) (b := N) ?_ fun it4 _ h4 => ?_).mono ?_
  · obtain rfl : CorrIt.new k N = it0 := by simpa using (Tick.cost_ok h0).1
    exact naturalSelectionT_le a c k N
  all_goals try
    obtain rfl : CorrIt.new k N = it0 := by simpa using (Tick.cost_ok h0).1
    have g1 := Tick.val_ok h1
    rw [naturalSelectionT_val] at g1
    obtain ⟨s1, s2, s3⟩ := naturalSelection_sizes g1
  · unfold deltaTT
    refine (Tick.Le.bind (b := 0) (Tick.Le.mapL (b := 0) fun _ _ => Tick.Le.cost 0) fun _ _ _ => Tick.Le.cost 0).mono ?_
    rw [List.length_zipIdx]
    omega
  all_goals try
    have g2 := Tick.val_ok h2
    rw [deltaTT_val] at g2
    obtain ⟨s4, s5⟩ := deltaT_sizes g2
    rw [s2, List.length_nil, Nat.zero_add] at s4
  · unfold getFractionWeightsT
    refine (Tick.Le.bind (b := 0) (Tick.Le.mapL (b := 0) fun _ _ => Tick.Le.cost 0) fun _ _ _ => Tick.Le.cost 0).mono ?_
    omega
  all_goals try
    have g3 := Tick.val_ok h3
    rw [getFractionWeightsT_val] at g3
    have s6 : it3.weights.length ≤ M := by
      cases g3
      simp [getFractionWeights, applyWeights, s5, s3, s4]
      omega
  · unfold findCorrelationT
    refine (Tick.Le.bind (b := 0) (Tick.Le.foldL (b := M) (fun out j _ => (Tick.Le.bind (b := M) (Tick.Le.cost 0) fun _ _ _ =>
      Tick.Le.bind (a := M) (b := 0) ?_ fun _ _ _ => Tick.Le.bind (b := 0) (Tick.Le.cost 0) fun _ _ _ => Tick.Le.cost 0).mono (by omega)) _)
      fun _ _ _ => Tick.Le.cost 0).mono (by rw [List.length_range]; exact le_rfl)
    unfold sumCorrelationT
    refine (Tick.Le.foldL (b := 0) (fun _ _ _ => Tick.Le.cost 0) _).mono ?_
    rw [List.length_zipIdx]
    omega
  · unfold addCorrelationDataT
    exact (Tick.Le.bind (b := N) (Tick.Le.cost 0) fun _ _ _ => (Tick.Le.bind (b := 0) (Tick.Le.foldL (b := 0) (fun _ _ _ => Tick.Le.cost 0) _)
      fun _ _ _ => Tick.Le.cost 0).mono (by rw [List.length_range]; omega)).mono (by omega)
  · unfold lagSteps
    nlinarith

/-! ### all lags -/

theorem standardLoopT_steps {a : AbsFn} {fuel : Nat} {c c' : Corr F} {k : F} {isPos : Bool} {i i' n : Nat}
    (h : standardLoopT a fuel c k isPos i = .ok ((c', i'), n)) :
    c'.ds = c.ds ∧ i ≤ i' ∧ n ≤ (i' - i) * (lagSteps c.ds.normT.length c.ds.N + 1) := by
  induction fuel generalizing c k isPos i n with
  | zero => cases h
  | succ fuel ih =>
    have step : ∀ {c c1 : Corr F} {k : F} {i m : Nat}, standardStepT a c k i = .ok (c1, m) → c1.ds = c.ds ∧ m ≤ lagSteps c.ds.normT.length c.ds.N := fun h => by
      have h1 := Tick.val_ok h
      rw [standardStepT_val] at h1
      exact ⟨(standardStep_same h1).ds, standardStepT_le _ _ _ _ _ _ h⟩
    rw [standardLoopT] at h
    split at h
    · obtain ⟨_, n0, n1, h0, hA, q0⟩ := Tick.bind_ok h
      have e0 := (Tick.cost_ok h0).2
      clear h
      dsimp only at hA
      generalize (if eq k zero = true then true else isPos) = pos at hA
      split at hA
      · obtain ⟨c1, m1, n2, h1, hB, q1⟩ := Tick.bind_ok hA
        obtain ⟨c2, m2, n3, h2, h, q2⟩ := Tick.bind_ok hB
        obtain ⟨e1, b1⟩ := step h1
        obtain ⟨e2, b2⟩ := step h2
        obtain ⟨e3, b3, b4⟩ := ih h
        rw [e1] at e2 b2
        rw [e2] at e3 b4
        refine ⟨e3, by omega, ?_⟩
        obtain ⟨q, rfl⟩ : ∃ q, i' = i + 2 + q := ⟨i' - (i + 2), by omega⟩
        rw [show i + 2 + q - (i + 2) = q by omega] at b4
        rw [show i + 2 + q - i = q + 2 by omega, Nat.add_mul]
        omega
      · obtain ⟨c1, m1, n2, h1, h, q1⟩ := Tick.bind_ok hA
        obtain ⟨e1, b1⟩ := step h1
        obtain ⟨e3, b3, b4⟩ := ih h
        rw [e1] at e3 b4
        refine ⟨e3, by omega, ?_⟩
        obtain ⟨q, rfl⟩ : ∃ q, i' = i + 1 + q := ⟨i' - (i + 1), by omega⟩
        rw [show i + 1 + q - (i + 1) = q by omega] at b4
        rw [show i + 1 + q - i = q + 1 by omega, Nat.add_mul]
        omega
    · obtain ⟨h1, rfl⟩ := Tick.cost_ok h
      cases h1
      exact ⟨rfl, le_rfl, by simp⟩

theorem resizeF_len (l : List F) (n : Nat) : (resizeF l n).length = n := by
  unfold resizeF
  simp
  omega

theorem cleanCorrelationDataT_steps {c c' : Corr F} {i n : Nat} (h : cleanCorrelationDataT c i = .ok (c', n)) :
    c'.ds = c.ds ∧ c'.tsBuf.length = i ∧ c'.numLagSteps = i ∧ n ≤ i + 3 * (c.ds.N * i) + c.ds.N := by
  unfold cleanCorrelationDataT at h
  obtain ⟨ts, n0, n1, h0, hA, q0⟩ := Tick.bind_ok h
  obtain ⟨z, n2, n3, h2, hB, q1⟩ := Tick.bind_ok hA
  obtain ⟨buf, n4, n5, h4, hC, q2⟩ := Tick.bind_ok hB
  clear h hA hB
  obtain ⟨h0, q3⟩ := Tick.cost_ok h0
  obtain ⟨h2, q4⟩ := Tick.cost_ok h2
  obtain ⟨h, q5⟩ := Tick.cost_ok hC
  cases h0
  cases h2
  cases h
  have hb : n4 ≤ c.ds.N * (i + 1) := by
    have := Tick.Le.foldL (l := List.range c.ds.N) (b := i) (f := fun out j =>
      Tick.bind (Tick.cost 0 (slice c.corrBuf (j * c.numLagSteps) (j * c.numLagSteps + i))) fun row => Tick.cost row.length (writeAt out (j * i) row))
      (fun out j _ => (Tick.Le.bind (b := i) (Tick.Le.cost 0) fun row m hm => (Tick.Le.cost _).mono (by
        obtain ⟨hm, _⟩ := Tick.cost_ok hm
        unfold slice at hm
        split at hm
        · cases hm
          simp
        · cases hm)).mono (by omega)) _ _ _ h4
    rwa [List.length_range] at this
  have hl : buf.length = c.ds.N * i := by
    have h5 := Tick.val_ok h4
    rw [Tick.val_foldL] at h5
    have := foldL_rawSet_length _ (fun s j s' hs => by
      rw [Tick.val_bind, Tick.val_cost] at hs
      obtain ⟨row, _, hs⟩ := Res.bind_eq_ok.1 hs
      rw [Tick.val_cost] at hs
      unfold writeAt at hs
      split at hs
      · cases hs
        simp
        omega
      · cases hs) _ _ _ h5
    simpa using this
  refine ⟨rfl, resizeF_len _ _, rfl, ?_⟩
  rw [hl] at q5
  rw [Nat.mul_add] at hb
  omega

/-- steps of `calculateStandardCorrelation()` for `L` lags -/
theorem calculateT_steps {a : AbsFn} {c c' : Corr F} {n : Nat} (h : calculateStandardCorrelationT a c = .ok (c', n)) :
    c'.ds = c.ds ∧ c'.numLagSteps = c'.tsBuf.length ∧
    n ≤ c'.tsBuf.length * (c.ds.normT.length * (digits c.ds.normT.length + c.ds.N + 4) + 7 * c.ds.N + 2) + c.ds.N := by
  unfold calculateStandardCorrelationT at h
  obtain ⟨⟨c1, i⟩, n1, n2, h1, h2, rfl⟩ := Tick.bind_ok h
  obtain ⟨e1, _, b1⟩ := standardLoopT_steps h1
  obtain ⟨e2, l2, m2, b2⟩ := cleanCorrelationDataT_steps h2
  refine ⟨e2.trans e1, m2.trans l2.symm, ?_⟩
  rw [l2]
  rw [e1] at b2
  unfold lagSteps at b1
  rw [Nat.sub_zero] at b1
  refine (Nat.add_le_add b1 b2).trans (le_of_eq ?_)
  ring

theorem correlationsT_val (c : Corr F) : c.correlationsT.val = c.correlations := by
  unfold correlationsT correlations
  simp only [Tick.val_mapL, Tick.val_bind, Tick.val_cost, Res.ok_bind]
  congr 1
  funext j
  cases Res.mapL (fun i => rawGet c.corrBuf (i + j * c.numLagSteps)) (List.range c.numLagSteps) <;> rfl

theorem correlationsT_le (c : Corr F) : c.correlationsT.Le (c.ds.N * (3 * c.numLagSteps + 1)) := by
  unfold correlationsT
  refine (Tick.Le.mapL (b := 3 * c.numLagSteps) fun j _ => (Tick.Le.bind (b := 2 * c.numLagSteps) (Tick.Le.cost _) fun _ _ _ =>
    (Tick.Le.bind (a := c.numLagSteps) (b := c.numLagSteps) ((Tick.Le.mapL (b := 0) fun _ _ => Tick.Le.cost 0).mono ?_) fun row m hm => (Tick.Le.cost _).mono ?_).mono ?_).mono ?_).mono ?_
  · rw [List.length_range]; omega
  · rw [Tick.mapL_length hm, List.length_range]
  · omega
  · omega
  · rw [List.length_range]

end Corr

theorem autocorrelationT_val (a : AbsFn) (d : DS F) (g : LagArgs F) : (autocorrelationT a d g).val = autocorrelation a d g "natural" "fractional" := by
  unfold autocorrelationT autocorrelation
  simp only [Tick.val_bind, Tick.val_cost, Corr.newT_val, Corr.calculateStandardCorrelationT_val, Corr.correlationsT_val, Res.ok_bind, and_self, if_true]
  congr 1
  funext c0
  congr 1
  funext c
  cases c.correlations <;> rfl

/-! ### the constructor -/

/-- entries of a table that are not NaN as `float` -/
def presentCount (rows : List (List F)) : Nat := (rows.map (List.countP fun x => !isNaN (toFloat x))).sum

theorem sum_ite_count (p : α → Bool) (l : List α) (k : Nat) : (l.map fun x => if p x then 0 else k).sum = k * l.countP fun x => !p x := by
  induction l with
  | nil => simp
  | cons x xs ih =>
    rw [List.map_cons, List.sum_cons, ih, List.countP_cons]
    cases p x <;> simp
    ring

theorem sum_of_mapL {f : α → Res β} {g : α → Nat} {k : β → Nat} {l : List α} {ys : List β} (h : Res.mapL f l = .ok ys)
    (hg : ∀ x ∈ l, ∀ y, f x = .ok y → g x = k y) : (l.map g).sum = (ys.map k).sum := by
  induction l generalizing ys with
  | nil => cases h; rfl
  | cons x xs ih =>
    obtain ⟨y, h1, h2⟩ := Res.bind_eq_ok.1 h
    obtain ⟨ys', h3, h4⟩ := Res.bind_eq_ok.1 h2
    cases h4
    rw [List.map_cons, List.sum_cons, List.map_cons, List.sum_cons, hg x (by simp) y h1, ih h3 fun x hx => hg x (by simp [hx])]

theorem normOfT_steps {d : DS F} {j : Nat} {row : List F} (hrow : Res.mapL (fun i => rawGet d.data (vecIdx d.M i j)) (List.range d.M) = .ok row)
    {x : F} {n : Nat} (h : normOfT d j = .ok (x, n)) :
    n = d.M + 2 * d.dataMean.length * row.countP fun x => !isNaN (toFloat x) := by
  unfold normOfT at h
  have h1 := Tick.foldL_steps (g := fun i => match d.data[vecIdx d.M i j]? with
    | some y => if isNaN (toFloat y) then 0 else 2 * d.dataMean.length
    | none => 0) (fun acc i _ s' m hm => by
      obtain ⟨y, a, b, h1, h2, rfl⟩ := Tick.bind_ok hm
      obtain ⟨h1, rfl⟩ := Tick.cost_ok h1
      unfold atGet at h1
      split at h1
      · rename_i y' hy
        cases h1
        rw [hy]
        dsimp only at h2 ⊢
        split at h2
        · rename_i hnan
          rw [if_pos hnan, (Tick.cost_ok h2).2]
        · rename_i hnan
          obtain ⟨_, a1, b1, h3, h4, q1⟩ := Tick.bind_ok h2
          obtain ⟨_, a2, b2, h5, h6, q2⟩ := Tick.bind_ok h4
          have q3 := (Tick.cost_ok h3).2
          have q4 := (Tick.cost_ok h5).2
          have q5 := (Tick.cost_ok h6).2
          rw [if_neg hnan]
          omega
      · cases h1) h
  rw [h1, List.length_range, ← sum_ite_count, sum_of_mapL hrow]
  intro i _ y hy
  unfold rawGet at hy
  split at hy
  · rename_i y' hy'
    cases hy
    rw [hy']
  · cases hy

/-- the exact number of steps of the constructor -/
theorem newT_steps {d : DS F} {rows : List (List F)} (hrows : d.data2d = .ok rows) {c : Corr F} {n : Nat} (h : Corr.newT d = .ok (c, n)) :
    n = 2 * d.N + d.N * d.M + 2 * d.dataMean.length * presentCount rows + (d.normT.length - 1) + (d.N + 1) * c.tsBuf.length := by
  unfold Corr.newT at h
  obtain ⟨_, a0, b0, h0, hA, q0⟩ := Tick.bind_ok h
  obtain ⟨norm, a1, b1, h1, hB, q1⟩ := Tick.bind_ok hA
  obtain ⟨hi, a2, b2, h2, hC, q2⟩ := Tick.bind_ok hB
  obtain ⟨res, a3, b3, h3, hD, q3⟩ := Tick.bind_ok hC
  obtain ⟨S, a4, b4, h4, hE, q4⟩ := Tick.bind_ok hD
  obtain ⟨cb, a5, b5, h5, hG, q5⟩ := Tick.bind_ok hE
  obtain ⟨tb, a6, b6, h6, hH, q6⟩ := Tick.bind_ok hG
  clear h hA hB hC hD hE hG
  have p0 := (Tick.cost_ok h0).2
  have p2 := (Tick.cost_ok h2).2
  have p3 := findMinDiffT_go_steps h3
  have p4 := (Tick.cost_ok h4).2
  have p5 := (Tick.cost_ok h5).2
  obtain ⟨h6, p6⟩ := Tick.cost_ok h6
  obtain ⟨h7, p7⟩ := Tick.cost_ok hH
  cases h6
  cases h7
  have p1 := Tick.mapL_steps (g := fun j => match Res.mapL (fun i => rawGet d.data (vecIdx d.M i j)) (List.range d.M) with
    | .ok row => d.M + 2 * d.dataMean.length * row.countP fun x => !isNaN (toFloat x)
    | _ => 0) (fun j hj x m hm => by
      have h8 : ∃ row, Res.mapL (fun i => rawGet d.data (vecIdx d.M i j)) (List.range d.M) = .ok row := by
        unfold DS.data2d unflatten at hrows
        obtain ⟨row, _, h9⟩ := Res.mapL_eq_ok_getElem hrows j j (List.getElem?_range (List.mem_range.1 hj))
        exact ⟨row, h9⟩
      obtain ⟨row, h8⟩ := h8
      rw [normOfT_steps h8 hm, h8]) h1
  have p8 : ((List.range d.N).map fun j => match Res.mapL (fun i => rawGet d.data (vecIdx d.M i j)) (List.range d.M) with
      | .ok row => d.M + 2 * d.dataMean.length * row.countP fun x => !isNaN (toFloat x)
      | _ => 0).sum = (rows.map fun row => d.M + 2 * d.dataMean.length * row.countP fun x => !isNaN (toFloat x)).sum :=
    sum_of_mapL hrows fun j _ row hrow => by rw [hrow]
  have hlen : rows.length = d.N := by
    have := Res.mapL_length hrows
    simpa using this
  have p9 : (rows.map fun row => d.M + 2 * d.dataMean.length * row.countP fun x => !isNaN (toFloat x)).sum
      = rows.length * d.M + 2 * d.dataMean.length * presentCount rows := by
    unfold presentCount
    clear p8 hlen hrows
    induction rows with
    | nil => simp
    | cons r rs ih =>
      rw [List.map_cons, List.sum_cons, ih, List.map_cons, List.sum_cons, List.length_cons]
      ring
  rw [List.length_range, p8, p9, hlen] at p1
  have e1 : (d.N + 1) * (List.replicate S (zero : F)).length = d.N * S + S := by rw [List.length_replicate]; ring
  simp only [e1]
  omega

/-! ### theorems -/

theorem runSession_ds (a : AbsFn) (calls : List (SCall F)) {c c' : Corr F} {log : List (Option Exc)} (h : runSession a c calls = .ok (c', log)) :
    c'.ds = c.ds := by
  induction calls generalizing c log with
  | nil => cases h; rfl
  | cons x xs ih =>
    unfold runSession at h
    have hfix := SCall.run_fixed (a := a) (c := c) x
    cases hx : x.run a c with
    | ok u s =>
      rw [hx] at h hfix
      obtain ⟨⟨c1, l1⟩, h1, h2⟩ := Res.bind_eq_ok.1 h
      cases h2
      exact (ih h1).trans hfix.1
    | exn e s =>
      rw [hx] at h hfix
      obtain ⟨⟨c1, l1⟩, h1, h2⟩ := Res.bind_eq_ok.1 h
      cases h2
      exact (ih h1).trans hfix.1
    | ub => rw [hx] at h; cases h
    | diverge => rw [hx] at h; cases h

theorem presentCount_le {rows : List (List F)} {M : Nat} (h : ∀ row ∈ rows, row.length = M) : presentCount rows ≤ rows.length * M := by
  unfold presentCount
  induction rows with
  | nil => simp
  | cons r rs ih =>
    rw [List.map_cons, List.sum_cons, List.length_cons, Nat.succ_mul]
    have h1 := List.countP_le_length (p := fun x : F => !isNaN (toFloat x)) (l := r)
    have h2 := h r (by simp)
    have h3 := ih fun row hr => h row (by simp [hr])
    omega

theorem table_shape {d : DS F} {rows : List (List F)} (h : d.data2d = .ok rows) : rows.length = d.N ∧ ∀ row ∈ rows, row.length = d.M := by
  have h1 := Res.mapL_length h
  refine ⟨by simpa using h1, fun row hr => ?_⟩
  obtain ⟨j, hj, rfl⟩ := List.mem_iff_getElem.1 hr
  have hj' : j < d.N := by rw [h1, List.length_range] at hj; exact hj
  obtain ⟨row, h2, h3⟩ := Res.mapL_eq_ok_getElem h j j (List.getElem?_range hj')
  rw [List.getElem?_eq_getElem hj] at h2
  cases h2
  have := Res.mapL_length h3
  simpa using this

/-- **C110**: the counter changes no outcome. -/
theorem C110_same_outcome (a : AbsFn) (d : DS F) (c : Corr F) (g : LagArgs F) :
    (Corr.newT d).val = Corr.new d ∧ (Corr.calculateStandardCorrelationT a c).val = Corr.calculateStandardCorrelation a c ∧
    (autocorrelationT a d g).val = autocorrelation a d g "natural" "fractional" :=
  ⟨Corr.newT_val d, Corr.calculateStandardCorrelationT_val a c, autocorrelationT_val a d g⟩

/-- **C110**: whatever was called before, computing `L` correlations of `N` datasets of `M` samples takes at most `L (M (log₂ M + N + 5) + 7 N + 2) + N` steps. -/
theorem C110_calculate (a : AbsFn) (d : DS F) (hd : Constructed d) (c0 c c' : Corr F) (h0 : Corr.new d = .ok c0) (calls : List (SCall F))
    (log : List (Option Exc)) (hs : runSession a c0 calls = .ok (c, log)) (h : Corr.calculateStandardCorrelation a c = .ok c') :
    ∃ n, Corr.calculateStandardCorrelationT a c = .ok (c', n) ∧
      n ≤ c'.lagTimeseries.length * (d.timeseries.length * (Nat.log 2 d.timeseries.length + d.N + 5) + 7 * d.N + 2) + d.N := by
  rw [← Corr.calculateStandardCorrelationT_val] at h
  obtain ⟨n, hn⟩ := Tick.ok_of_val h
  obtain ⟨m, _, rfl, hg⟩ := corrNew_good hd.wf h0
  have e : c.ds = d := runSession_ds a calls hs
  obtain ⟨_, _, b⟩ := Corr.calculateT_steps hn
  obtain ⟨t, data, err, N, hN, hb⟩ := hd.built
  have e2 : d.normT.length = d.timeseries.length := by unfold DS.timeseries; rw [hb.normT, hb.ht]; simp
  rw [e, e2] at b
  exact ⟨n, hn, b.trans (le_of_eq (by unfold Corr.lagTimeseries Corr.digits; ring))⟩

/-- **C111**: the exact number of steps of creating a `Correlator` of `N` datasets of `M` samples, of which `presentCount rows` are not NaN. -/
theorem C111_new (d : DS F) (hd : Constructed d) (rows : List (List F)) (hrows : d.data2d = .ok rows) (c : Corr F) (h : Corr.new d = .ok c) :
    Corr.newT d = .ok (c, 2 * d.N + d.N * d.timeseries.length + 2 * d.N * presentCount rows + (d.timeseries.length - 1) + (d.N + 1) * c.lagTimeseries.length) := by
  rw [← Corr.newT_val] at h
  obtain ⟨n, hn⟩ := Tick.ok_of_val h
  obtain ⟨t, data, err, N, hN, hb⟩ := hd.built
  have e2 : d.normT.length = d.timeseries.length := by unfold DS.timeseries; rw [hb.normT, hb.ht]; simp
  have e3 : d.M = d.timeseries.length := by rw [hd.wf.M_eq, e2]
  rw [hn, newT_steps hrows hn, hd.wf.mean_len, e2, e3]
  rfl

/-- **C111**: without missing values, the steps grow with the square of the number of datasets. -/
theorem C111_quadratic (d : DS F) (hd : Constructed d) (rows : List (List F)) (hrows : d.data2d = .ok rows)
    (hp : ∀ row ∈ rows, ∀ x ∈ row, isNaN (toFloat x) = false) (c : Corr F) (n : Nat) (h : Corr.newT d = .ok (c, n)) :
    2 * d.N ^ 2 * d.timeseries.length ≤ n := by
  have h1 := Tick.val_ok h
  rw [Corr.newT_val] at h1
  have h2 := C111_new d hd rows hrows c h1
  rw [h] at h2
  obtain ⟨t, data, err, N, hN, hb⟩ := hd.built
  have e2 : d.M = d.timeseries.length := by unfold DS.timeseries; rw [hb.hM, hb.ht]
  obtain ⟨s1, s2⟩ := table_shape hrows
  have e3 : presentCount rows = d.N * d.timeseries.length := by
    rw [← s1, ← e2]
    unfold presentCount
    clear hrows h2 s1
    induction rows with
    | nil => simp
    | cons r rs ih =>
      rw [List.map_cons, List.sum_cons, ih (fun row hr => hp row (by simp [hr])) fun row hr => s2 row (by simp [hr]), List.length_cons, Nat.succ_mul,
        List.countP_eq_length.2 fun x hx => by simp [hp r (by simp) x hx], s2 r (by simp)]
      omega
  simp only [Res.ok.injEq, Prod.mk.injEq, true_and] at h2
  rw [h2, e3]
  nlinarith [Nat.zero_le (d.N * d.timeseries.length), Nat.zero_le ((d.N + 1) * c.lagTimeseries.length)]

/-- **C110**, the whole of `autocorrelation()` with the default functions: the steps of the constructor, which depend on the default range of lags whatever range is
asked for, and those of the lags. -/
theorem C110_autocorrelation (a : AbsFn) (d : DS F) (hd : Constructed d) (g : LagArgs F) (r : AcResult F)
    (h : autocorrelation a d g "natural" "fractional" = .ok r) :
    ∃ (c0 : Corr F) (n : Nat), Corr.new d = .ok c0 ∧ autocorrelationT a d g = .ok (r, n) ∧
      n ≤ (2 * d.N ^ 2 * d.timeseries.length + d.N * d.timeseries.length + d.timeseries.length + 2 * d.N + (d.N + 1) * c0.lagTimeseries.length)
        + (r.lags.length * (d.timeseries.length * (Nat.log 2 d.timeseries.length + d.N + 5) + 13 * d.N + 3) + 3 * d.N) := by
  rw [← autocorrelationT_val] at h
  obtain ⟨n, hn⟩ := Tick.ok_of_val h
  clear h
  have hn' := hn
  unfold autocorrelationT at hn'
  obtain ⟨c0, n0, m0, h0, hA, q0⟩ := Tick.bind_ok hn'
  obtain ⟨c, n1, m1, h1, hB, q1⟩ := Tick.bind_ok hA
  obtain ⟨lags, n2, m2, h2, hC, q2⟩ := Tick.bind_ok hB
  obtain ⟨_, n3, m3, h3, hD, q3⟩ := Tick.bind_ok hC
  obtain ⟨_, n4, m4, h4, hE, q4⟩ := Tick.bind_ok hD
  obtain ⟨_, n5, m5, h5, hG, q5⟩ := Tick.bind_ok hE
  have p5 := (Tick.cost_ok h5).2
  obtain ⟨h6, p6⟩ := Tick.cost_ok hG
  obtain ⟨h2, p2⟩ := Tick.cost_ok h2
  cases h2
  cases h6
  have h0' := Tick.val_ok h0
  rw [Corr.newT_val] at h0'
  refine ⟨c0, n, h0', hn, ?_⟩
  obtain ⟨rows, hrows⟩ := data2d_ok hd
  obtain ⟨s1, s2⟩ := table_shape hrows
  have b0 := C111_new d hd rows hrows c0 h0'
  rw [h0] at b0
  simp only [Res.ok.injEq, Prod.mk.injEq, true_and] at b0
  have b0' := presentCount_le s2
  obtain ⟨t, data, err, N, hN, hb⟩ := hd.built
  have e1 : d.normT.length = d.timeseries.length := by unfold DS.timeseries; rw [hb.normT, hb.ht]; simp
  have e2 : d.M = d.timeseries.length := by unfold DS.timeseries; rw [hb.hM, hb.ht]
  obtain ⟨S, _, rfl, hg⟩ := corrNew_good hd.wf h0'
  obtain ⟨k1, k2, b1⟩ := Corr.calculateT_steps h1
  have e3 : (setUpCorrelation (Corr.fresh d S) g).ds = d := by rw [setUp_fields]; rfl
  rw [e3] at k1 b1
  rw [e1] at b1
  have b3 := Corr.correlationsT_le c _ _ h3
  have b4 := Corr.correlationsT_le c _ _ h4
  rw [k1, k2] at b3 b4
  rw [s1, e2] at b0'
  unfold Corr.digits at b1
  unfold Corr.lagTimeseries at *
  generalize c.tsBuf.length = L at *
  generalize d.timeseries.length = M at *
  have b0'' : 2 * d.N * presentCount rows ≤ 2 * d.N * (d.N * M) := Nat.mul_le_mul_left _ b0'
  have f1 : 2 * d.N * (d.N * M) = 2 * d.N ^ 2 * M := by ring
  have f2 : L * (M * (Nat.log 2 M + d.N + 5) + 13 * d.N + 3) = L * (M * (Nat.log 2 M + 1 + d.N + 4) + 7 * d.N + 2) + 2 * (d.N * (3 * L)) + L := by ring
  rw [Nat.mul_add] at b3 b4
  omega

end Sacf
