import Verif.Props.Acf
import Verif.Props.Driver
import Verif.Lemmas.Round

/-!
# The low-level API (C56, C57, C58)

The steps of a lag are exposed one by one: a caller may create a `CorrelationIterator` of any size, run selection,
`deltaT`, a weight function and `findCorrelation` on it, and do so again.
-/

set_option linter.unusedSectionVars false

namespace Sacf

open Arith

section lawfree
variable {F : Type} [Arith F]

/-! ### sizes -/

theorem naturalSelection_sizes {a : AbsFn} {c : Corr F} {it it' : CorrIt F} (h : Corr.naturalSelection a c it = .ok it') :
    it'.weights = it.weights ∧ it'.deltaT = it.deltaT ∧ it'.correlation = it.correlation ∧ it'.k = it.k := by
  unfold Corr.naturalSelection at h
  simp only [Res.bind_eq_ok, Res.ok.injEq] at h
  obtain ⟨_, _, _, _, rfl⟩ := h
  exact ⟨rfl, rfl, rfl, rfl⟩

theorem fastSelection_sizes {a : AbsFn} {c : Corr F} {it it' : CorrIt F} (h : Corr.fastSelection a c it = .ok it') :
    it'.weights = it.weights ∧ it'.deltaT = it.deltaT ∧ it'.correlation = it.correlation ∧ it'.k = it.k := by
  unfold Corr.fastSelection at h
  simp only [Res.bind_eq_ok] at h
  obtain ⟨_, _, h⟩ := h
  split at h
  · simp only [Res.ok.injEq] at h; subst h; exact ⟨rfl, rfl, rfl, rfl⟩
  · simp only [Res.bind_eq_ok, Res.ok.injEq] at h
    obtain ⟨_, _, _, _, _, _, _, _, _, _, _, _, _, _, rfl⟩ := h
    exact ⟨rfl, rfl, rfl, rfl⟩

theorem selection_sizes {a : AbsFn} {sel : String} {f : Corr F → CorrIt F → Res (CorrIt F)}
    (hf : selectionFunction a sel = .ok f) {c : Corr F} {it it' : CorrIt F} (h : f c it = .ok it') :
    it'.weights = it.weights ∧ it'.deltaT = it.deltaT ∧ it'.correlation = it.correlation ∧ it'.k = it.k := by
  unfold selectionFunction at hf
  split at hf
  · simp only [Res.ok.injEq] at hf; subst hf; exact fastSelection_sizes h
  · split at hf
    · simp only [Res.ok.injEq] at hf; subst hf; exact naturalSelection_sizes h
    · simp at hf

theorem deltaT_sizes {a : AbsFn} {c : Corr F} {it it' : CorrIt F} (h : Corr.deltaT a c it = .ok it') :
    it'.weights = it.weights ∧ it'.selection = it.selection ∧ it'.correlation = it.correlation ∧ it'.k = it.k ∧
      it'.deltaT.length = it.deltaT.length + it.selection.length := by
  unfold Corr.deltaT at h
  simp only [Res.bind_eq_ok, Res.ok.injEq] at h
  obtain ⟨ds, h1, rfl⟩ := h
  have := Res.mapL_length h1
  refine ⟨rfl, rfl, rfl, rfl, ?_⟩
  simp only [List.length_append, this, List.length_zipIdx]

theorem weight_sizes {wt : String} {w : Corr F → CorrIt F → CorrIt F} (hw : weightFunction wt = .ok w) (c : Corr F)
    (it : CorrIt F) :
    (w c it).selection = it.selection ∧ (w c it).correlation = it.correlation ∧ (w c it).k = it.k ∧
      (w c it).deltaT = [] ∧ (w c it).weights.length = it.weights.length + it.deltaT.length := by
  unfold weightFunction at hw
  have key : ∀ f : F → F → F, (Corr.applyWeights f c it).selection = it.selection ∧
      (Corr.applyWeights f c it).correlation = it.correlation ∧ (Corr.applyWeights f c it).k = it.k ∧
      (Corr.applyWeights f c it).deltaT = [] ∧
      (Corr.applyWeights f c it).weights.length = it.weights.length + it.deltaT.length := by
    intro f
    refine ⟨rfl, rfl, rfl, rfl, ?_⟩
    simp [Corr.applyWeights]
  split at hw
  · simp only [Res.ok.injEq] at hw; subst hw; exact key _
  · split at hw
    · simp only [Res.ok.injEq] at hw; subst hw; exact key _
    · split at hw
      · simp only [Res.ok.injEq] at hw; subst hw; exact key _
      · simp at hw

theorem foldL_forall {σ α : Type} {f : σ → α → Res σ} {l : List α} {s s' : σ} (h : Res.foldL f s l = .ok s') :
    ∀ x ∈ l, ∃ u u', f u x = .ok u' := by
  induction l generalizing s with
  | nil => simp
  | cons y l ih =>
    rw [Res.foldL_cons, Res.bind_eq_ok] at h
    obtain ⟨s1, h1, h2⟩ := h
    intro x hx
    rcases List.mem_cons.1 hx with rfl | hx
    · exact ⟨_, _, h1⟩
    · exact ih h2 x hx

/-- if the summation returns, every weight has a selected index -/
theorem sumCorrelation_sizes {c : Corr F} {it : CorrIt F} {j : Nat} {acc v : F}
    (h : Corr.sumCorrelation c it j acc = .ok v) : it.weights.length ≤ it.selection.length := by
  by_contra hlt
  unfold Corr.sumCorrelation at h
  have hlt : it.selection.length < it.weights.length := by omega
  obtain ⟨u, u', hu⟩ := foldL_forall h (it.weights[it.selection.length], it.selection.length) (by
    rw [List.mem_iff_getElem?]
    exact ⟨it.selection.length, by simp [hlt]⟩)
  simp only [Res.bind_eq_ok] at hu
  obtain ⟨_, _, s, hs, _⟩ := hu
  rw [rawGet_of_ge (le_refl _)] at hs
  simp at hs

theorem rawSet_length {α : Type} {v w : List α} {i : Nat} {x : α} (h : rawSet v i x = .ok w) : w.length = v.length := by
  rw [rawSet_eq_ok] at h
  rw [h.2]; simp

/-- if `findCorrelation` returns, the iterator has a slot for every dataset and an index for every weight -/
theorem findCorrelation_sizes {c : Corr F} {it it' : CorrIt F} (hN : 0 < c.ds.N)
    (h : Corr.findCorrelation c it = .ok it') :
    it.weights.length ≤ it.selection.length ∧ c.ds.N ≤ it.correlation.length ∧ it'.selection = it.selection ∧
      it'.weights = it.weights ∧ it'.deltaT = it.deltaT := by
  unfold Corr.findCorrelation at h
  rw [Res.bind_eq_ok] at h
  obtain ⟨out, h, h'⟩ := h
  simp only [Res.ok.injEq] at h'
  have key : ∀ (l : List Nat) (s : List F) (out : List F), Res.foldL
      (fun out j =>
        (rawGet out j).bind fun acc0 =>
        (Corr.sumCorrelation c it j acc0).bind fun acc =>
        (rawGet c.norm j).bind fun n =>
        rawSet out j (mul acc (div one n))) s l = .ok out → ∀ j ∈ l, j < s.length := by
    intro l
    induction l with
    | nil => simp
    | cons j l ih =>
      intro s out h
      rw [Res.foldL_cons, Res.bind_eq_ok] at h
      obtain ⟨s1, h1, h2⟩ := h
      simp only [Res.bind_eq_ok] at h1
      obtain ⟨_, hx, _, _, _, _, hs⟩ := h1
      have hl := rawSet_length hs
      intro i hi
      rcases List.mem_cons.1 hi with rfl | hi
      · rw [rawGet_eq_ok, List.getElem?_eq_some_iff] at hx
        exact hx.1
      · rw [← hl]; exact ih s1 out h2 i hi
  have h0 := foldL_forall h 0 (List.mem_range.2 hN)
  obtain ⟨u, u', hu⟩ := h0
  simp only [Res.bind_eq_ok] at hu
  obtain ⟨_, _, _, hs, _⟩ := hu
  subst h'
  refine ⟨sumCorrelation_sizes hs, ?_, rfl, rfl, rfl⟩
  have := key _ _ _ h (c.ds.N - 1) (List.mem_range.2 (by omega))
  omega

/-! ## C57 -/

/-- the calls a caller makes for one lag on an iterator `it`, by the names of the selection and weight function
(`sacf/sacf.py`, the body of the loop in `find_correlation`, without `addCorrelationData`) -/
def lagPass (a : AbsFn) (sel wt : String) (c : Corr F) (it : CorrIt F) : Res (CorrIt F) :=
  (selectionFunction a sel).bind fun f =>
  (f c it).bind fun it =>
  (Corr.deltaT a c it).bind fun it =>
  (weightFunction wt).bind fun w => Corr.findCorrelation c (w c it)

theorem lagPass_sizes {a : AbsFn} {sel wt : String} {c : Corr F} (hN : 0 < c.ds.N) {it it' : CorrIt F}
    (h : lagPass a sel wt c it = .ok it') :
    it'.weights.length = it.weights.length + it.deltaT.length + it'.selection.length ∧
      it'.weights.length ≤ it'.selection.length ∧ c.ds.N ≤ it.correlation.length ∧ it'.deltaT = [] := by
  unfold lagPass at h
  simp only [Res.bind_eq_ok] at h
  obtain ⟨f, hf, it1, h1, it2, h2, w, hw, h3⟩ := h
  obtain ⟨a1, a2, a3, _⟩ := selection_sizes hf h1
  obtain ⟨b1, b2, b3, _, b5⟩ := deltaT_sizes h2
  obtain ⟨c1, c2, _, c4, c5⟩ := weight_sizes hw c it2
  obtain ⟨d1, d2, d3, d4, d5⟩ := findCorrelation_sizes hN h3
  rw [d3, d4, d5, c4, c1, c5, b1, b2, b5, a1, a2]
  refine ⟨by omega, ?_, ?_, rfl⟩
  · rw [c5, c1, b1, b2, b5, a1, a2] at d1; exact d1
  · rw [c2, b3, a3] at d2; exact d2

/-- **C57** (any arithmetic): an iterator can be used once.  If a second round of calls on the same iterator – possibly
for another lag, `it.k` is writable – returns, the first round had selected no sample at all. -/
theorem C57_iterator_reuse (a : AbsFn) (sel wt sel' wt' : String) (c : Corr F) (hc : Constructed c.ds) (k k' : F) (n : ℕ)
    (it it' : CorrIt F) (h1 : lagPass a sel wt c (CorrIt.new k n) = .ok it)
    (h2 : lagPass a sel' wt' c { it with k := k' } = .ok it') : it.selection = [] ∧ it.weights = [] := by
  obtain ⟨a1, a2, _, a4⟩ := lagPass_sizes hc.wf.npos h1
  obtain ⟨b1, b2, _, _⟩ := lagPass_sizes hc.wf.npos h2
  simp only at b1 b2
  rw [a4] at b1
  simp only [CorrIt.new, List.length_nil] at a1
  simp only [List.length_nil] at b1
  have e : it.weights.length = 0 := by omega
  exact ⟨List.length_eq_zero_iff.1 (by omega), List.length_eq_zero_iff.1 e⟩

/-- one round is fine, the second has undefined behaviour -/
example : (((mkFlat (q [0, 1, 3]) (q [1, 2, 6])).bind Corr.new).bind fun c =>
    (lagPass .fabs "natural" "fractional" c (CorrIt.new (.fin 1) 1)).bind fun it =>
      .ok (it.selection, it.correlation)) = .ok ([1, 2], q [1/28]) := by decide +kernel
example : (((mkFlat (q [0, 1, 3]) (q [1, 2, 6])).bind Corr.new).bind fun c =>
    (lagPass .fabs "natural" "fractional" c (CorrIt.new (.fin 1) 1)).bind fun it =>
      lagPass .fabs "natural" "fractional" c { it with k := .fin 0 }) = .ub := by decide +kernel
example : (((mkFlat (q [0, 1, 3]) (q [1, 2, 6])).bind Corr.new).bind fun c =>
    (lagPass .fabs "fast" "fractional" c (CorrIt.new (.fin 1) 1)).bind fun it =>
      lagPass .fabs "fast" "gaussian" c { it with k := .fin 0 }) = .ub := by decide +kernel
/-- a first round beyond the span selects nothing, and the second round works -/
example : (((mkFlat (q [0, 1, 3]) (q [1, 2, 6])).bind Corr.new).bind fun c =>
    (lagPass .fabs "natural" "fractional" c (CorrIt.new (.fin 7) 1)).bind fun it =>
      (lagPass .fabs "natural" "fractional" c { it with k := .fin 1 }).bind fun it =>
      .ok (it.selection, it.correlation)) = .ok ([1, 2], q [1/28]) := by decide +kernel

/-! ## C58 -/

/-- **C58** (any arithmetic): an iterator created with fewer slots than there are datasets makes the round of calls
fail. -/
theorem C58_too_small (a : AbsFn) (sel wt : String) (c : Corr F) (hc : Constructed c.ds) (k : F) (n : ℕ)
    (hn : n < c.ds.N) (it : CorrIt F) : lagPass a sel wt c (CorrIt.new k n) ≠ .ok it := by
  intro h
  obtain ⟨_, _, h3, _⟩ := lagPass_sizes hc.wf.npos h
  simp only [CorrIt.new, List.length_replicate] at h3
  omega

/-- results of the loop do not depend on slots beyond the datasets -/
theorem findCorrelation_extra (c : Corr F) (it : CorrIt F) (x y : List F) (hx : c.ds.N ≤ x.length) :
    Corr.findCorrelation c { it with correlation := x ++ y }
      = (Corr.findCorrelation c { it with correlation := x }).bind fun it' =>
        .ok { it' with correlation := it'.correlation ++ y } := by
  unfold Corr.findCorrelation
  simp only [Res.bind_assoc, Res.ok_bind]
  have hsum : ∀ j acc z, Corr.sumCorrelation c { it with correlation := z } j acc = Corr.sumCorrelation c it j acc :=
    fun _ _ _ => rfl
  simp only [hsum]
  have key : ∀ (l : List Nat) (x : List F), (∀ j ∈ l, j < x.length) → Res.foldL
      (fun out j =>
        (rawGet out j).bind fun acc0 =>
        (Corr.sumCorrelation c it j acc0).bind fun acc =>
        (rawGet c.norm j).bind fun n =>
        rawSet out j (mul acc (div one n))) (x ++ y) l
      = (Res.foldL
      (fun out j =>
        (rawGet out j).bind fun acc0 =>
        (Corr.sumCorrelation c it j acc0).bind fun acc =>
        (rawGet c.norm j).bind fun n =>
        rawSet out j (mul acc (div one n))) x l).bind fun x' => .ok (x' ++ y) := by
    intro l
    induction l with
    | nil => intro x _; rfl
    | cons j l ih =>
      intro x hl
      have hj := hl j (by simp)
      have e1 : rawGet (x ++ y) j = rawGet x j := by
        unfold rawGet
        rw [List.getElem?_append_left hj]
      simp only [Res.foldL_cons, e1, Res.bind_assoc]
      apply Res.bind_congr
      intro acc0 _
      apply Res.bind_congr
      intro acc _
      apply Res.bind_congr
      intro n _
      rw [rawSet_of_lt hj, rawSet_of_lt (by simp; omega), Res.ok_bind, Res.ok_bind, List.set_append_left _ _ hj]
      apply ih
      intro i hi
      rw [List.length_set]
      exact hl i (by simp [hi])
  rw [key _ _ (fun j hj => by have := List.mem_range.1 hj; omega)]
  simp only [Res.bind_assoc, Res.ok_bind]

theorem naturalSelection_corr (a : AbsFn) (c : Corr F) (it : CorrIt F) (z : List F) :
    Corr.naturalSelection a c { it with correlation := z }
      = (Corr.naturalSelection a c it).bind fun it' => .ok { it' with correlation := z } := by
  unfold Corr.naturalSelection
  simp only [Res.bind_assoc, Res.ok_bind]

theorem fastSelection_corr (a : AbsFn) (c : Corr F) (it : CorrIt F) (z : List F) :
    Corr.fastSelection a c { it with correlation := z }
      = (Corr.fastSelection a c it).bind fun it' => .ok { it' with correlation := z } := by
  unfold Corr.fastSelection
  simp only [Res.bind_assoc]
  apply Res.bind_congr
  intro last _
  split
  · rfl
  · simp only [Res.bind_assoc, Res.ok_bind]

theorem deltaT_corr (a : AbsFn) (c : Corr F) (it : CorrIt F) (z : List F) :
    Corr.deltaT a c { it with correlation := z }
      = (Corr.deltaT a c it).bind fun it' => .ok { it' with correlation := z } := by
  unfold Corr.deltaT
  simp only [Res.bind_assoc, Res.ok_bind]

theorem weight_corr {wt : String} {w : Corr F → CorrIt F → CorrIt F} (hw : weightFunction wt = .ok w) (c : Corr F)
    (it : CorrIt F) (z : List F) : w c { it with correlation := z } = { w c it with correlation := z } := by
  unfold weightFunction at hw
  split at hw
  · simp only [Res.ok.injEq] at hw; subst hw; rfl
  · split at hw
    · simp only [Res.ok.injEq] at hw; subst hw; rfl
    · split at hw
      · simp only [Res.ok.injEq] at hw; subst hw; rfl
      · simp at hw

/-- **C58** (any arithmetic): with at least as many slots as datasets the round of calls selects the same samples, and
its first slots hold the same values, as with exactly one slot per dataset; the others stay zero. -/
theorem C58_larger (a : AbsFn) (sel wt : String) (c : Corr F) (k : F) (n : ℕ) (hn : c.ds.N ≤ n) :
    lagPass a sel wt c (CorrIt.new k n)
      = (lagPass a sel wt c (CorrIt.new k c.ds.N)).bind fun it =>
        .ok { it with correlation := it.correlation ++ List.replicate (n - c.ds.N) zero } := by
  have hnew : CorrIt.new k n = { CorrIt.new k c.ds.N with
      correlation := List.replicate c.ds.N zero ++ List.replicate (n - c.ds.N) zero } := by
    unfold CorrIt.new
    rw [List.replicate_append_replicate]
    congr 2
    omega
  have hold : CorrIt.new k c.ds.N = { CorrIt.new k c.ds.N with correlation := List.replicate c.ds.N (zero : F) } := rfl
  rw [hnew]
  generalize hz : List.replicate c.ds.N (zero : F) = z at *
  have hzl : c.ds.N ≤ z.length := by rw [← hz]; simp
  conv_rhs => rw [hold]
  unfold lagPass
  simp only [Res.bind_assoc]
  apply Res.bind_congr
  intro f hf
  have hsel : ∀ it z, f c { it with correlation := z } = (f c it).bind fun it' => .ok { it' with correlation := z } := by
    intro it z
    unfold selectionFunction at hf
    split at hf
    · simp only [Res.ok.injEq] at hf; subst hf; exact fastSelection_corr a c it z
    · split at hf
      · simp only [Res.ok.injEq] at hf; subst hf; exact naturalSelection_corr a c it z
      · simp at hf
  rw [hsel (CorrIt.new k c.ds.N) (z ++ _), hsel (CorrIt.new k c.ds.N) z]
  simp only [Res.bind_assoc, Res.ok_bind]
  apply Res.bind_congr
  intro it1 _
  rw [deltaT_corr a c it1 (z ++ _), deltaT_corr a c it1 z]
  simp only [Res.bind_assoc, Res.ok_bind]
  apply Res.bind_congr
  intro it2 _
  apply Res.bind_congr
  intro w hw
  rw [weight_corr hw c it2 (z ++ _), weight_corr hw c it2 z, findCorrelation_extra _ _ _ _ hzl]

example : (((mkFlat (q [0, 1, 3]) (q [1, 2, 6])).bind Corr.new).bind fun c =>
    (lagPass .fabs "natural" "fractional" c (CorrIt.new (.fin 1) 3)).bind fun it =>
      .ok (it.selection, it.correlation)) = .ok ([1, 2], q [1/28, 0, 0]) := by decide +kernel
example : (((mkTable (q [0, 1, 3]) [q [1, 2, 6], q [0, 0, 1]]).bind Corr.new).bind fun c =>
    lagPass .fabs "natural" "fractional" c (CorrIt.new (.fin 1) 1)) = .ub := by decide +kernel

end lawfree

section rounded
variable {K : Type} [Field K] [LinearOrder K] [IsStrictOrderedRing K] [FloorRing K] {R : Rnd K}

/-- **C58** (any rounding in which the integers up to `n` are exact): the second argument of the constructor, a
`double` holding the integer `n`, gives an iterator with `n` zeros. -/
theorem C58_new (k : XF R) (n : ℕ) (hR : ∀ i : ℕ, i ≤ n → (XF.round (i : K) : XF R) = .fin i) :
    CorrIt.newF k (ofInt (n : ℤ)) = .ok (CorrIt.new k n) := by
  have hof : ∀ i : ℕ, i ≤ n → (ofInt (i : ℤ) : XF R) = .fin (i : K) := by
    intro i hi
    show XF.round (((i : ℤ) : K)) = _
    rw [Int.cast_natCast]
    exact hR i hi
  unfold CorrIt.newF
  rw [hof n (le_refl _)]
  have ht : toInt (.fin (n : K) : XF R) = some (n : ℤ) := by
    show some _ = _
    rw [if_pos (Nat.cast_nonneg n)]
    simp
  rw [ht]
  simp only [Int.toNat_natCast, not_lt.2 (Int.natCast_nonneg n), if_false]
  have key : ∀ m i, i + m = n → zeroLoop (.fin (n : K) : XF R) n (m + 1) i = .ok () := by
    intro m
    induction m with
    | zero =>
      intro i hi
      have : i = n := by omega
      subst this
      unfold zeroLoop
      rw [hof i (le_refl _)]
      simp
    | succ m ih =>
      intro i hi
      unfold zeroLoop
      rw [hof i (by omega)]
      have h1 : (i : K) < n := by exact_mod_cast (show i < n by omega)
      simp only [xf_lt, h1, decide_true, if_true, show i < n by omega]
      exact ih (i + 1) (by omega)
  rw [key n 0 (by omega)]
  rfl

/-- **C58** (any rounding in which the integers up to the argument are exact): the constructor for every second argument.  An integer gives that many zeros, a
value between -1 and 0 none; a positive value that is no integer makes the constructor write one element behind the end of the vector; for a value of -1 or less, an infinity or
NaN the conversion to a size is undefined. -/
theorem C58_created (k : XF R) :
    (∀ x : K, (∀ i : ℕ, (i : K) ≤ x → (XF.round (i : K) : XF R) = .fin i) →
      (∀ m : ℕ, x = m → CorrIt.newF k (.fin x) = .ok (CorrIt.new k m)) ∧
      (-1 < x → x < 0 → CorrIt.newF k (.fin x) = .ok (CorrIt.new k 0)) ∧
      (x ≤ -1 → CorrIt.newF k (.fin x) = .ub) ∧
      (0 < x → (∀ m : ℕ, x ≠ m) → CorrIt.newF k (.fin x) = .ub)) ∧
    CorrIt.newF k .nan = .ub ∧ CorrIt.newF k .pinf = .ub ∧ CorrIt.newF k .ninf = .ub := by
  refine ⟨fun x hR => ⟨?_, ?_, ?_, ?_⟩, rfl, rfl, rfl⟩
  · rintro m rfl
    have := C58_new k m (fun i hi => hR i (by exact_mod_cast hi))
    rwa [show (ofInt (m : ℤ) : XF R) = .fin (m : K) from by
      show XF.round (((m : ℤ) : K)) = _
      rw [Int.cast_natCast]
      exact hR m le_rfl] at this
  · intro h1 h2
    have ht : toInt (.fin x : XF R) = some 0 := by
      show some _ = _
      rw [if_neg (not_le.2 h2), Option.some.injEq, Int.ceil_eq_zero_iff]
      exact ⟨h1, h2.le⟩
    unfold CorrIt.newF
    rw [ht]
    simp only [lt_irrefl, if_false, Int.toNat_zero]
    unfold zeroLoop
    have h0 : (ofInt ((0 : ℕ) : ℤ) : XF R) = .fin 0 := by
      show XF.round (((0 : ℕ) : ℤ) : K) = _
      simp [round_zero]
    rw [h0]
    simp [not_lt.2 h2.le]
  · intro h
    have ht : toInt (.fin x : XF R) = some ⌈x⌉ := by
      show some _ = _
      rw [if_neg (by linarith)]
    have hneg : ⌈x⌉ < 0 := by
      have : ⌈x⌉ ≤ -1 := Int.ceil_le.2 (by simpa using h)
      omega
    unfold CorrIt.newF
    rw [ht]
    simp only [hneg, if_true]
  · intro h hne
    have ht : toInt (.fin x : XF R) = some ⌊x⌋ := by
      show some _ = _
      rw [if_pos h.le]
    obtain ⟨n, hn⟩ : ∃ n : ℕ, ⌊x⌋ = n := ⟨⌊x⌋.toNat, (Int.toNat_of_nonneg (Int.floor_nonneg.2 h.le)).symm⟩
    have hnx : (n : K) ≤ x := by
      have := Int.floor_le x
      rw [hn] at this
      exact_mod_cast this
    have hlt : (n : K) < x := lt_of_le_of_ne hnx fun e => hne n e.symm
    have hof : ∀ i : ℕ, i ≤ n → (ofInt (i : ℤ) : XF R) = .fin (i : K) := by
      intro i hi
      show XF.round (((i : ℤ) : K)) = _
      rw [Int.cast_natCast]
      exact hR i (le_trans (by exact_mod_cast hi) hnx)
    unfold CorrIt.newF
    rw [ht, hn]
    simp only [Int.toNat_natCast, not_lt.2 (Int.natCast_nonneg n), if_false]
    have key : ∀ m i, i + m = n → zeroLoop (.fin x : XF R) n (m + 1) i = .ub := by
      intro m
      induction m with
      | zero =>
        intro i hi
        have : i = n := by omega
        subst this
        unfold zeroLoop
        rw [hof i le_rfl]
        simp [hlt]
      | succ m ih =>
        intro i hi
        unfold zeroLoop
        rw [hof i (by omega)]
        have h1 : (i : K) < x := lt_of_le_of_lt (by exact_mod_cast (show i ≤ n by omega)) hlt
        simp only [xf_lt, h1, decide_true, if_true, show i < n by omega]
        exact ih (i + 1) (by omega)
    rw [key n 0 (by omega)]
    rfl

/-- `CorrelationIterator(k, 2.5)`: two slots, three writes -/
example : CorrIt.newF (.fin 0 : Q) (.fin (5/2)) = .ub := by decide +kernel
example : CorrIt.newF (.fin 0 : Q) (.fin 2) = .ok (CorrIt.new (.fin 0) 2) := by decide +kernel
example : CorrIt.newF (.fin 0 : Q) (.fin (-1/2)) = .ok (CorrIt.new (.fin 0) 0) := by decide +kernel
example : CorrIt.newF (.fin 0 : Q) (.fin (-1)) = .ub := by decide +kernel

end rounded

section exact
variable {K : Type} [Field K] [LinearOrder K] [IsStrictOrderedRing K] [FloorRing K]
variable {dm : K} {f32 ex : K → K}

/-! ## C56 -/

/-- **C56**: strictly decreasing times are accepted; a default call then silently returns no lag at all, and
`UnboundLocalError` with any other selection or weight function.  (Fewer than 2^30 samples.) -/
theorem C56_decreasing (a : AbsFn) (d : DS (Exact dm f32 ex)) (hd : Constructed d) (M : ℕ) (t : ℕ → K)
    (ht : d.timeseries = samples M t) (hM : 2 ≤ M) (hM' : M < 2 ^ 30)
    (hdec : ∀ i j, i < j → j < M → t j < t i) (sel wt : String) :
    (sel = "natural" ∧ wt = "fractional" →
      ∃ r, autocorrelation a d {} sel wt = .ok r ∧ r.lags = [] ∧ r.corrs.rows = List.replicate d.N []) ∧
    (¬ (sel = "natural" ∧ wt = "fractional") → autocorrelation a d {} sel wt = .exn .unboundLocal) := by
  obtain ⟨_, hnt, _⟩ := built_times hd ht
  obtain ⟨b, h1, h2, h3, h4⟩ := findMinDiff_samples (dm := dm) (f32 := f32) (ex := ex) M (fun i => t i - t 0)
  have hb : b < 0 := by
    have a1 := h3 0 (by omega)
    have a2 := hdec 0 1 (by omega) (by omega)
    simp only [Nat.zero_add] at a1
    linarith
  have hlast : lastD (samples M (fun i => t i - t 0) : List (Exact dm f32 ex)) = .fin (t (M - 1) - t 0) :=
    samples_last (by omega)
  have hneg : t (M - 1) - t 0 < 0 := by
    have := hdec 0 (M - 1) (by omega) (by omega)
    linarith
  have hsum : ∀ i, i < M → (i : K) * b ≤ t i - t 0 := by
    intro i
    induction i with
    | zero => intro _; simp
    | succ i ih =>
      intro hi
      have a1 := ih (by omega)
      have a2 := h3 i hi
      push_cast
      linarith
  have hratio := hsum (M - 1) (by omega)
  have hslots : ∃ n, slotsOf d.normT = .ok n := by
    unfold slotsOf
    rw [hnt, hlast, h1]
    unfold lagSlots
    rw [xf_neg, ex_sub, ex_div hb.ne]
    have e : toInt (Arith.floor (.fin ((t (M - 1) - t 0 - -(t (M - 1) - t 0)) / b) : Exact dm f32 ex))
        = some ⌊(t (M - 1) - t 0 - -(t (M - 1) - t 0)) / b⌋ := toInt_floor _
    rw [e]
    simp only
    have p0 : (0 : K) ≤ (t (M - 1) - t 0 - -(t (M - 1) - t 0)) / b := by
      apply div_nonneg_of_nonpos <;> linarith
    have p1 : (t (M - 1) - t 0 - -(t (M - 1) - t 0)) / b ≤ 2 * ((M - 1 : ℕ) : K) := by
      rw [div_le_iff_of_neg hb]
      linarith
    have q0 : 0 ≤ ⌊(t (M - 1) - t 0 - -(t (M - 1) - t 0)) / b⌋ := Int.floor_nonneg.2 p0
    have q1 : ⌊(t (M - 1) - t 0 - -(t (M - 1) - t 0)) / b⌋ ≤ 2 * ((M - 1 : ℕ) : ℤ) := by
      have := (Int.floor_le _).trans p1
      exact_mod_cast this
    rw [if_pos (by omega), if_pos (by omega)]
    exact ⟨_, rfl⟩
  obtain ⟨n, hn⟩ := hslots
  have hc := corrNew_eq hd.wf
  rw [hn, Res.ok_bind] at hc
  refine C38_empty_range_partial a d hd {} sel wt _ hc ?_
  simp only [Option.getD_none, Corr.fresh, hnt, hlast, xf_neg, xf_le, decide_eq_false_iff_not, not_le]
  linarith

example : ((mkFlat (q [3, 1, 0]) (q [6, 2, 1])).bind fun d => acOut .fabs d {} "natural" "fractional")
    = .ok ([], .flat []) := by decide +kernel
example : ((mkFlat (q [3, 1, 0]) (q [6, 2, 1])).bind fun d => acOut .fabs d {} "natural" "gaussian")
    = .exn .unboundLocal := by decide +kernel

end exact

/-- **C56**: the order of the samples matters; a shuffled series is accepted and gives other values at the same lags, even at lag zero. -/
theorem C56_order_matters :
    ((mkFlat (q [0, 3, 1]) (q [1, 6, 2])).bind fun d => acOut .fabs d ⟨some (.fin (-1)), some (.fin 0), some (.fin 1), some (.fin 1)⟩ "natural" "fractional")
      = .ok (q [-1, 0], .flat (q [1/7, 2/7])) ∧
    ((mkFlat (q [0, 1, 3]) (q [1, 2, 6])).bind fun d => acOut .fabs d ⟨some (.fin (-1)), some (.fin 0), some (.fin 1), some (.fin 1)⟩ "natural" "fractional")
      = .ok (q [-1, 0], .flat (q [17/28, 1])) := by decide +kernel


end Sacf
