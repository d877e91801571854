import Verif.Model.CostPython
import Verif.Props.Cost

/-!
# Number of steps of `find_correlation` (C118)
-/

set_option linter.unusedSectionVars false

namespace Sacf

open Arith

variable {F : Type} [Arith F] {α β : Type}

/-! ### the counter changes nothing -/

theorem Tick.bind_congr {m : Tick α} {f g : α → Tick β} (h : ∀ x n, m = .ok (x, n) → f x = g x) : Tick.bind m f = Tick.bind m g := by
  unfold Tick.bind
  cases m with
  | ok p => simp only [Res.ok_bind, h p.1 p.2 rfl]
  | _ => rfl

namespace Corr

theorem shiftFastT_val (k last : F) (l : List F) (out : Vec F) : (shiftFastT k last l out).val = .ok (shiftFast k last l out) := by
  induction l generalizing out with
  | nil => rfl
  | cons t ts ih =>
    rw [shiftFastT, shiftFast, Tick.val_bind, Tick.val_cost, Res.ok_bind, Tick.val_ite, ih]
    split <;> rfl

theorem shiftFastT_le (k last : F) (l : List F) (out : Vec F) : (shiftFastT k last l out).Le l.length := by
  induction l generalizing out with
  | nil => exact Tick.Le.cost 0
  | cons t ts ih =>
    rw [shiftFastT, List.length_cons]
    exact (Tick.Le.bind (Tick.Le.cost 1) fun _ _ _ => Tick.Le.ite ((Tick.Le.cost 0).mono (by omega)) (ih _)).mono (by omega)

theorem shiftFast_length (k last : F) (l : List F) (out : Vec F) : (shiftFast k last l out).elems.length ≤ out.elems.length + l.length := by
  induction l generalizing out with
  | nil => simp [shiftFast]
  | cons t ts ih =>
    rw [shiftFast]
    split
    · simp
    · refine (ih _).trans ?_
      simp [Vec.push]
      omega

theorem fastSelectionT_val (a : AbsFn) (c : Corr F) (it : CorrIt F) : (fastSelectionT a c it).val = fastSelection a c it := by
  unfold fastSelectionT fastSelection
  simp only [Tick.val_bind, Tick.val_cost, Tick.val_ite, Tick.val_foldL, shiftFastT_val, Res.ok_bind, lowerBoundGoT_val, Res.bind_assoc, lowerBound]

theorem applyWeightsT_val (w : Corr F → CorrIt F → CorrIt F) (c : Corr F) (it : CorrIt F) : (applyWeightsT w c it).val = .ok (w c it) := by
  unfold applyWeightsT
  rw [Tick.val_cost]

end Corr

theorem pyStepT_val (a : AbsFn) (sel wt : String) (c : Corr F) (k : F) (i : Nat) : (pyStepT a sel wt c k i).val = pyStep a sel wt c k i := by
  unfold pyStepT pyStep selectionFunctionT selectionFunction
  split
  · simp only [Tick.val_bind, Tick.val_cost, Res.ok_bind, Corr.fastSelectionT_val, Corr.deltaTT_val, Corr.applyWeightsT_val, Corr.findCorrelationT_val,
      Corr.addCorrelationDataT_val]
  · split
    · simp only [Tick.val_bind, Tick.val_cost, Res.ok_bind, Corr.naturalSelectionT_val, Corr.deltaTT_val, Corr.applyWeightsT_val, Corr.findCorrelationT_val,
        Corr.addCorrelationDataT_val]
    · simp only [Tick.val_bind, Tick.val_cost, Res.ok_bind]
      rfl

theorem pyLoopT_val (a : AbsFn) (sel wt : String) (hi res : F) (fuel : Nat) (c : Corr F) (k : F) (isPos : Bool) (i : Nat) :
    (pyLoopT a sel wt hi res fuel c k isPos i).val = pyLoop a sel wt hi res fuel c k isPos i := by
  induction fuel generalizing c k isPos i with
  | zero => rfl
  | succ fuel ih =>
    rw [pyLoopT, pyLoop]
    simp only [Tick.val_ite, Tick.val_bind, Tick.val_cost, Res.ok_bind, pyStepT_val, ih]

/-- **C118**: the counter changes no outcome. -/
theorem C118_same_outcome (a : AbsFn) (c : Corr F) (sel wt : String) : (pyFindCorrelationT a c sel wt).val = pyFindCorrelation a c sel wt := by
  unfold pyFindCorrelationT pyFindCorrelation
  simp only [Tick.val_bind, pyLoopT_val, Tick.val_ite, Tick.val_cost, Corr.cleanCorrelationDataT_val]

/-! ### one lag -/

namespace Corr

theorem fastSelectionT_le (a : AbsFn) (c : Corr F) (k : F) (N : Nat) :
    (fastSelectionT a c (CorrIt.new k N)).Le (3 * c.ds.normT.length + digits c.ds.normT.length) := by
  unfold fastSelectionT
  set M := c.ds.normT.length with hM
  refine (Tick.Le.bind (Tick.Le.cost 0) fun last _ _ => Tick.Le.bind (shiftFastT_le _ _ _ _) fun sh n hsh => ?_ :
    Tick.Le _ (0 + (M + (2 * M + digits M)))).mono (by omega)
  have h1 := Tick.val_ok hsh
  rw [shiftFastT_val] at h1
  have h2 : sh.elems.length ≤ M := by
    cases h1
    refine (shiftFast_length _ _ _ _).trans ?_
    simp [CorrIt.new, Vec.empty, hM]
  split
  · exact (Tick.Le.cost 0).mono (by omega)
  rename_i hne
  have h3 : 0 < sh.elems.length := List.length_pos_of_ne_nil (by simpa using hne)
  refine (Tick.Le.bind (a := 0) (b := digits M + (0 + (M + (M + 0)))) (Tick.Le.cost 0) fun s _ _ => ?_).mono (by omega)
  refine Tick.Le.bind (lowerBoundGoT_le _ _ _ _ _ (Nat.lt_pow_succ_log_self (by omega) _)) fun idx0 _ _ => ?_
  refine Tick.Le.bind (Tick.Le.cost 0) fun idx _ _ => Tick.Le.bind ((Tick.Le.cost _).mono h2) fun sel0 _ _ => ?_
  refine Tick.Le.bind ((Tick.Le.foldL (b := 0) (fun _ _ _ => Tick.Le.cost 0) _).mono ?_) fun _ _ _ => Tick.Le.cost 0
  rw [List.length_range]
  omega

theorem resizeZero_length (l : List Nat) (n : Nat) : (resizeZero l n).length = n := by
  unfold resizeZero
  simp
  omega

theorem fastSelection_new_sizes {a : AbsFn} {c : Corr F} {k : F} {N : Nat} {it : CorrIt F} (h : fastSelection a c (CorrIt.new k N) = .ok it) :
    it.selection.length ≤ c.ds.normT.length ∧ it.deltaT = [] ∧ it.weights = [] := by
  unfold fastSelection at h
  obtain ⟨last, _, h⟩ := Res.bind_eq_ok.1 h
  have h3 := shiftFast_length k last c.ds.normT (CorrIt.new k N).shifted
  dsimp only at h
  split at h
  · cases h
    simp [CorrIt.new]
  · obtain ⟨s, _, h⟩ := Res.bind_eq_ok.1 h
    obtain ⟨idx0, _, h⟩ := Res.bind_eq_ok.1 h
    obtain ⟨_, _, h⟩ := Res.bind_eq_ok.1 h
    obtain ⟨_, _, h⟩ := Res.bind_eq_ok.1 h
    obtain ⟨_, _, h⟩ := Res.bind_eq_ok.1 h
    obtain ⟨_, _, h⟩ := Res.bind_eq_ok.1 h
    obtain ⟨sel, h1, h⟩ := Res.bind_eq_ok.1 h
    have h2 := foldL_rawSet_length _ (fun s j s' hs => by
      unfold rawSet at hs
      split at hs
      · cases hs; simp
      · cases hs) _ _ _ h1
    cases h
    refine ⟨?_, rfl, rfl⟩
    dsimp only
    rw [h2, resizeZero_length]
    simpa [CorrIt.new, Vec.empty] using h3

end Corr

/-- steps of a lag after the selection -/
theorem pyStepT_le (a : AbsFn) (sel wt : String) (c : Corr F) (k : F) (i b : Nat)
    (hb : ∀ f, selectionFunctionT a sel = .ok f → (f c (CorrIt.new k c.ds.N)).Le b ∧
      ∀ it n, f c (CorrIt.new k c.ds.N) = .ok (it, n) → it.selection.length ≤ c.ds.normT.length ∧ it.deltaT = [] ∧ it.weights = []) :
    (pyStepT a sel wt c k i).Le (b + c.ds.normT.length * (c.ds.N + 2) + 4 * c.ds.N) := by
  unfold pyStepT
  set M := c.ds.normT.length with hM
  set N := c.ds.N with hN
  refine (Tick.Le.bind (Tick.Le.cost (2 * N)) fun it0 _ h0 => Tick.Le.bind (Tick.Le.cost 0) fun f _ hf =>
    Tick.Le.bind (a := b) (b := M + (0 + (M + (N * (M + 1) + N)))) ?_ fun it1 _ h1 =>
    Tick.Le.bind (a := M) (b := 0 + (M + (N * (M + 1) + N))) ?_ fun it2 _ h2 => Tick.Le.bind (Tick.Le.cost 0) fun w _ hw =>
    Tick.Le.bind (a := M) (b := N * (M + 1) + N) ?_ fun it3 _ h3 => Tick.Le.bind (a := N * (M + 1)) (b := N) ?_ fun it4 _ h4 => ?_).mono ?_
  all_goals try
    obtain rfl : CorrIt.new k N = it0 := by simpa using (Tick.cost_ok h0).1
    obtain ⟨hb1, hb2⟩ := hb f (Tick.cost_ok hf).1
  · exact hb1
  all_goals try obtain ⟨s1, s2, s3⟩ := hb2 _ _ h1
  · unfold Corr.deltaTT
    refine (Tick.Le.bind (b := 0) (Tick.Le.mapL (b := 0) fun _ _ => Tick.Le.cost 0) fun _ _ _ => Tick.Le.cost 0).mono ?_
    rw [List.length_zipIdx]
    omega
  all_goals try
    have g2 := Tick.val_ok h2
    rw [Corr.deltaTT_val] at g2
    obtain ⟨s4, s5⟩ := Corr.deltaT_sizes g2
    rw [s2, List.length_nil, Nat.zero_add] at s4
  · unfold Corr.applyWeightsT
    exact (Tick.Le.cost _).mono (by omega)
  all_goals try
    have g3 := Tick.val_ok h3
    rw [Corr.applyWeightsT_val] at g3
    have s6 : it3.weights.length ≤ M := by
      have hw := (Tick.cost_ok hw).1
      cases g3
      unfold weightFunction at hw
      split at hw
      · cases hw
        simp [Corr.getGaussianWeights, Corr.applyWeights, s5, s3, s4]
        omega
      · split at hw
        · cases hw
          simp [Corr.getFractionWeights, Corr.applyWeights, s5, s3, s4]
          omega
        · split at hw
          · cases hw
            simp [Corr.getFractionSquaredWeights, Corr.applyWeights, s5, s3, s4]
            omega
          · cases hw
  · unfold Corr.findCorrelationT
    refine (Tick.Le.bind (b := 0) (Tick.Le.foldL (b := M) (fun out j _ => (Tick.Le.bind (b := M) (Tick.Le.cost 0) fun _ _ _ =>
      Tick.Le.bind (a := M) (b := 0) ?_ fun _ _ _ => Tick.Le.bind (b := 0) (Tick.Le.cost 0) fun _ _ _ => Tick.Le.cost 0).mono (by omega)) _)
      fun _ _ _ => Tick.Le.cost 0).mono (by rw [List.length_range]; exact le_rfl)
    unfold Corr.sumCorrelationT
    refine (Tick.Le.foldL (b := 0) (fun _ _ _ => Tick.Le.cost 0) _).mono ?_
    rw [List.length_zipIdx]
    omega
  · unfold Corr.addCorrelationDataT
    exact (Tick.Le.bind (b := N) (Tick.Le.cost 0) fun _ _ _ => (Tick.Le.bind (b := 0) (Tick.Le.foldL (b := 0) (fun _ _ _ => Tick.Le.cost 0) _)
      fun _ _ _ => Tick.Le.cost 0).mono (by rw [List.length_range]; omega)).mono (by omega)
  · nlinarith

theorem pyStepT_fast_le (a : AbsFn) (wt : String) (c : Corr F) (k : F) (i : Nat) :
    (pyStepT a "fast" wt c k i).Le (c.ds.normT.length * (c.ds.N + 5) + Corr.digits c.ds.normT.length + 4 * c.ds.N) := by
  refine (pyStepT_le a "fast" wt c k i (3 * c.ds.normT.length + Corr.digits c.ds.normT.length) fun f hf => ?_).mono (le_of_eq (by ring))
  obtain rfl : Corr.fastSelectionT a = f := by simpa [selectionFunctionT] using hf
  refine ⟨Corr.fastSelectionT_le a c k _, fun it n h => ?_⟩
  have := Tick.val_ok h
  rw [Corr.fastSelectionT_val] at this
  exact Corr.fastSelection_new_sizes this

theorem pyStepT_natural_le (a : AbsFn) (wt : String) (c : Corr F) (k : F) (i : Nat) :
    (pyStepT a "natural" wt c k i).Le (c.ds.normT.length * (Corr.digits c.ds.normT.length + c.ds.N + 4) + 4 * c.ds.N) := by
  refine (pyStepT_le a "natural" wt c k i (c.ds.normT.length * (Corr.digits c.ds.normT.length + 2)) fun f hf => ?_).mono (le_of_eq (by ring))
  obtain rfl : Corr.naturalSelectionT a = f := by simpa [selectionFunctionT] using hf
  refine ⟨Corr.naturalSelectionT_le a c k _, fun it n h => ?_⟩
  have := Tick.val_ok h
  rw [Corr.naturalSelectionT_val] at this
  exact Corr.naturalSelection_sizes this

/-! ### all lags -/

theorem pyLoopT_steps {a : AbsFn} {sel wt : String} {hi res : F} {b : DS F → Nat} (hb : ∀ (c : Corr F) k i, (pyStepT a sel wt c k i).Le (b c.ds))
    {fuel : Nat} {c c' : Corr F} {k : F} {isPos : Bool} {i i' n : Nat} (h : pyLoopT a sel wt hi res fuel c k isPos i = .ok ((c', i'), n)) :
    c'.ds = c.ds ∧ i ≤ i' ∧ n ≤ (i' - i) * (b c.ds + 1) := by
  induction fuel generalizing c k isPos i n with
  | zero => cases h
  | succ fuel ih =>
    have step : ∀ {c c1 : Corr F} {k : F} {i m : Nat}, pyStepT a sel wt c k i = .ok (c1, m) → c1.ds = c.ds ∧ m ≤ b c.ds := fun h => by
      have h1 := Tick.val_ok h
      rw [pyStepT_val] at h1
      exact ⟨(pyStep_frame h1).1, hb _ _ _ _ _ h⟩
    rw [pyLoopT] at h
    split at h
    · obtain ⟨_, n0, n1, h0, hA, q0⟩ := Tick.bind_ok h
      have e0 := (Tick.cost_ok h0).2
      clear h
      dsimp only at hA
      generalize (if eq k zero = true then true else isPos) = pos at hA
      split at hA
      · obtain ⟨c1, m1, n2, h1, hB, q1⟩ := Tick.bind_ok hA
        obtain ⟨c2, m2, n3, h2, h, q2⟩ := Tick.bind_ok hB
        obtain ⟨e1, b1⟩ := step h1
        obtain ⟨e2, b2⟩ := step h2
        obtain ⟨e3, b3, b4⟩ := ih h
        rw [e1] at e2 b2
        rw [e2] at e3 b4
        refine ⟨e3, by omega, ?_⟩
        obtain ⟨q, rfl⟩ : ∃ q, i' = i + 2 + q := ⟨i' - (i + 2), by omega⟩
        rw [show i + 2 + q - (i + 2) = q by omega] at b4
        rw [show i + 2 + q - i = q + 2 by omega, Nat.add_mul]
        omega
      · obtain ⟨c1, m1, n2, h1, h, q1⟩ := Tick.bind_ok hA
        obtain ⟨e1, b1⟩ := step h1
        obtain ⟨e3, b3, b4⟩ := ih h
        rw [e1] at e3 b4
        refine ⟨e3, by omega, ?_⟩
        obtain ⟨q, rfl⟩ : ∃ q, i' = i + 1 + q := ⟨i' - (i + 1), by omega⟩
        rw [show i + 1 + q - (i + 1) = q by omega] at b4
        rw [show i + 1 + q - i = q + 1 by omega, Nat.add_mul]
        omega
    · obtain ⟨h1, rfl⟩ := Tick.cost_ok h
      cases h1
      exact ⟨rfl, le_rfl, by simp⟩

theorem pyFindT_steps {a : AbsFn} {sel wt : String} {b : DS F → Nat} (hb : ∀ (c : Corr F) k i, (pyStepT a sel wt c k i).Le (b c.ds)) {c c' : Corr F} {n : Nat}
    (h : pyFindCorrelationT a c sel wt = .ok (c', n)) : n ≤ c'.tsBuf.length * (b c.ds + 3 * c.ds.N + 2) + c.ds.N := by
  unfold pyFindCorrelationT at h
  obtain ⟨⟨c1, i⟩, n1, n2, h1, h2, rfl⟩ := Tick.bind_ok h
  obtain ⟨e1, _, b1⟩ := pyLoopT_steps hb h1
  split at h2
  · cases (Tick.cost_ok h2).1
  · obtain ⟨e2, l2, m2, b2⟩ := Corr.cleanCorrelationDataT_steps h2
    rw [l2]
    rw [e1] at b2
    rw [Nat.sub_zero] at b1
    refine (Nat.add_le_add b1 b2).trans (le_of_eq ?_)
    ring

/-- what a history of calls leaves -/
theorem session_steps {a : AbsFn} {d : DS F} (hd : Constructed d) {c0 c : Corr F} (h0 : Corr.new d = .ok c0) {calls : List (SCall F)}
    {log : List (Option Exc)} (hs : runSession a c0 calls = .ok (c, log)) : c.ds = d ∧ d.normT.length = d.timeseries.length := by
  obtain ⟨m, _, rfl, hg⟩ := corrNew_good hd.wf h0
  obtain ⟨t, data, err, N, hN, hb⟩ := hd.built
  exact ⟨runSession_ds a calls hs, by unfold DS.timeseries; rw [hb.normT, hb.ht]; simp⟩

/-- **C118**: whatever was called before, with the fast selection and any weights, computing `L` correlations of `N` datasets of `M` samples takes at most
`L (M (N + 5) + log₂ M + 7 N + 3) + N` steps: nothing but the single search of each lag grows faster than the data. -/
theorem C118_fast (a : AbsFn) (d : DS F) (hd : Constructed d) (c0 c c' : Corr F) (h0 : Corr.new d = .ok c0) (calls : List (SCall F))
    (log : List (Option Exc)) (hs : runSession a c0 calls = .ok (c, log)) (wt : String) (h : pyFindCorrelation a c "fast" wt = .ok c') :
    ∃ n, pyFindCorrelationT a c "fast" wt = .ok (c', n) ∧
      n ≤ c'.lagTimeseries.length * (d.timeseries.length * (d.N + 5) + Nat.log 2 d.timeseries.length + 7 * d.N + 3) + d.N := by
  rw [← C118_same_outcome] at h
  obtain ⟨n, hn⟩ := Tick.ok_of_val h
  obtain ⟨e1, e2⟩ := session_steps hd h0 hs
  have := pyFindT_steps (b := fun d => d.normT.length * (d.N + 5) + Corr.digits d.normT.length + 4 * d.N) (fun c k i => pyStepT_fast_le a wt c k i) hn
  rw [e1, e2] at this
  exact ⟨n, hn, this.trans (le_of_eq (by unfold Corr.lagTimeseries Corr.digits; ring))⟩

/-- **C118**: with the natural selection and any weights, as many as C110 allows for the C++ loop. -/
theorem C118_natural (a : AbsFn) (d : DS F) (hd : Constructed d) (c0 c c' : Corr F) (h0 : Corr.new d = .ok c0) (calls : List (SCall F))
    (log : List (Option Exc)) (hs : runSession a c0 calls = .ok (c, log)) (wt : String) (h : pyFindCorrelation a c "natural" wt = .ok c') :
    ∃ n, pyFindCorrelationT a c "natural" wt = .ok (c', n) ∧
      n ≤ c'.lagTimeseries.length * (d.timeseries.length * (Nat.log 2 d.timeseries.length + d.N + 5) + 7 * d.N + 2) + d.N := by
  rw [← C118_same_outcome] at h
  obtain ⟨n, hn⟩ := Tick.ok_of_val h
  obtain ⟨e1, e2⟩ := session_steps hd h0 hs
  have := pyFindT_steps (b := fun d => d.normT.length * (Corr.digits d.normT.length + d.N + 4) + 4 * d.N) (fun c k i => pyStepT_natural_le a wt c k i) hn
  rw [e1, e2] at this
  exact ⟨n, hn, this.trans (le_of_eq (by unfold Corr.lagTimeseries Corr.digits; ring))⟩

/-! ### the two drivers -/

theorem getFractionWeightsT_eq (c : Corr F) (it : CorrIt F) :
    Corr.getFractionWeightsT c it = Corr.applyWeightsT Corr.getFractionWeights c it := by
  obtain ⟨n, hn⟩ := Tick.ok_of_val (Corr.getFractionWeightsT_val c it)
  rw [hn]
  unfold Corr.getFractionWeightsT at hn
  obtain ⟨ws, a, b, h1, h2, rfl⟩ := Tick.bind_ok hn
  rw [Tick.mapL_steps (g := fun _ => 0) (fun x _ y m hm => (Tick.cost_ok hm).2) h1, (Tick.cost_ok h2).2]
  unfold Corr.applyWeightsT Tick.cost
  simp

theorem tick_cost0_ok (x : α) (f : α → Tick β) : Tick.bind (Tick.cost 0 (.ok x)) f = f x := by
  unfold Tick.bind Tick.cost
  simp only [Res.ok_bind]
  cases f x with
  | ok p => simp
  | _ => rfl

theorem standardStepT_eq (a : AbsFn) (c : Corr F) (k : F) (i : Nat) : Corr.standardStepT a c k i = pyStepT a "natural" "fractional" c k i := by
  unfold Corr.standardStepT pyStepT
  simp only [getFractionWeightsT_eq]
  refine Tick.bind_congr fun it _ _ => ?_
  rw [show (selectionFunctionT a "natural" : Res (Corr F → CorrIt F → Tick (CorrIt F))) = .ok (Corr.naturalSelectionT a) from rfl,
    show (weightFunction "fractional" : Res (Corr F → CorrIt F → CorrIt F)) = .ok Corr.getFractionWeights from rfl]
  simp only [tick_cost0_ok]

theorem standardLoopT_eq (a : AbsFn) (fuel : Nat) (c : Corr F) (k : F) (p : Bool) (i : Nat) :
    Corr.standardLoopT a fuel c k p i = pyLoopT a "natural" "fractional" c.maxLag c.lagRes fuel c k p i := by
  induction fuel generalizing c k p i with
  | zero => rfl
  | succ n ih =>
    have fr : ∀ {c c1 : Corr F} {k : F} {i m : Nat}, pyStepT a "natural" "fractional" c k i = .ok (c1, m) → c1.maxLag = c.maxLag ∧ c1.lagRes = c.lagRes := fun h => by
      have h1 := Tick.val_ok h
      rw [pyStepT_val] at h1
      have := pyStep_frame h1
      exact ⟨this.2.2.1, this.2.2.2.2.1⟩
    unfold Corr.standardLoopT pyLoopT
    split
    · refine Tick.bind_congr fun _ _ _ => ?_
      simp only
      generalize (if eq k zero then true else p) = q
      simp only [standardStepT_eq]
      split
      · refine Tick.bind_congr fun c1 m1 h1 => Tick.bind_congr fun c2 m2 h2 => ?_
        rw [ih, (fr h2).1, (fr h1).1, (fr h2).2, (fr h1).2]
      · refine Tick.bind_congr fun c1 m1 h1 => ?_
        rw [ih, (fr h1).1, (fr h1).2]
    · rfl

/-- **C118**: whenever a lag is due, `find_correlation(corr)` and `calculateStandardCorrelation()` take exactly the same number of steps (and have the same
outcome): what the Python driver adds is a fixed number of calls for each lag. -/
theorem C118_drivers (a : AbsFn) (c : Corr F) (hlag : le c.minLag c.maxLag = true) :
    pyFindCorrelationT a c "natural" "fractional" = Corr.calculateStandardCorrelationT a c := by
  unfold pyFindCorrelationT Corr.calculateStandardCorrelationT
  rw [standardLoopT_eq]
  refine Tick.bind_congr fun p n hp => ?_
  rw [if_neg]
  obtain ⟨c1, i⟩ := p
  rw [← standardLoopT_eq, Corr.standardLoopT, if_pos hlag] at hp
  obtain ⟨_, n0, n1, _, hA, _⟩ := Tick.bind_ok hp
  dsimp only at hA ⊢
  generalize (if eq c.minLag zero = true then true else false) = q at hA
  split at hA
  · obtain ⟨_, _, _, _, hB, _⟩ := Tick.bind_ok hA
    obtain ⟨_, _, _, _, h, _⟩ := Tick.bind_ok hB
    have := (Corr.standardLoopT_steps h).2.1
    omega
  · obtain ⟨_, _, _, _, h, _⟩ := Tick.bind_ok hA
    have := (Corr.standardLoopT_steps h).2.1
    omega

/-! ### the two selections -/

/-- binary search never ends before the range is exhausted -/
theorem lowerBoundGoT_ge (v : List F) (val : F) (k : Nat) : ∀ (first len : Nat), 2 ^ k ≤ len + 1 → ∀ i n, lowerBoundGoT v val first len = .ok (i, n) → k ≤ n := by
  induction k with
  | zero => intros; omega
  | succ k ih =>
    intro first len hk i n h
    have hp := Nat.one_le_two_pow (n := k)
    rw [pow_succ] at hk
    rw [lowerBoundGoT, dif_neg (by omega)] at h
    obtain ⟨mid, a, b, h1, h2, rfl⟩ := Tick.bind_ok h
    have h3 := (Tick.cost_ok h1).2
    split at h2
    · have := ih _ _ (by omega) _ _ h2
      omega
    · have := ih _ _ (by omega) _ _ h2
      omega

theorem Tick.mapL_ge {f : α → Tick β} {b : Nat} {l : List α} (h : ∀ x ∈ l, ∀ y n, f x = .ok (y, n) → b ≤ n) {ys : List β} {n : Nat}
    (hl : Tick.mapL f l = .ok (ys, n)) : l.length * (b + 1) ≤ n := by
  induction l generalizing ys n with
  | nil => simp
  | cons x xs ih =>
    obtain ⟨_, a, b', h1, h2, rfl⟩ := Tick.bind_ok hl
    obtain ⟨y, a2, b2, h3, h4, rfl⟩ := Tick.bind_ok h2
    obtain ⟨ys', a3, b3, h5, h6, rfl⟩ := Tick.bind_ok h4
    have e1 := (Tick.cost_ok h1).2
    have e2 := h x (by simp) _ _ h3
    have e3 := ih (fun x hx => h x (by simp [hx])) h5
    rw [List.length_cons, Nat.succ_mul]
    omega

/-- **C118**: the two selections at one lag, on a new iterator.  The natural one takes at least `log₂ (M + 1)` steps for each sample it selects, whatever the
times; the fast one takes at most `3 M + log₂ M + 1` in all. -/
theorem C118_selection (a : AbsFn) (d : DS F) (hd : Constructed d) (c0 c : Corr F) (h0 : Corr.new d = .ok c0) (calls : List (SCall F))
    (log : List (Option Exc)) (hs : runSession a c0 calls = .ok (c, log)) (k : F) (N : Nat) :
    (∀ it n, Corr.naturalSelectionT a c (CorrIt.new k N) = .ok (it, n) → it.selection.length * Nat.log 2 (d.timeseries.length + 1) ≤ n) ∧
    (∀ it n, Corr.fastSelectionT a c (CorrIt.new k N) = .ok (it, n) → n ≤ 3 * d.timeseries.length + Nat.log 2 d.timeseries.length + 1) := by
  obtain ⟨e1, e2⟩ := session_steps hd h0 hs
  constructor
  · intro it n h
    unfold Corr.naturalSelectionT at h
    obtain ⟨last, n0, m0, h0, hA, q0⟩ := Tick.bind_ok h
    obtain ⟨sh, n1, m1, h1, hB, q1⟩ := Tick.bind_ok hA
    obtain ⟨sel, n2, m2, h2, hC, q2⟩ := Tick.bind_ok hB
    obtain ⟨h3, _⟩ := Tick.cost_ok hC
    have h4 := Tick.mapL_ge (b := Nat.log 2 (d.timeseries.length + 1)) (fun i _ y m hm => by
      obtain ⟨s, a1, b1, _, hm, r1⟩ := Tick.bind_ok hm
      unfold Corr.selectNatT at hm
      obtain ⟨idx, a2, b2, hm, _, r2⟩ := Tick.bind_ok hm
      have := lowerBoundGoT_ge _ _ (Nat.log 2 (d.timeseries.length + 1)) 0 c.ds.normT.length (by
        rw [e1, e2]
        exact Nat.pow_log_le_self 2 (by omega)) _ _ hm
      omega) h2
    have h5 := Tick.mapL_length h2
    cases h3
    simp only [CorrIt.new, List.nil_append]
    rw [h5, List.length_range]
    rw [List.length_range] at h4
    rw [Nat.mul_add] at h4
    omega
  · intro it n h
    have := Corr.fastSelectionT_le a c k N it n h
    rw [e1, e2] at this
    unfold Corr.digits at this
    omega

end Sacf
