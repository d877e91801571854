import Verif.Props.Driver
import Verif.Spec.Rational

/-!
# Every call ends (C49)

The two lag loops of the code are `while` loops without a bound; the model runs them with a bound on the number of
rounds and reports `diverge` when it is used up.  Here: the bound is never used up, and any larger bound gives the same
result, in any arithmetic and from any state of the object.
-/

set_option linter.unusedSectionVars false

namespace Sacf

open Arith

namespace Res

variable {α β γ σ : Type}

theorem bind_ne_diverge {x : Res α} {f : α → Res β} (hx : x ≠ .diverge) (hf : ∀ a, x = .ok a → f a ≠ .diverge) :
    x.bind f ≠ .diverge := by
  cases x with
  | ok a => exact hf a rfl
  | exn e => simp
  | ub => simp
  | diverge => exact absurd rfl hx

theorem mapL_ne_diverge {f : α → Res β} {l : List α} (h : ∀ x ∈ l, f x ≠ .diverge) : mapL f l ≠ .diverge := by
  induction l with
  | nil => simp
  | cons x xs ih =>
    rw [mapL_cons]
    exact bind_ne_diverge (h x (by simp)) fun y _ =>
      bind_ne_diverge (ih fun z hz => h z (by simp [hz])) fun ys _ => by simp

theorem foldL_ne_diverge {f : σ → α → Res σ} {l : List α} (h : ∀ s x, f s x ≠ .diverge) (s : σ) :
    foldL f s l ≠ .diverge := by
  induction l generalizing s with
  | nil => simp
  | cons x xs ih =>
    rw [foldL_cons]
    exact bind_ne_diverge (h s x) fun s' _ => ih s'

end Res

open Res

section access
variable {α : Type}

theorem rawGet_ne_diverge (v : List α) (i : Nat) : rawGet v i ≠ .diverge := by
  unfold rawGet; split <;> simp
theorem atGet_ne_diverge (v : List α) (i : Nat) : atGet v i ≠ .diverge := by
  unfold atGet; split <;> simp
theorem rawSet_ne_diverge (v : List α) (i : Nat) (x : α) : rawSet v i x ≠ .diverge := by
  unfold rawSet; split <;> simp
theorem slice_ne_diverge (v : List α) (a b : Nat) : slice v a b ≠ .diverge := by
  unfold slice; split <;> simp
theorem writeAt_ne_diverge (v : List α) (a : Nat) (w : List α) : writeAt v a w ≠ .diverge := by
  unfold writeAt; split <;> simp

end access

variable {F : Type} [Arith F]

theorem app_ne_diverge (a : AbsFn) (x : F) : a.app x ≠ .diverge := by
  cases a with
  | fabs => simp [AbsFn.app]
  | intAbs => unfold AbsFn.app; simp only; repeat' split
              all_goals simp

theorem vecRaw_ne_diverge (v : Vec F) (i : Nat) : v.raw i ≠ .diverge := by
  unfold Vec.raw
  exact rawGet_ne_diverge _ _

theorem lowerBoundGo_ne_diverge (v : List F) (val : F) (first len : Nat) : lowerBoundGo v val first len ≠ .diverge := by
  induction hn : len using Nat.strong_induction_on generalizing first len with
  | _ n ih =>
    unfold lowerBoundGo
    split
    · simp
    · refine bind_ne_diverge (rawGet_ne_diverge _ _) fun mid _ => ?_
      split
      · exact ih _ (by omega) _ _ rfl
      · exact ih _ (by omega) _ _ rfl

theorem lowerBound_ne_diverge (v : List F) (val : F) : lowerBound v val ≠ .diverge := lowerBoundGo_ne_diverge _ _ _ _

theorem naturalSelection_ne_diverge (a : AbsFn) (c : Corr F) (it : CorrIt F) : c.naturalSelection a it ≠ .diverge := by
  unfold Corr.naturalSelection
  refine bind_ne_diverge (rawGet_ne_diverge _ _) fun last _ => bind_ne_diverge (mapL_ne_diverge fun i _ => ?_)
    fun _ _ => by simp
  refine bind_ne_diverge (vecRaw_ne_diverge _ _) fun s _ => ?_
  unfold Corr.selectNat
  refine bind_ne_diverge (lowerBound_ne_diverge _ _) fun idx _ => ?_
  split
  · exact bind_ne_diverge (atGet_ne_diverge _ _) fun _ _ => bind_ne_diverge (app_ne_diverge _ _) fun _ _ =>
      bind_ne_diverge (atGet_ne_diverge _ _) fun _ _ => bind_ne_diverge (app_ne_diverge _ _) fun _ _ => by simp
  · simp

theorem fastSelection_ne_diverge (a : AbsFn) (c : Corr F) (it : CorrIt F) : c.fastSelection a it ≠ .diverge := by
  unfold Corr.fastSelection
  refine bind_ne_diverge (rawGet_ne_diverge _ _) fun last _ => ?_
  simp only
  split
  · simp
  · exact bind_ne_diverge (vecRaw_ne_diverge _ _) fun _ _ => bind_ne_diverge (lowerBound_ne_diverge _ _) fun _ _ =>
      bind_ne_diverge (atGet_ne_diverge _ _) fun _ _ => bind_ne_diverge (app_ne_diverge _ _) fun _ _ =>
      bind_ne_diverge (atGet_ne_diverge _ _) fun _ _ => bind_ne_diverge (app_ne_diverge _ _) fun _ _ =>
      bind_ne_diverge (foldL_ne_diverge (fun _ _ => rawSet_ne_diverge _ _ _) _) fun _ _ => by simp

theorem deltaT_ne_diverge (a : AbsFn) (c : Corr F) (it : CorrIt F) : c.deltaT a it ≠ .diverge :=
  bind_ne_diverge (mapL_ne_diverge fun _ _ => bind_ne_diverge (atGet_ne_diverge _ _) fun _ _ =>
    bind_ne_diverge (vecRaw_ne_diverge _ _) fun _ _ => app_ne_diverge _ _) fun _ _ => by simp

theorem findCorrelation_ne_diverge (c : Corr F) (it : CorrIt F) : c.findCorrelation it ≠ .diverge := by
  unfold Corr.findCorrelation
  refine bind_ne_diverge (foldL_ne_diverge (fun out j => ?_) _) fun _ _ => by simp
  refine bind_ne_diverge (rawGet_ne_diverge _ _) fun _ _ => bind_ne_diverge ?_ fun _ _ =>
    bind_ne_diverge (rawGet_ne_diverge _ _) fun _ _ => rawSet_ne_diverge _ _ _
  unfold Corr.sumCorrelation
  exact foldL_ne_diverge (fun _ _ => bind_ne_diverge (atGet_ne_diverge _ _) fun _ _ =>
    bind_ne_diverge (rawGet_ne_diverge _ _) fun _ _ => bind_ne_diverge (atGet_ne_diverge _ _) fun _ _ => by simp) _

theorem addCorrelationData_ne_diverge (c : Corr F) (it : CorrIt F) (i : Nat) : c.addCorrelationData it i ≠ .diverge := by
  unfold Corr.addCorrelationData
  exact bind_ne_diverge (rawSet_ne_diverge _ _ _) fun _ _ => bind_ne_diverge (foldL_ne_diverge (fun _ _ =>
    bind_ne_diverge (rawGet_ne_diverge _ _) fun _ _ => rawSet_ne_diverge _ _ _) _) fun _ _ => by simp

theorem cleanCorrelationData_ne_diverge (c : Corr F) (i : Nat) : c.cleanCorrelationData i ≠ .diverge := by
  unfold Corr.cleanCorrelationData
  exact bind_ne_diverge (foldL_ne_diverge (fun _ _ => bind_ne_diverge (slice_ne_diverge _ _ _) fun _ _ =>
    writeAt_ne_diverge _ _ _) _) fun _ _ => by simp

theorem correlations_ne_diverge (c : Corr F) : c.correlations ≠ .diverge :=
  mapL_ne_diverge fun _ _ => mapL_ne_diverge fun _ _ => rawGet_ne_diverge _ _

theorem pyStep_ne_diverge (a : AbsFn) (sel wt : String) (c : Corr F) (k : F) (i : Nat) :
    pyStep a sel wt c k i ≠ .diverge := by
  unfold pyStep
  refine bind_ne_diverge ?_ fun f hf => bind_ne_diverge ?_ fun it _ => bind_ne_diverge (deltaT_ne_diverge _ _ _)
    fun it _ => bind_ne_diverge ?_ fun w _ => bind_ne_diverge (findCorrelation_ne_diverge _ _) fun it _ =>
      addCorrelationData_ne_diverge _ _ _
  · unfold selectionFunction; repeat' split
    all_goals simp
  · unfold selectionFunction at hf
    split at hf
    · simp only [Res.ok.injEq] at hf; subst hf; exact fastSelection_ne_diverge _ _ _
    · split at hf
      · simp only [Res.ok.injEq] at hf; subst hf; exact naturalSelection_ne_diverge _ _ _
      · simp at hf
  · unfold weightFunction; repeat' split
    all_goals simp

/-- a step that succeeds has written slot `i` and kept the number of slots -/
theorem pyStep_slots {a : AbsFn} {sel wt : String} {c c' : Corr F} {k : F} {i : Nat}
    (h : pyStep a sel wt c k i = .ok c') : i < c.tsBuf.length ∧ c'.tsBuf.length = c.tsBuf.length := by
  unfold pyStep at h
  simp only [Res.bind_eq_ok] at h
  obtain ⟨_, _, _, _, _, _, _, _, _, _, h⟩ := h
  unfold Corr.addCorrelationData at h
  simp only [Res.bind_eq_ok, Res.ok.injEq] at h
  obtain ⟨ts, h1, _, _, rfl⟩ := h
  obtain ⟨h2, rfl⟩ := rawSet_eq_ok.1 h1
  exact ⟨h2, by simp⟩

theorem pyLoop_fuel (a : AbsFn) (sel wt : String) (hi res : F) (fuel fuel' : Nat) (c : Corr F) (k : F) (p : Bool)
    (i : Nat) (h : c.tsBuf.length < fuel + i) (hi0 : 0 < fuel) (h' : fuel ≤ fuel') :
    pyLoop a sel wt hi res fuel' c k p i = pyLoop a sel wt hi res fuel c k p i ∧
      pyLoop a sel wt hi res fuel c k p i ≠ .diverge := by
  induction fuel generalizing fuel' c k p i with
  | zero => omega
  | succ n ih =>
    obtain ⟨m, rfl⟩ : ∃ m, fuel' = m + 1 := ⟨fuel' - 1, by omega⟩
    unfold pyLoop
    split
    · simp only
      generalize (if eq k zero then true else p) = q
      split
      · have key : ∀ c1, pyStep a sel wt c zero i = .ok c1 → ∀ c2, pyStep a sel wt c1 k (i + 1) = .ok c2 →
            pyLoop a sel wt hi res m c2 (add k res) true (i + 2) = pyLoop a sel wt hi res n c2 (add k res) true (i + 2) ∧
            pyLoop a sel wt hi res n c2 (add k res) true (i + 2) ≠ .diverge := by
          intro c1 h1 c2 h2
          obtain ⟨a1, a2⟩ := pyStep_slots h1
          obtain ⟨b1, b2⟩ := pyStep_slots h2
          exact ih m c2 _ _ _ (by omega) (by omega) (by omega)
        constructor
        · exact bind_congr fun c1 h1 => bind_congr fun c2 h2 => (key c1 h1 c2 h2).1
        · exact bind_ne_diverge (pyStep_ne_diverge _ _ _ _ _ _) fun c1 h1 =>
            bind_ne_diverge (pyStep_ne_diverge _ _ _ _ _ _) fun c2 h2 => (key c1 h1 c2 h2).2
      · have key : ∀ c1, pyStep a sel wt c k i = .ok c1 →
            pyLoop a sel wt hi res m c1 (add k res) q (i + 1) = pyLoop a sel wt hi res n c1 (add k res) q (i + 1) ∧
            pyLoop a sel wt hi res n c1 (add k res) q (i + 1) ≠ .diverge := by
          intro c1 h1
          obtain ⟨a1, a2⟩ := pyStep_slots h1
          exact ih m c1 _ _ _ (by omega) (by omega) (by omega)
        constructor
        · exact bind_congr fun c1 h1 => (key c1 h1).1
        · exact bind_ne_diverge (pyStep_ne_diverge _ _ _ _ _ _) fun c1 h1 => (key c1 h1).2
    · exact ⟨rfl, by simp⟩

/-- **C49**: the Python lag loop never needs more rounds than there are lag slots (plus the final test): allowing more
changes nothing, whatever the state of the object. -/
theorem C49_fuel_suffices (a : AbsFn) (sel wt : String) (c : Corr F) (lo hi res : F) (fuel : Nat)
    (h : c.lagTimeseries.length + 1 ≤ fuel) :
    pyLoop a sel wt hi res fuel c lo false 0 = pyLoop a sel wt hi res (c.lagTimeseries.length + 1) c lo false 0 ∧
      pyLoop a sel wt hi res (c.lagTimeseries.length + 1) c lo false 0 ≠ .diverge :=
  pyLoop_fuel a sel wt hi res _ _ c lo false 0 (by simp [Corr.lagTimeseries]) (by omega) h

/-- **C49**: the same for the C++ loop. -/
theorem C49_fuel_suffices_cpp (a : AbsFn) (c : Corr F) (lo : F) (fuel : Nat) (h : c.lagTimeseries.length + 1 ≤ fuel) :
    c.standardLoop a fuel lo false 0 = c.standardLoop a (c.lagTimeseries.length + 1) lo false 0 ∧
      c.standardLoop a (c.lagTimeseries.length + 1) lo false 0 ≠ .diverge := by
  rw [standardLoop_eq_pyLoop, standardLoop_eq_pyLoop]
  exact C49_fuel_suffices a _ _ c lo _ _ fuel h

theorem calculate_ne_diverge (a : AbsFn) (c : Corr F) : c.calculateStandardCorrelation a ≠ .diverge :=
  bind_ne_diverge (C49_fuel_suffices_cpp a c c.minLag _ le_rfl).2 fun _ _ => cleanCorrelationData_ne_diverge _ _

theorem pyFindCorrelation_ne_diverge (a : AbsFn) (c : Corr F) (sel wt : String) :
    pyFindCorrelation a c sel wt ≠ .diverge := by
  unfold pyFindCorrelation
  refine bind_ne_diverge (C49_fuel_suffices a sel wt c c.minLag _ _ _ le_rfl).2 fun _ _ => ?_
  split
  · simp
  · exact cleanCorrelationData_ne_diverge _ _

theorem corrNew_ne_diverge (d : DS F) : Corr.new d ≠ .diverge := by
  unfold Corr.new
  refine bind_ne_diverge (mapL_ne_diverge fun j _ => ?_) fun _ _ => bind_ne_diverge (rawGet_ne_diverge _ _) fun _ _ =>
    bind_ne_diverge ?_ fun _ _ => by simp
  · unfold normOf
    refine foldL_ne_diverge (fun _ _ => bind_ne_diverge (atGet_ne_diverge _ _) fun _ _ => ?_) _
    simp only
    split
    · simp
    · exact bind_ne_diverge (rawGet_ne_diverge _ _) fun _ _ => by simp
  · unfold lagSlots
    repeat' split
    all_goals simp

theorem setUp_ne_diverge (t data err : List F) (N M : Nat) : setUp t data err N M ≠ .diverge := by
  unfold setUp
  split
  · simp
  · split
    · simp
    · refine bind_ne_diverge (mapL_ne_diverge fun _ _ => bind_ne_diverge (slice_ne_diverge _ _ _) fun _ _ => by simp)
        fun _ _ => bind_ne_diverge (rawGet_ne_diverge _ _) fun _ _ =>
        bind_ne_diverge (bind_ne_diverge (rawGet_ne_diverge _ _) fun _ _ => by simp) fun _ _ =>
        bind_ne_diverge (foldL_ne_diverge (fun _ _ => bind_ne_diverge (slice_ne_diverge _ _ _) fun _ _ =>
          bind_ne_diverge (rawGet_ne_diverge _ _) fun _ _ => writeAt_ne_diverge _ _ _) _) fun _ _ =>
        bind_ne_diverge ?_ fun _ _ => by simp
      unfold settMedian
      simp only
      split
      · exact bind_ne_diverge (rawGet_ne_diverge _ _) fun _ _ => bind_ne_diverge (rawGet_ne_diverge _ _) fun _ _ => by simp
      · exact rawGet_ne_diverge _ _

theorem dispatch_ne_diverge {α : Type} {pass : Bool → Option (Res α)} (h : ∀ c r, pass c = some r → r ≠ .diverge) :
    dispatch pass ≠ .diverge := by
  unfold dispatch
  split
  · exact h _ _ (by assumption)
  · split
    · exact h _ _ (by assumption)
    · simp

/-- **C49**: `SACF(...)` ends, for any arguments and any file contents. -/
theorem C49_init (fs : String → Option (List Char)) (t v e f : PyVal F) : pyInit fs t v e f ≠ .diverge := by
  unfold pyInit
  split
  · unfold pyDS1
    split
    · unfold mkFile
      split
      · simp
      · exact setUp_ne_diverge _ _ _ _ _
    · unfold mkFile
      split
      · simp
      · exact setUp_ne_diverge _ _ _ _ _
    · simp
  · split
    · refine dispatch_ne_diverge fun c r h => ?_
      unfold pass2 at h
      repeat' split at h
      all_goals simp only [Option.some.injEq, reduceCtorEq] at h
      all_goals subst h; first | exact setUp_ne_diverge _ _ _ _ _ | simp
    · refine dispatch_ne_diverge fun c r h => ?_
      unfold pass3 at h
      repeat' split at h
      all_goals simp only [Option.some.injEq, reduceCtorEq] at h
      all_goals subst h; first | exact setUp_ne_diverge _ _ _ _ _ | simp

/-- **C49**: `autocorrelation(...)` ends, for any object and any arguments. -/
theorem C49_autocorrelation (a : AbsFn) (d : DS F) (g : LagArgs F) (sel wt : String) :
    autocorrelation a d g sel wt ≠ .diverge := by
  unfold autocorrelation
  refine bind_ne_diverge (corrNew_ne_diverge _) fun c0 _ => bind_ne_diverge ?_ fun c _ =>
    bind_ne_diverge (correlations_ne_diverge _) fun rows _ => bind_ne_diverge ?_ fun _ _ => by simp
  · split
    · exact calculate_ne_diverge _ _
    · exact pyFindCorrelation_ne_diverge _ _ _ _
  · unfold corrOut
    repeat' split
    all_goals simp

/-- resolution 0 does not loop for ever: it runs past the buffers -/
example : ((mkFlat (q [0, 1, 3]) (q [1, 2, 4])).bind fun d =>
    acOut .fabs d { lagRes := some (.fin 0) } "natural" "gaussian") = .ub := by decide +kernel

/-- **C49**: every sequence of calls on a correlator object ends. -/
theorem C49_calls (a : AbsFn) (c : Corr F) (h : List (CorrCall F)) : runCalls a c h ≠ .diverge := by
  refine foldL_ne_diverge (fun c call => ?_) c
  cases call <;> simp only [CorrCall.run]
  case calculate => exact calculate_ne_diverge _ _
  case findCorrelation => exact pyFindCorrelation_ne_diverge _ _ _ _
  case addData => exact addCorrelationData_ne_diverge _ _ _
  case clean => exact cleanCorrelationData_ne_diverge _ _
  all_goals simp

theorem zeroLoop_ne_diverge (bound : F) (n fuel i : Nat) (h : n < fuel + i) (h0 : 0 < fuel) :
    zeroLoop bound n fuel i ≠ .diverge := by
  induction fuel generalizing i with
  | zero => omega
  | succ m ih =>
    unfold zeroLoop
    split
    · split
      · exact ih (i + 1) (by omega) (by omega)
      · simp
    · simp

/-- **C49**: `CorrelationIterator(k, vec_size)` ends, for any two numbers. -/
theorem C49_iterator (k n : F) : CorrIt.newF k n ≠ .diverge := by
  unfold CorrIt.newF
  split
  · simp
  · split
    · simp
    · exact bind_ne_diverge (zeroLoop_ne_diverge _ _ _ _ (by omega) (by omega)) fun _ _ => by simp

end Sacf
