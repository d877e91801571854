import Verif.Model.Session

/-!
# `new` and `delete`

The two places of the code that allocate by `new`: `_calculateStandardCorrelation` (`Correlator.cpp:280`, deleted at line 286 if no exception
comes between) and `clearCorrelation` (`Correlator.h:90`, never deleted).  The state is a correlator and the number of blocks that have been allocated
there and not deleted.  Everything else is in `std::vector`s and local variables, whose destructors release it, or belongs to Python objects
(`Model/Heap.lean`).
-/

namespace Sacf

open Arith

variable {F : Type} [Arith F]

/-- the same outcome, with `n` blocks -/
def Out.withBlocks {σ α : Type} (n : Nat) : Out σ α → Out (σ × Nat) α
  | .ok x s => .ok x (s, n)
  | .exn e s => .exn e (s, n)
  | .ub => .ub
  | .diverge => .diverge

/-- `_calculateStandardCorrelation(k, i)`, `Correlator.cpp:276-287`: `new` at line 280, `delete` at line 286. -/
def standardStepMem (a : AbsFn) (s : Corr F × Nat) (k : F) (i : Nat) : Out (Corr F × Nat) Unit :=
  ((Out.step s.1 (Corr.standardStep a s.1 k i)).withBlocks (s.2 + 1)).bind fun _ s => .ok () (s.1, s.2 - 1)

/-- the loop of `calculateStandardCorrelation`, `Correlator.cpp:259-272` -/
def standardLoopMem (a : AbsFn) (maxLag lagRes : F) : Nat → Corr F × Nat → F → Bool → Nat → Out (Corr F × Nat) Nat
  | 0, _, _, _, _ => .diverge
  | fuel + 1, s, k, isPos, i =>
    if le k maxLag then
      let isPos := if eq k zero then true else isPos
      if lt zero k && !isPos then
        (standardStepMem a s zero i).bind fun _ s =>
        (standardStepMem a s k (i + 1)).bind fun _ s =>
        standardLoopMem a maxLag lagRes fuel s (add k lagRes) true (i + 2)
      else
        (standardStepMem a s k i).bind fun _ s =>
        standardLoopMem a maxLag lagRes fuel s (add k lagRes) isPos (i + 1)
    else .ok i s

/-- `calculateStandardCorrelation()`, `Correlator.cpp:254-274` -/
def calculateMem (a : AbsFn) (s : Corr F × Nat) : Out (Corr F × Nat) Unit :=
  (standardLoopMem a s.1.maxLag s.1.lagRes (s.1.tsBuf.length + 1) s s.1.minLag false 0).bind fun i s =>
  (Out.step s.1 (s.1.cleanCorrelationData i)).withBlocks s.2

/-- one call; `clearCorrelation`, `Correlator.h:90`, copies from a new block and forgets it -/
def SCall.runMem (a : AbsFn) (s : Corr F × Nat) : SCall F → Out (Corr F × Nat) Unit
  | .calculate => calculateMem a s
  | .clear => .ok () (s.1.clearCorrelation, s.2 + 1)
  | x => (x.run a s.1).withBlocks s.2

/-- a sequence of calls whose exceptions the caller catches -/
def runSessionMem (a : AbsFn) : Corr F × Nat → List (SCall F) → Res ((Corr F × Nat) × List (Option Exc))
  | s, [] => .ok (s, [])
  | s, x :: xs =>
    match x.runMem a s with
    | .ok _ s => (runSessionMem a s xs).bind fun p => .ok (p.1, Option.none :: p.2)
    | .exn e s => (runSessionMem a s xs).bind fun p => .ok (p.1, some e :: p.2)
    | .ub => .ub
    | .diverge => .diverge

/-- `SACF.autocorrelation`, `sacf.py:94-146`, when `n` blocks have been allocated before; the outcome and the number of blocks after it -/
def autocorrelationMem (a : AbsFn) (ds : DS F) (minLag maxLag lagRes alpha : PyVal F) (sel wt : PyName) (returnCorrelator : PyVal F)
    (n : Nat) : Out Nat (PyResult F) :=
  match (Corr.new ds).bind fun c0 => pySetUpCorrelation c0 minLag maxLag lagRes alpha with
  | .exn e => .exn e n
  | .ub => .ub
  | .diverge => .diverge
  | .ok c =>
    match if sel.is "natural" && wt.is "fractional" then calculateMem a (c, n) else (findOn a sel wt c).withBlocks n with
    | .exn e s => .exn e s.2
    | .ub => .ub
    | .diverge => .diverge
    | .ok _ s =>
      match s.1.correlations.bind corrOut with
      | .exn e => .exn e s.2
      | .ub => .ub
      | .diverge => .diverge
      | .ok out => .ok (if returnCorrelator.truthy then .triple s.1.lagTimeseries out s.1 else .pair s.1.lagTimeseries out) s.2

end Sacf
