import Verif.Model.Threads

/-!
# Interrupted calls

Ctrl-C in `find_correlation` (`sacf.py:57-92`).  The interpreter raises `KeyboardInterrupt` between two steps of the Python code; a C++
function is not interrupted (no `PyErr_CheckSignals` in the bindings), so a call of such a function counts as complete.  The caller
catches the exception and goes on using the `Correlator`.

The same holds of a signal handler of the caller that raises, of `PyThreadState_SetAsyncExc`, and of a failing allocation of a Python object.
-/

namespace Sacf

variable {F : Type} [Arith F]

/-- The first `n` steps of what is left of `find_correlation`, `sacf.py:82-92`. -/
def FindPc.steps (a : AbsFn) (sel wt : PyName) : Nat → FindPc F → Corr F → Out (Corr F) (FindPc F)
  | 0, f, c => .ok f c
  | n + 1, f, c => (f.step a sel wt c).bind fun f c => FindPc.steps a sel wt n f c

/-- A call: one that comes to its end, or `find_correlation` interrupted after `n` steps. -/
inductive Try (F : Type) where
  | call (m : SCall F)
  | broken (sel wt : PyName) (n : Nat)

/-- A sequence of calls whose exceptions the caller catches, `KeyboardInterrupt` included.  The exceptions of the calls that are not
interrupted are recorded, in order.  (A call that raises an exception of its own before it can be interrupted is a `call`; here it
leaves its object behind and is not recorded.) -/
def runTries (a : AbsFn) : Corr F → List (Try F) → Res (Corr F × List (Option Exc))
  | c, [] => .ok (c, [])
  | c, .call m :: xs =>
    match m.run a c with
    | .ok _ c => (runTries a c xs).bind fun p => .ok (p.1, Option.none :: p.2)
    | .exn e c => (runTries a c xs).bind fun p => .ok (p.1, some e :: p.2)
    | .ub => .ub
    | .diverge => .diverge
  | c, .broken sel wt n :: xs =>
    match FindPc.steps a sel wt n .readMin c with
    | .ok _ c => runTries a c xs
    | .exn _ c => runTries a c xs
    | .ub => .ub
    | .diverge => .diverge

end Sacf
