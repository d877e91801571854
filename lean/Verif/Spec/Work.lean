import Verif.Model.Iterator

/-! Vocabulary for sessions with several iterators. -/

namespace Sacf

open Arith

variable {F : Type} [Arith F]

/-- the calls that matter for iterator `i`: its own methods, the assignment of its lag, and the assignment of a number to `alpha` -/
def WCall.concerns (i : Nat) : WCall F → Bool
  | .corr (.setAlpha x) => (x.asNum true).isSome
  | .setK (.it i') _ => i' == i
  | .call _ (.it i') => i' == i
  | _ => false

/-- the calls that can change the correlator -/
def WCall.touchesCorr : WCall F → Bool
  | .corr _ => true
  | .add _ _ => true
  | _ => false

/-- the weight method of a name of `sacf.py:9-13` -/
def ItMethod.ofWeight : String → Option ItMethod
  | "fractional" => some .fraction
  | "fractional_squared" => some .fractionSquared
  | "gaussian" => some .gaussian
  | _ => none

/-- the selection method of a name of `sacf.py:15-18` -/
def ItMethod.ofSelection : String → Option ItMethod
  | "natural" => some .natural
  | "fast" => some .fast
  | _ => none

end Sacf
