import Verif.Model.Session

/-! Vocabulary for sessions on a `Correlator`. -/

namespace Sacf

open Arith

variable {F : Type} [Arith F]

/-- `c` is what a new correlator of `d` has become after some calls, with any arguments; exceptions were caught, and
`clearCorrelation` was not called -/
def Reached (a : AbsFn) (d : DS F) (c : Corr F) : Prop :=
  ∃ c0 calls log, Corr.new d = .ok c0 ∧ (∀ x ∈ calls, x ≠ SCall.clear) ∧ runSession a c0 calls = .ok (c, log)

/-- the table a caller reads: `corr.correlations()[j][n]` is `v` -/
def Corr.EntryIs (c : Corr F) (j n : Nat) (v : F) : Prop :=
  ∃ rows row, c.correlations = .ok rows ∧ rows[j]? = some row ∧ row[n]? = some v

/-- A loop over lags of the caller's choice, by the calls of `sacf.py:85-92`: for each lag a new iterator, selection, `deltaT`, weights,
`findCorrelation`, `addCorrelationData` into the next slot; at the end `cleanCorrelationData`. -/
def chosenLags (a : AbsFn) (sel wt : String) (c : Corr F) (ks : List F) : Res (Corr F) :=
  (Res.foldL (fun c (p : F × Nat) => pyStep a sel wt c p.1 p.2) c ks.zipIdx).bind fun c =>
  c.cleanCorrelationData ks.length

/-- numbers assigned to one of the four parameters -/
def SCall.maxLagArg : SCall F → Option F
  | .setMaxLag x => x.asNum true
  | _ => none
/-- numbers assigned to `min_lag` -/
def SCall.minLagArg : SCall F → Option F
  | .setMinLag x => x.asNum true
  | _ => none
/-- numbers assigned to `lag_resolution` -/
def SCall.lagResArg : SCall F → Option F
  | .setLagResolution x => x.asNum true
  | _ => none
/-- numbers assigned to `alpha` -/
def SCall.alphaArg : SCall F → Option F
  | .setAlpha x => x.asNum true
  | _ => none

/-- the last of the numbers, or the default -/
def lastOr (l : List F) (x : F) : F := l.getLast?.getD x

end Sacf
