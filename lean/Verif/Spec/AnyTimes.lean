import Verif.Spec.Error64

/-!
# Matching samples up to a tolerance

For arbitrary doubles as time stamps the shifted times are rounded, so "the nearest sample" and "not beyond the last time"
can only hold up to the rounding of the times.
-/

namespace Sacf

open Finset

variable {K : Type} [Field K] [LinearOrder K] [IsStrictOrderedRing K]

/-- the first `m` samples are matched, sample `i` with `s i`, correctly up to the tolerance `ε`: no sample that is shifted beyond the last time by
more than `ε` is matched, none that stays short of it by more than `ε` is left out, and no sample is nearer to the shifted time than `s i` by more than `ε` -/
structure NearlySelects (M : ℕ) (t : ℕ → K) (k ε : K) (m : ℕ) (s : ℕ → ℕ) : Prop where
  le : m ≤ M
  inside : ∀ i < m, t i + k ≤ t (M - 1) + ε
  outside : ∀ i, m ≤ i → i < M → t (M - 1) ≤ t i + k + ε
  index : ∀ i < m, s i < M
  nearest : ∀ i < m, ∀ n < M, |t (s i) - (t i + k)| ≤ |t n - (t i + k)| + ε

/-- the selective autocorrelation when the first `m` samples are matched, sample `i` with `s i` -/
def matchedAcf (m M : ℕ) (t x : ℕ → K) (w : K → K) (s : ℕ → ℕ) (nrm k : K) : K :=
  (∑ i ∈ range m, w |t (s i) - (t i + k)| * dev M x i * dev M x (s i)) / nrm

/-- at lag `k` no decision is closer than `ε`: no shifted time is within `ε` of the last time, and for every shifted time not beyond
the last time, `s i` is nearer than any other sample by more than `ε` -/
structure ClearCut (M : ℕ) (t : ℕ → K) (k ε : K) (s : ℕ → ℕ) : Prop where
  edge : ∀ i < M, ε < |t i + k - t (M - 1)|
  index : ∀ i < M, t i + k ≤ t (M - 1) → s i < M
  gap : ∀ i < M, t i + k ≤ t (M - 1) → ∀ n < M, n ≠ s i → |t (s i) - (t i + k)| + ε < |t n - (t i + k)|

/-- `M ≤ 2^29` arbitrary doubles in order as time stamps -/
structure AnyTimes64 {ex : ℚ → ℚ} {fu : Bool} (d : DS (XF (Rnd.binary64 ex fu))) (M : ℕ) (t : ℕ → ℚ) : Prop where
  built : Constructed d
  times : d.timeseries = samples M t
  order : InOrder M t
  one_le : 1 ≤ M
  le : M ≤ 2 ^ 29

end Sacf
