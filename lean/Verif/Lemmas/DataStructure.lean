import Verif.Model.DataStructure
import Verif.Lemmas.Res

/-! Closed forms for the data-structure model. -/

namespace Sacf

open Arith

variable {F : Type} [Arith F]

/-- row `j` of a flat buffer with rows of length `M` -/
def rowOf {α : Type} (data : List α) (M j : Nat) : List α := (data.drop (j * M)).take M

theorem rowOf_length {α : Type} {data : List α} {M N j : Nat} (h : N * M ≤ data.length) (hj : j < N) :
    (rowOf data M j).length = M := by
  have : (j + 1) * M ≤ N * M := Nat.mul_le_mul_right _ hj
  rw [Nat.succ_mul] at this
  simp [rowOf]; omega

theorem rowOf_getElem? {α : Type} (data : List α) (M j i : Nat) (hi : i < M) :
    (rowOf data M j)[i]? = data[vecIdx M i j]? := by
  simp [rowOf, vecIdx, hi, List.getElem?_drop, Nat.add_comm]

theorem row_end_le {α : Type} {data : List α} {M N j : Nat} (h : N * M ≤ data.length) (hj : j < N) :
    vecIdx M M j ≤ data.length := by
  have : (j + 1) * M ≤ N * M := Nat.mul_le_mul_right _ hj
  rw [Nat.succ_mul] at this
  simp [vecIdx]; omega

theorem slice_row {α : Type} {data : List α} {M N j : Nat} (h : N * M ≤ data.length) (hj : j < N) :
    slice data (vecIdx M 0 j) (vecIdx M M j) = .ok (rowOf data M j) := by
  rw [slice_of_le (row_end_le h hj)]
  simp [vecIdx, rowOf]

theorem setDataMean_ok {data : List F} {N M : Nat} (h : N * M ≤ data.length) :
    setDataMean data N M = .ok ((List.range N).map fun j => meanOf (rowOf data M j)) := by
  unfold setDataMean
  apply Res.mapL_ok
  intro j hj
  rw [slice_row h (List.mem_range.1 hj)]; rfl

theorem setDataMean_ub {data : List F} {N M : Nat} (h : data.length < N * M) :
    setDataMean data N M = .ub := by
  unfold setDataMean
  have key : ∀ k ≤ N, k * M ≤ data.length ∨ Res.mapL (fun j => (slice data (vecIdx M 0 j)
      (vecIdx M M j)).bind fun row => .ok (meanOf row)) (List.range k) = .ub := by
    intro k
    induction k with
    | zero => intro _; left; simp
    | succ k ih =>
      intro hk
      rcases ih (by omega) with h1 | h1
      · by_cases h2 : (k + 1) * M ≤ data.length
        · exact Or.inl h2
        · right
          rw [List.range_succ, Res.mapL_append, Res.mapL_ok (g := fun j => meanOf (rowOf data M j))]
          · simp [slice_of_gt (show data.length < vecIdx M M k by
              rw [Nat.succ_mul] at h2; simp [vecIdx]; omega)]
          · intro j hj
            rw [slice_row h1 (List.mem_range.1 hj)]; rfl
      · right
        rw [List.range_succ, Res.mapL_append, h1]; rfl
  rcases key N le_rfl with h1 | h1
  · omega
  · exact h1

theorem calcNormData_ok {data mean : List F} {N M : Nat} (h : N * M ≤ data.length)
    (hm : mean = (List.range N).map fun j => meanOf (rowOf data M j)) :
    calcNormData data mean N M
      = .ok (((List.range N).map fun j =>
              (rowOf data M j).map fun x => sub x (meanOf (rowOf data M j))).flatten
            ++ List.replicate (data.length - N * M) zero) := by
  unfold calcNormData
  have : Res.foldL
      (fun out j =>
        (slice data (vecIdx M 0 j) (vecIdx M M j)).bind fun row =>
        (rawGet mean j).bind fun m =>
        writeAt out (vecIdx M 0 j) (row.map fun x => sub x m))
      (List.replicate data.length zero) (List.range N)
    = Res.foldL (fun out j => writeAt out (j * M)
        ((rowOf data M j).map fun x => sub x (meanOf (rowOf data M j))))
      (List.replicate data.length zero) (List.range N) := by
    apply Res.foldL_congr
    intro s j hj
    have hj := List.mem_range.1 hj
    rw [slice_row h hj]
    have : rawGet mean j = .ok (meanOf (rowOf data M j)) := by
      rw [rawGet_eq_ok, hm]; simp [hj]
    simp [this, vecIdx]
  rw [this, foldL_writeAt_blocks]
  · simp
  · intro j hj; simp [rowOf_length h hj]
  · simpa using h

theorem settMedian_ok {l : List F} (h : l ≠ []) : ∃ m, settMedian l = .ok m := by
  have hl : 0 < l.length := List.length_pos_iff.2 h
  unfold settMedian
  simp only
  split
  · rw [rawGet_of_lt (show l.length / 2 - 1 < l.length by omega),
      rawGet_of_lt (show l.length / 2 < l.length by omega)]
    simp
  · rw [rawGet_of_lt (show l.length / 2 < l.length by omega)]
    simp

/-- Everything `setUp` establishes. -/
structure DS.Built (d : DS F) (t data err : List F) (N : Nat) : Prop where
  ht : d.t = t
  hdata : d.data = data
  herr : d.err = err
  hN : d.N = N
  hM : d.M = t.length
  tne : t ≠ []
  dne : data ≠ []
  hmul : data.length % t.length = 0
  hsize : N * t.length ≤ data.length
  mean : d.dataMean = (List.range N).map fun j => meanOf (rowOf data t.length j)
  tMax : t.getLast? = some d.tMax
  normT : d.normT = t.map fun x => sub x (t.head tne)
  normData : d.normData = ((List.range N).map fun j =>
      (rowOf data t.length j).map fun x => sub x (meanOf (rowOf data t.length j))).flatten
      ++ List.replicate (data.length - N * t.length) zero
  med : settMedian d.normT = .ok d.tMedian

theorem setUp_ok {t data err : List F} {N : Nat} (tne : t ≠ []) (dne : data ≠ [])
    (hmul : data.length % t.length = 0) (hsize : N * t.length ≤ data.length) :
    ∃ d, setUp t data err N t.length = .ok d ∧ d.Built t data err N := by
  have h0 : calcNormt t = .ok (t.map fun x => sub x (t.head tne)) := by
    unfold calcNormt
    have : rawGet t 0 = .ok (t.head tne) := by
      rw [rawGet_eq_ok]; cases t <;> simp_all
    simp [this]
  obtain ⟨med, hmed⟩ := settMedian_ok (F := F) (l := t.map fun x => sub x (t.head tne))
    (by simpa using tne)
  have hmax : settMax t = .ok (t.getLast tne) := by
    unfold settMax; rw [rawGet_eq_ok, ← List.getLast?_eq_getElem?, List.getLast?_eq_getLast_of_ne_nil]
  refine ⟨
    { t := t, data := data, err := err,
      dataMean := (List.range N).map fun j => meanOf (rowOf data t.length j),
      tMedian := med, tMax := t.getLast tne, normT := t.map fun x => sub x (t.head tne),
      normData := ((List.range N).map fun j =>
          (rowOf data t.length j).map fun x => sub x (meanOf (rowOf data t.length j))).flatten
          ++ List.replicate (data.length - N * t.length) zero,
      N := N, M := t.length }, ?_, ?_⟩
  · unfold setUp
    rw [if_neg (by simp [tne, dne]), if_neg (by simp [hmul]), setDataMean_ok hsize, hmax, h0]
    simp only [Res.ok_bind]
    rw [calcNormData_ok hsize rfl]
    simp only [Res.ok_bind]
    rw [hmed]
    simp only [Res.ok_bind]
  · exact
    { ht := rfl, hdata := rfl, herr := rfl, hN := rfl, hM := rfl, tne := tne, dne := dne, hmul := hmul,
      hsize := hsize, mean := rfl, tMax := by simp [List.getLast?_eq_getLast_of_ne_nil tne],
      normT := rfl, normData := rfl, med := hmed }

theorem setUp_ub {t data err : List F} {N : Nat} (tne : t ≠ []) (dne : data ≠ [])
    (hmul : data.length % t.length = 0) (hsize : data.length < N * t.length) :
    setUp t data err N t.length = .ub := by
  unfold setUp
  rw [if_neg (by simp [tne, dne]), if_neg (by simp [hmul]), setDataMean_ub hsize]
  rfl

theorem setUp_empty {t data err : List F} {N M : Nat} (h : data = [] ∨ t = []) :
    setUp t data err N M = .exn .emptyDataStructure := by
  unfold setUp
  rw [if_pos (by simpa using h)]

theorem setUp_bad {t data err : List F} {N M : Nat} (tne : t ≠ []) (dne : data ≠ [])
    (hmul : data.length % t.length ≠ 0) : setUp t data err N M = .exn .badDataInput := by
  unfold setUp
  rw [if_neg (by simp [tne, dne]), if_pos hmul]

theorem setUp_built {t data err : List F} {N : Nat} {d : DS F}
    (h : setUp t data err N t.length = .ok d) : d.Built t data err N := by
  by_cases h1 : data = [] ∨ t = []
  · rw [setUp_empty h1] at h; simp at h
  · push Not at h1
    by_cases h2 : data.length % t.length = 0
    · by_cases h3 : N * t.length ≤ data.length
      · obtain ⟨d', h4, h5⟩ := setUp_ok (err := err) h1.2 h1.1 h2 h3
        rw [h4] at h; simp at h; rwa [← h]
      · rw [setUp_ub h1.2 h1.1 h2 (by omega)] at h; simp at h
    · rw [setUp_bad h1.2 h1.1 h2] at h; simp at h

theorem unflatten_ok {v : List F} {N M : Nat} (h : N * M ≤ v.length) :
    unflatten v N M = .ok ((List.range N).map fun j => rowOf v M j) := by
  unfold unflatten
  apply Res.mapL_ok
  intro j hj
  have hj := List.mem_range.1 hj
  have hl := rowOf_length h hj
  have hb := row_end_le h hj
  have : ∀ i ∈ List.range M, rawGet v (vecIdx M i j) = .ok ((rowOf v M j).getD i zero) := by
    intro i hi
    have hi := List.mem_range.1 hi
    rw [rawGet_eq_ok, ← rowOf_getElem? v M j i hi]
    simp [List.getD, hl, hi]
  rw [Res.mapL_ok this]
  congr 1
  apply List.ext_getElem
  · simp [hl]
  · intro i h1 h2; simp [List.getD, h2]

/-- `unflatten` is undefined as soon as the buffer is too short (and rows are not empty). -/
theorem unflatten_ub {v : List F} {N M : Nat} (h : v.length < N * M) : unflatten v N M = .ub := by
  unfold unflatten
  have inner : ∀ j, v.length < vecIdx M M j → j * M ≤ v.length →
      Res.mapL (fun i => rawGet v (vecIdx M i j)) (List.range M) = .ub := by
    intro j hj hj2
    obtain ⟨p, hp⟩ : ∃ p, p + j * M = v.length := ⟨v.length - j * M, by omega⟩
    have hpM : p < M := by simp [vecIdx] at hj; omega
    have : List.range M = List.range p ++ (p :: (List.range' (p+1) (M - p - 1))) := by
      rw [List.range_eq_range', List.range_eq_range']
      have e : M = p + (M - p - 1 + 1) := by omega
      conv_lhs => rw [e]
      rw [← List.range'_append_1, Nat.zero_add, List.range'_succ]
    rw [this, Res.mapL_append, Res.mapL_cons, rawGet_of_ge (v := v) (i := vecIdx M p j) (by simp [vecIdx]; omega)]
    have : ∃ ys, Res.mapL (fun i => rawGet v (vecIdx M i j)) (List.range p) = .ok ys := by
      obtain ⟨ys, h1, _⟩ := Res.mapL_ok_of_forall (f := fun i => rawGet v (vecIdx M i j))
        (l := List.range p) (P := fun _ => True) (by
        intro i hi
        have := List.mem_range.1 hi
        exact ⟨_, rawGet_of_lt (show vecIdx M i j < v.length by simp [vecIdx]; omega), trivial⟩)
      exact ⟨ys, h1⟩
    obtain ⟨ys, hys⟩ := this
    rw [hys]; rfl
  have key : ∀ k ≤ N, k * M ≤ v.length ∨ Res.mapL (fun j => Res.mapL (fun i => rawGet v (vecIdx M i j))
      (List.range M)) (List.range k) = .ub := by
    intro k
    induction k with
    | zero => intro _; left; simp
    | succ k ih =>
      intro hk
      rcases ih (by omega) with h1 | h1
      · by_cases h2 : (k + 1) * M ≤ v.length
        · exact Or.inl h2
        · right
          rw [List.range_succ, Res.mapL_append]
          have := unflatten_ok h1
          unfold unflatten at this
          rw [this]
          simp only [Res.ok_bind, Res.mapL_cons]
          rw [inner k (by rw [Nat.succ_mul] at h2; simp [vecIdx]; omega) h1]
          rfl
      · right
        rw [List.range_succ, Res.mapL_append, h1]; rfl
  rcases key N le_rfl with h1 | h1
  · omega
  · exact h1

/-- Row `j` of the concatenation of rows of equal length. -/
theorem rowOf_flatten {α : Type} {rows : List (List α)} {M : Nat} (h : ∀ r ∈ rows, r.length = M) :
    (List.range rows.length).map (rowOf rows.flatten M) = rows := by
  induction rows with
  | nil => simp
  | cons r rs ih =>
    have hr : r.length = M := h r (by simp)
    rw [List.length_cons, List.range_succ_eq_map, List.map_cons, List.map_map]
    have h0 : rowOf (r :: rs).flatten M 0 = r := by
      simp [rowOf, ← hr]
    have h1 : (rowOf (r :: rs).flatten M ∘ Nat.succ) = rowOf rs.flatten M := by
      funext j
      simp only [rowOf, Function.comp, List.flatten_cons, Nat.succ_mul]
      rw [Nat.add_comm, ← hr, ← List.drop_drop, List.drop_left]
    rw [h0, h1, ih (fun x hx => h x (by simp [hx]))]

theorem rowOf_flatten_get {α : Type} {rows : List (List α)} {M : Nat} (h : ∀ r ∈ rows, r.length = M)
    {j : Nat} {r : List α} (hj : rows[j]? = some r) : rowOf rows.flatten M j = r := by
  have := congrArg (fun l => l[j]?) (rowOf_flatten h)
  simp only [List.getElem?_map] at this
  have hlt : j < rows.length := by
    rw [List.getElem?_eq_some_iff] at hj; exact hj.1
  rw [List.getElem?_range hlt, hj] at this
  simpa using this

theorem length_flatten_const {α : Type} {rows : List (List α)} {M : Nat} (h : ∀ r ∈ rows, r.length = M) :
    rows.flatten.length = rows.length * M := by
  induction rows with
  | nil => simp
  | cons r rs ih =>
    simp only [List.flatten_cons, List.length_append, List.length_cons, Nat.succ_mul,
      ih (fun x hx => h x (by simp [hx])), h r (by simp)]
    omega

end Sacf
