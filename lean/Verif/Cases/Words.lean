import Verif.Props.Words
import Verif.Cases.File

/-!
# Cases for Props/Words.lean
-/

namespace Sacf

/-- C114_words: tabs, repeated separators, a blank line, an indented comment and a missing final newline. -/
example : (mkFile (some "# t x\n0,1\n1, 2.5\n2,4\n".toList) : Res (DS Q)) =
    mkFile (some "\t#  t\tx\n\n 0\t\t1\n1\t2.5\t\n  ,\n2 4".toList) :=
  C114_words _ _ ["# t x".toList, "0,1".toList, "1, 2.5".toList, "2,4".toList]
    ["\t#  t\tx".toList, [], " 0\t\t1".toList, "1\t2.5\t".toList, "  ,".toList, "2 4".toList]
    ⟨by decide +kernel, .inl (by decide +kernel)⟩ ⟨by decide +kernel, .inr ⟨["\t#  t\tx".toList, [], " 0\t\t1".toList, "1\t2.5\t".toList, "  ,".toList],
      "2 4".toList, by decide +kernel, by decide, by decide +kernel⟩⟩
    (by decide +kernel)

/-- C114_line_endings: the file of three samples, saved on Windows. -/
example : (mkFile (some "0,1,3\r\n1,2,3\r\n2,4,3\r\n".toList) : Res (DS Q)) = mkFlatErr (q [0, 1, 2]) (q [1, 2, 4]) (q [3, 3, 3]) := by
  have h := C114_line_endings (F := Q) "0,1,3\n1,2,3\n2,4,3\n".toList
  have e : windows "0,1,3\n1,2,3\n2,4,3\n".toList = "0,1,3\r\n1,2,3\r\n2,4,3\r\n".toList := by decide +kernel
  rw [e] at h
  rw [h]
  decide +kernel

/-- the words `nan` and `-inf` start no number -/
theorem not_number (w : List Char) (h : toks (F := Q) (replaceCommas w) = []) (y : Q) (r : List Char) : ¬ Token w y r := by
  intro ht
  have := tokens_total (F := Q) w
  rw [h] at this
  cases this with
  | stop hn => exact hn y r ht

/-- C112_left_out_partial: of the four rows 0,1  1,-inf  2,4  3,-inf two are left; of a file of NaNs none. -/
example : (mkFile (some "0e0,1e0\n1e0,-inf\n2e0,4e0\n3e0,-inf\n".toList) : Res (DS Q)) = mkFlat (q [0, 2]) (q [1, 4]) ∧
    (mkFile (some "0e0,nan\n1e0,nan\n".toList) : Res (DS Q)) = .exn .emptyDataStructure := by
  have h1 := C112_left_out_partial (F := Q) "-inf".toList (by decide) (not_number _ (by decide +kernel))
    [(⟨false, 0, 0⟩, some ⟨false, 1, 0⟩), (⟨false, 1, 0⟩, none), (⟨false, 2, 0⟩, some ⟨false, 4, 0⟩), (⟨false, 3, 0⟩, none)]
    [(.fin 0, some (.fin 1)), (.fin 1, none), (.fin 2, some (.fin 4)), (.fin 3, none)]
    (.cons ⟨by decide +kernel, by show _ = _; decide +kernel⟩ (.cons ⟨by decide +kernel, trivial⟩
      (.cons ⟨by decide +kernel, by show _ = _; decide +kernel⟩ (.cons ⟨by decide +kernel, trivial⟩ .nil))))
  have h2 := C112_left_out_partial (F := Q) "nan".toList (by decide) (not_number _ (by decide +kernel))
    [(⟨false, 0, 0⟩, none), (⟨false, 1, 0⟩, none)] [(.fin 0, none), (.fin 1, none)]
    (.cons ⟨by decide +kernel, trivial⟩ (.cons ⟨by decide +kernel, trivial⟩ .nil))
  have e1 : missingFile "-inf".toList [(⟨false, 0, 0⟩, some ⟨false, 1, 0⟩), (⟨false, 1, 0⟩, none),
      (⟨false, 2, 0⟩, some ⟨false, 4, 0⟩), (⟨false, 3, 0⟩, none)] = "0e0,1e0\n1e0,-inf\n2e0,4e0\n3e0,-inf\n".toList := by
    decide +kernel
  have e2 : missingFile "nan".toList [(⟨false, 0, 0⟩, none), (⟨false, 1, 0⟩, none)] = "0e0,nan\n1e0,nan\n".toList := by
    decide +kernel
  rw [e1] at h1
  rw [e2] at h2
  exact ⟨h1, h2⟩

/-- C113_empty_field_partial: the row `1,,7` is the row `1,7`. -/
example : (mkFile (some "0,1,5\n1,,7\n2,4,6\n".toList) : Res (DS Q)) = mkFile (some "0,1,5\n1,7\n2,4,6\n".toList) :=
  C113_empty_field_partial "0,1,5".toList "2,4,6\n".toList "1".toList "7".toList ',' ',' (by decide) (by decide) (by decide)
    (by decide) (by decide) (by decide)

/-- C113_shifted_partial: two rows without a value. -/
example : (mkFile (some "0e0,,5e0\n1e0,,7e0\n".toList) : Res (DS Q)) = mkFlat (q [0, 1]) (q [5, 7]) := by
  have h := C113_shifted_partial (F := Q) [(⟨false, 0, 0⟩, ⟨false, 5, 0⟩), (⟨false, 1, 0⟩, ⟨false, 7, 0⟩)]
    [(.fin 0, .fin 5), (.fin 1, .fin 7)]
    (.cons ⟨by decide +kernel, by decide +kernel⟩ (.cons ⟨by decide +kernel, by decide +kernel⟩ .nil))
  have e : (([(⟨false, 0, 0⟩, ⟨false, 5, 0⟩), (⟨false, 1, 0⟩, ⟨false, 7, 0⟩)] : List (Decimal × Decimal)).map fun r =>
      emptyLine r ++ ['\n']).flatten = "0e0,,5e0\n1e0,,7e0\n".toList := by decide +kernel
  rw [e] at h
  exact h

end Sacf
