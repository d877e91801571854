import Verif.Cases.Base
import Verif.Props.File

/-!
# The theorems on data files and on the constructors, applied
-/

namespace Sacf

/-! ## File -/

/-- unsigned whole number -/
abbrev whole (ds : List Char) : Numeral := { ints := ds }

/-- number with a point and no exponent -/
abbrev pointed (ds fs : List Char) : Numeral := { ints := ds, frac := some fs }

theorem whole_valid {ds : List Char} (h : ds.all Char.isDigit = true) (hne : ds ≠ []) : (whole ds).Valid :=
  ⟨fun c hc => List.all_eq_true.1 h c hc, fun c hc => by simp [Numeral.fracDigits] at hc, .inl hne, by simp⟩

theorem pointed_valid {ds fs : List Char} (h : (ds ++ fs).all Char.isDigit = true) (hne : ds ≠ [] ∨ fs ≠ []) : (pointed ds fs).Valid :=
  ⟨fun c hc => List.all_eq_true.1 h c (by simp [hc]), fun c hc => List.all_eq_true.1 h c (by simpa [Numeral.fracDigits] using .inr hc), hne, by simp⟩

theorem seps {b : List Char} (h : b.all isSep = true) : ∀ c ∈ b, isSep c = true := List.all_eq_true.1 h

theorem headSep {r : List Char} (h : r.head?.all isSep = true) : ∀ c, r.head? = some c → isSep c = true := by
  intro c hc
  simpa [hc] using h

/-- the line `0, 1.5` -/
theorem line_two : Fields "0, 1.5".toList (q [0, 3/2]) :=
  .cons (b := []) (n := whole ['0']) (rest := ", 1.5".toList) (seps rfl) (whole_valid rfl (by simp)) (by decide +kernel) (headSep rfl)
    (.cons (b := [',', ' ']) (n := pointed ['1'] ['5']) (rest := []) (seps rfl) (pointed_valid rfl (by simp)) (by decide +kernel) (headSep rfl) (.nil (seps rfl)))

/-- the line `2 .5 ` -/
theorem line_two' : Fields "2 .5 ".toList (q [2, 1/2]) :=
  .cons (b := []) (n := whole ['2']) (rest := " .5 ".toList) (seps rfl) (whole_valid rfl (by simp)) (by decide +kernel) (headSep rfl)
    (.cons (b := [' ']) (n := pointed [] ['5']) (rest := [' ']) (seps rfl) (pointed_valid rfl (by simp)) (by decide +kernel) (headSep rfl) (.nil (seps rfl)))

/-- the line `3,4,10` -/
theorem line_three : Fields "3,4,10".toList (q [3, 4, 10]) :=
  .cons (b := []) (n := whole ['3']) (rest := ",4,10".toList) (seps rfl) (whole_valid rfl (by simp)) (by decide +kernel) (headSep rfl)
    (.cons (b := [',']) (n := whole ['4']) (rest := ",10".toList) (seps rfl) (whole_valid rfl (by simp)) (by decide +kernel) (headSep rfl)
      (.cons (b := [',']) (n := whole ['1', '0']) (rest := []) (seps rfl) (whole_valid rfl (by simp)) (by decide +kernel) (headSep rfl) (.nil (seps rfl))))

/-- C10_round_trip; the last line lacks its newline -/
example : (mkFile (some "0, 1.5\n2 .5 ".toList) : Res (DS Q)) = mkFlat (q [0, 2]) (q [3/2, 1/2]) := by
  have hs : IsLines "0, 1.5\n2 .5 ".toList ["0, 1.5".toList, "2 .5 ".toList] :=
    ⟨by decide, .inr ⟨["0, 1.5".toList], "2 .5 ".toList, rfl, by decide, by decide⟩⟩
  rw [C10_round_trip (F := Q) _ _ hs [(.fin 0, .fin (3/2)), (.fin 2, .fin (1/2))] (.cons line_two (.cons line_two' .nil))]
  rfl

/-- C10_round_trip_errors -/
example : (mkFile (some "3,4,10\n3,4,10\n".toList) : Res (DS Q)) = mkFlatErr (q [3, 3]) (q [4, 4]) (q [10, 10]) := by
  have hs : IsLines "3,4,10\n3,4,10\n".toList ["3,4,10".toList, "3,4,10".toList] := ⟨by decide, .inl (by decide)⟩
  rw [C10_round_trip_errors (F := Q) _ _ hs [(.fin 3, .fin 4, .fin 10), (.fin 3, .fin 4, .fin 10)] (.cons line_three (.cons line_three .nil))]
  rfl

/-- C10_every_table -/
example : (mkFile (some (writeFile [[⟨true, 125, -2⟩, ⟨false, 7, 3⟩], [⟨false, 0, 0⟩, ⟨false, 1, -1⟩]])) : Res (DS Q)) = mkFlat (q [-5/4, 0]) (q [7000, 1/10]) := by
  have h := C10_every_table (F := Q) [(⟨true, 125, -2⟩, ⟨false, 7, 3⟩), (⟨false, 0, 0⟩, ⟨false, 1, -1⟩)] [(.fin (-5/4), .fin 7000), (.fin 0, .fin (1/10))]
    (.cons ⟨by decide +kernel, by decide +kernel⟩ (.cons ⟨by decide +kernel, by decide +kernel⟩ .nil))
  simp only [List.map_cons, List.map_nil] at h
  rw [h]
  rfl

/-- C11_neutral_line: a comment with numbers in it -/
example : (mkFile (some "0 1\n# 5 6\n2 3\n".toList) : Res (DS Q)) = mkFile (some "0 1\n2 3\n".toList) :=
  (C11_neutral_line "# 5 6".toList (by decide) (C11_neutral_kinds _ (.inl rfl)) "0 1".toList "2 3\n".toList).2.1

/-- C12_separators -/
example : (mkFile (some "0,1\n2 3\r\n".toList) : Res (DS Q)) = mkFile (some "0\t1\n2,3 \n".toList) :=
  C12_separators _ _ (by unfold SameUpToSeparators; decide)

/-- C13_outcome: no line with two numbers, and one such line -/
example : (mkFile (some "# 1 2\n7\n".toList) : Res (DS Q)) = .exn .emptyDataStructure ∧ ∃ d : DS Q, mkFile (some "# 1 2\n0, 1.5\n7\n".toList) = .ok d := by
  have h1 : IsLines "# 1 2\n7\n".toList ["# 1 2".toList, "7".toList] := ⟨by decide, .inl rfl⟩
  have h2 : IsLines "# 1 2\n0, 1.5\n7\n".toList ["# 1 2".toList, "0, 1.5".toList, "7".toList] := ⟨by decide, .inl rfl⟩
  have e : (mkFile (some "# 1 2\n7\n".toList) : Res (DS Q)) = .exn .emptyDataStructure := by decide +kernel
  have no := (C13_outcome (F := Q) _ _ h1).2.1.1 e
  refine ⟨(C13_outcome (F := Q) _ _ h1).2.1.2 no, (C13_outcome (F := Q) _ _ h2).2.2 ⟨"0, 1.5".toList, by simp, by decide, .fin 0, ", 1.5".toList, .fin (3/2), [], ?_, ?_⟩⟩
  · exact ⟨[], whole ['0'], seps rfl, whole_valid rfl (by simp), rfl, by simp [Numeral.Ends], by decide +kernel⟩
  · exact ⟨[',', ' '], pointed ['1'] ['5'], seps rfl, pointed_valid rfl (by simp), rfl, by simp [Numeral.Ends], by decide +kernel⟩

/-- the numbers of a line -/
theorem lineNumbers (l : List Char) (v : List Q) (h : toks (replaceCommas l) = v) : Tokens l v := h ▸ tokens_total l

/-- C14_meaning and C14_three_columns_partial: a header, a comment, and three columns with a remark -/
example : (mkFile (some "t x e\n#\n0 1 .5 ok\n1 2 .25\n".toList) : Res (DS Q)) = mkFlatErr (q [0, 1]) (q [1, 2]) (q [1/2, 1/4]) ∧
    ∃ d : DS Q, mkFile (some "t x e\n#\n0 1 .5 ok\n1 2 .25\n".toList) = .ok d ∧ d.timeseries = q [0, 1] ∧ d.data2d = .ok [q [1, 2]] ∧ d.err2d = .ok [q [1/2, 1/4]] := by
  have hs : IsLines "t x e\n#\n0 1 .5 ok\n1 2 .25\n".toList ["t x e".toList, "#".toList, "0 1 .5 ok".toList, "1 2 .25".toList] := ⟨by decide, .inl rfl⟩
  have hL : List.Forall₂ Tokens (dataLines ["t x e".toList, "#".toList, "0 1 .5 ok".toList, "1 2 .25".toList]) [q [], q [0, 1, 1/2], q [1, 2, 1/4]] :=
    .cons (lineNumbers _ _ (by decide +kernel)) (.cons (lineNumbers _ _ (by decide +kernel)) (.cons (lineNumbers _ _ (by decide +kernel)) .nil))
  exact ⟨C14_meaning _ _ hs _ hL,
    C14_three_columns_partial _ _ hs _ hL [(.fin 0, .fin 1, .fin (1/2)), (.fin 1, .fin 2, .fin (1/4))] (by simp) rfl⟩

/-- C14_no_errors_partial: the first line has two numbers -/
example : ∃ d : DS Q, mkFile (some "0 1\n1 2 .25\n".toList) = .ok d ∧ d.err2d = .ok [] :=
  C14_no_errors_partial "0 1\n1 2 .25\n".toList ["0 1".toList, "1 2 .25".toList] ⟨by decide, .inl rfl⟩ [q [0, 1], q [1, 2, 1/4]]
    (.cons (lineNumbers _ _ (by decide +kernel)) (.cons (lineNumbers _ _ (by decide +kernel)) .nil)) (.fin 0) (.fin 1) [q [1, 2, 1/4]] rfl

/-- C14_errors_ub_iff_partial: an error is missing -/
example : ∃ d : DS Q, mkFile (some "0 1 .5\n1 2\n".toList) = .ok d ∧ d.err2d = .ub := by
  obtain ⟨d, hd, _⟩ := okThen_ok (P := fun _ => true) (z := (mkFile (some "0 1 .5\n1 2\n".toList) : Res (DS Q))) (by decide +kernel)
  exact ⟨d, hd, (C14_errors_ub_iff_partial "0 1 .5\n1 2\n".toList ["0 1 .5".toList, "1 2".toList] ⟨by decide, .inl rfl⟩ [q [0, 1, 1/2], q [1, 2]]
    (.cons (lineNumbers _ _ (by decide +kernel)) (.cons (lineNumbers _ _ (by decide +kernel)) .nil)) d hd).2 ⟨q [0, 1, 1/2], [q [1, 2]], rfl, by decide, by decide⟩⟩

/-- C14_every_file -/
example : ∃ ls, IsLines "a\n0 1".toList ls ∧ ∃ L : List (List Q), List.Forall₂ Tokens (dataLines ls) L := C14_every_file _

/-! ## Construct -/

/-- C01: four values at two times pass, three do not -/
example : (∃ d : DS Q, mkFlat (q [0, 1]) (q [1, 2, 3, 4]) = .ok d) ∧ mkFlat (q [0, 1]) (q [1, 2, 3]) = .exn .badDataInput ∧
    mkFlat (q [0, 1]) [] = .exn .emptyDataStructure ∧ mkFlatErr (q [0, 1]) (q [1, 2, 3]) (q [1]) = .exn .badDataInput :=
  ⟨(C01_flat_constructor _ _).2.2.1.2 (by decide), (C01_flat_constructor _ _).2.1.2 (by decide), (C01_flat_constructor _ _).1.2 (.inr rfl),
    (C01_flat_constructor_with_errors _ _ _).2.1.2 (by decide)⟩

/-- C02: one value too many is refused, but a second copy of the series is ignored -/
example : (∀ d : DS Q, mkFlatErr (q [0, 1]) (q [1, 2, 3]) [] ≠ .ok d) ∧
    ∃ d d' : DS Q, mkFlatErr (q [0, 1]) (q [1, 2, 3, 4]) [] = .ok d ∧ mkFlatErr (q [0, 1]) (q [1, 2]) [] = .ok d' ∧ d'.data2d = d.data2d := by
  refine ⟨C02_rejection_partial _ _ _ (by decide) (by decide), ?_⟩
  obtain ⟨d, hd⟩ := (C01_flat_constructor_with_errors (q [0, 1]) (q [1, 2, 3, 4]) []).2.2.1.2 (by decide)
  obtain ⟨d', h1, _, _, h2, _⟩ := C02_surplus_ignored_partial _ _ _ d hd
  exact ⟨d, d', hd, h1, h2⟩

/-- C03_round_trip_errors: two datasets with errors -/
example : ∃ d : DS Q, mkTableErr (q [0, 1]) [q [1, 2], q [3, 5]] [q [1, 1], q [2, 2]] = .ok d ∧ d.data2d = .ok [q [1, 2], q [3, 5]] ∧ d.err2d = .ok [q [1, 1], q [2, 2]] := by
  obtain ⟨d, h1, _, h2, h3, _⟩ := C03_round_trip_errors (q [0, 1]) [q [1, 2], q [3, 5]] [q [1, 1], q [2, 2]] (by decide) (by decide) (by unfold Rect; decide)
    (by unfold Rect; decide) rfl
  exact ⟨d, h1, h2, h3⟩

/-- C08: rows of length 1 and 3 at two times make an object, a missing row end does not -/
example : (∃ d : DS Q, mkTableErr (q [0, 1]) [q [1], q [2, 3, 4]] [] = .ok d) ∧ mkTableErr (q [0, 1]) [q [1], q [2]] [] = .ub ∧
    mkTableErr (q [0, 1]) [q [1, 2], q [3, 5]] [q [7]] ≠ .ub :=
  ⟨(C08_ub_iff_partial _ _ _).2.1.2 (by decide), (C08_ub_iff_partial _ _ _).1.2 (by decide), (C08_rectangular_safe_partial _ _ _ (by unfold Rect; decide)).1⟩

/-- C09: one error for two values -/
example : ∃ d : DS Q, mkFlatErr (q [0, 1]) (q [1, 2]) (q [1]) = .ok d ∧ d.err2d = .ub := by
  obtain ⟨d, hd⟩ := (C01_flat_constructor_with_errors (q [0, 1]) (q [1, 2]) (q [1])).2.2.1.2 (by decide)
  exact ⟨d, hd, (C09_errors_flat_iff_partial _ _ _ d hd).1.2 (by decide)⟩

/-- C09: three errors for four values in two datasets -/
example : ∃ d : DS Q, mkTableErr (q [0, 1]) [q [1, 2], q [3, 5]] [q [1], q [1, 1]] = .ok d ∧ d.err2d = .ub := by
  obtain ⟨d, hd⟩ := (C08_ub_iff_partial (q [0, 1]) [q [1, 2], q [3, 5]] [q [1], q [1, 1]]).2.1.2 (by decide)
  exact ⟨d, hd, (C09_errors_iff_partial _ _ _ d hd).1.2 (by decide)⟩

/-! ## Stability -/

/-- C78_false: a jitter of a thousandth changes the correlation by a quarter -/
example : ∃ (d d' : DS Q) (r r' : AcResult Q) (n n' : ℕ),
    NaturalRun (dm := 10 ^ 100) (f32 := id) (ex := fun x => 1 / (1 - x)) d ⟨some (.fin 1), some (.fin 1), some (.fin 1), some (.fin 1)⟩ "fractional" r 4
      (jT 0) 0 jX 1 ∧
    NaturalRun (dm := 10 ^ 100) (f32 := id) (ex := fun x => 1 / (1 - x)) d' ⟨some (.fin 1), some (.fin 1), some (.fin 1), some (.fin 1)⟩ "fractional" r' 4
      (jT (1/1000)) 0 jX 1 ∧ (∀ i < 4, |jT 0 i - jT (1/1000) i| ≤ 1/1000) ∧ r.At 0 n (.fin 1) (.fin (1/4)) ∧ r'.At 0 n' (.fin 1) (.fin 0) :=
  C78_false (1/1000) (by norm_num) (by norm_num)

end Sacf
