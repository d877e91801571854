import Verif.Props.Dates

/-!
# Cases for Props/Dates.lean
-/

namespace Sacf

/-- C115_dates_partial: two days of 2020. -/
example : (mkFile (some "2020-01-05,35e-1\n2020-02-07,45e-1\n".toList) : Res (DS Q)) =
    mkFlatErr (q [2020, 2020]) (q [-1, -2]) (q [-5, 7/2, -7, 9/2]) := by
  have h := C115_dates_partial (F := Q)
    [⟨"2020".toList, "01".toList, "05".toList, ⟨false, 35, -1⟩⟩, ⟨"2020".toList, "02".toList, "07".toList, ⟨false, 45, -1⟩⟩]
    (by
      intro r hr
      simp only [List.mem_cons, List.not_mem_nil, or_false] at hr
      rcases hr with rfl | rfl <;> exact ⟨⟨by decide, by unfold Numeral.AllDigits; decide⟩, ⟨by decide, by unfold Numeral.AllDigits; decide⟩,
        ⟨by decide, by unfold Numeral.AllDigits; decide⟩⟩)
    (by simp) [(.fin 2020, .fin (-1), .fin (-5), .fin (7/2)), (.fin 2020, .fin (-2), .fin (-7), .fin (9/2))]
    (.cons (by decide +kernel) (.cons (by decide +kernel) .nil))
  have e : fileOf (([⟨"2020".toList, "01".toList, "05".toList, ⟨false, 35, -1⟩⟩,
      ⟨"2020".toList, "02".toList, "07".toList, ⟨false, 45, -1⟩⟩] : List DateRow).map DateRow.line) =
      "2020-01-05,35e-1\n2020-02-07,45e-1\n".toList := by decide +kernel
  rw [e] at h
  exact h

/-- C115_decimal_comma_partial: the times 0.5, 1.25 with values 2.25, 4.75. -/
example : (mkFile (some "0,5;2,25\n1,25;4,75\n".toList) : Res (DS Q)) = mkFlat (q [0, 1]) (q [5, 25]) := by
  have h := C115_decimal_comma_partial (F := Q) [⟨"0".toList, "5".toList, "2,25".toList⟩, ⟨"1".toList, "25".toList, "4,75".toList⟩]
    (by
      intro r hr
      simp only [List.mem_cons, List.not_mem_nil, or_false] at hr
      rcases hr with rfl | rfl <;> exact ⟨⟨by decide, by unfold Numeral.AllDigits; decide⟩, ⟨by decide, by unfold Numeral.AllDigits; decide⟩,
        by decide⟩)
    [(.fin 0, .fin 5), (.fin 1, .fin 25)] (.cons (by decide +kernel) (.cons (by decide +kernel) .nil))
  have e : fileOf (([⟨"0".toList, "5".toList, "2,25".toList⟩, ⟨"1".toList, "25".toList, "4,75".toList⟩] : List CommaRow).map
      CommaRow.line) = "0,5;2,25\n1,25;4,75\n".toList := by decide +kernel
  rw [e] at h
  exact h

/-- C115_first_word_partial: the row ` 12:30,5` between two others. -/
example : (mkFile (some "12,1\n 12:30,5\n13,2\n".toList) : Res (DS Q)) = mkFile (some "12,1\n13,2\n".toList) :=
  C115_first_word_partial (F := Q) " ".toList "12".toList "30,5".toList ':' (by decide)
    ⟨by decide, by unfold Numeral.AllDigits; decide⟩ (by decide) (by decide) (by decide) (by decide) (.fin 12) (by decide +kernel)
    "12,1".toList "13,2\n".toList

end Sacf
