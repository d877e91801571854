import Verif.Props.Words

/-!
# Dates, times of day and decimal commas in a file (C115)
-/

set_option linter.unusedSectionVars false

namespace Sacf

open Arith

variable {F : Type} [Arith F]

/-- a row that starts with a date: `2020-01-05,3.5` -/
structure DateRow where
  year : List Char
  month : List Char
  day : List Char
  value : Decimal

/-- year, month and day are strings of digits -/
structure DateRow.Valid (r : DateRow) : Prop where
  year : r.year ≠ [] ∧ Numeral.AllDigits r.year
  month : r.month ≠ [] ∧ Numeral.AllDigits r.month
  day : r.day ≠ [] ∧ Numeral.AllDigits r.day

def DateRow.line (r : DateRow) : List Char :=
  r.year ++ '-' :: (r.month ++ '-' :: (r.day ++ ',' :: r.value.numeral.chars))

/-- a row with decimal commas: `1,5;2,5` -/
structure CommaRow where
  int : List Char
  frac : List Char
  rest : List Char

/-- whole and fractional part are strings of digits; the second number is anything -/
structure CommaRow.Valid (r : CommaRow) : Prop where
  int : r.int ≠ [] ∧ Numeral.AllDigits r.int
  frac : r.frac ≠ [] ∧ Numeral.AllDigits r.frac
  rest : '\n' ∉ r.rest

def CommaRow.line (r : CommaRow) : List Char := r.int ++ ',' :: (r.frac ++ ';' :: r.rest)

/-- the lines, each with its newline -/
def fileOf (ls : List (List Char)) : List Char := (ls.map (· ++ ['\n'])).flatten

/-! ## numbers that touch -/

theorem digits_token {b ds rest : List Char} {x : F} (s : Sign) (hb : ∀ c ∈ b, isSep c = true)
    (hd : ds ≠ [] ∧ Numeral.AllDigits ds)
    (hr : ∀ c, rest.head? = some c → c.isDigit = false ∧ c ≠ 'e' ∧ c ≠ 'E' ∧ c ≠ '.')
    (hx : ofDec s.isMinus (Numeral.natOf ds) 0 = some x) : Token (b ++ (s.chars ++ (ds ++ rest))) x rest := by
  refine ⟨b, ⟨s, ds, none, none⟩, hb, ⟨hd.2, ?_, Or.inl hd.1, ?_⟩, ?_, ?_, ?_⟩
  · simp [Numeral.fracDigits, Numeral.AllDigits]
  · intro c s' d h
    simp at h
  · simp [Numeral.chars, Numeral.pointChars, Numeral.expoChars]
  · intro c hc
    have := hr c hc
    exact ⟨this.1, fun _ => ⟨this.2.1, this.2.2.1, fun _ => this.2.2.2⟩⟩
  · simpa [Numeral.value, Numeral.mant, Numeral.exp10, Numeral.fracDigits] using hx

theorem tokens_single (b : List Char) (hb : ∀ c ∈ b, isSep c = true) (d : Decimal) {x : F}
    (hx : ofDec d.minus d.m d.e = some x) : Tokens (b ++ d.numeral.chars) [x] := by
  refine .cons (r := []) ⟨b, d.numeral, hb, d.valid, by simp, by intro c hc; simp at hc, by rw [Decimal.value, hx]⟩ ?_
  exact .stop fun y r => no_token (b := []) (rest := []) (by simp) (by simp) y r

theorem DateRow.tokens {r : DateRow} (h : r.Valid) {y m d v : F}
    (hy : ofDec false (Numeral.natOf r.year) 0 = some y) (hm : ofDec true (Numeral.natOf r.month) 0 = some m)
    (hd : ofDec true (Numeral.natOf r.day) 0 = some d) (hv : ofDec r.value.minus r.value.m r.value.e = some v) :
    Tokens r.line [y, m, d, v] := by
  have one : ∀ (c : Char) (s : List Char), (c.isDigit = false ∧ c ≠ 'e' ∧ c ≠ 'E' ∧ c ≠ '.') →
      ∀ c', (c :: s).head? = some c' → c'.isDigit = false ∧ c' ≠ 'e' ∧ c' ≠ 'E' ∧ c' ≠ '.' := by
    intro c s h c' hc
    simp only [List.head?_cons, Option.some.injEq] at hc
    subst hc; exact h
  refine .cons (digits_token (b := []) .none (by simp) h.year (one '-' _ (by decide)) hy) ?_
  refine .cons (digits_token (b := []) .minus (by simp) h.month (one '-' _ (by decide)) hm) ?_
  refine .cons (digits_token (b := []) .minus (by simp) h.day (one ',' _ (by decide)) hd) ?_
  exact tokens_single [','] (by simp; decide) r.value hv

theorem CommaRow.tokens {r : CommaRow} (h : r.Valid) {x y : F}
    (hx : ofDec false (Numeral.natOf r.int) 0 = some x) (hy : ofDec false (Numeral.natOf r.frac) 0 = some y) :
    Tokens r.line [x, y] := by
  have one : ∀ (c : Char) (s : List Char), (c.isDigit = false ∧ c ≠ 'e' ∧ c ≠ 'E' ∧ c ≠ '.') →
      ∀ c', (c :: s).head? = some c' → c'.isDigit = false ∧ c' ≠ 'e' ∧ c' ≠ 'E' ∧ c' ≠ '.' := by
    intro c s h c' hc
    simp only [List.head?_cons, Option.some.injEq] at hc
    subst hc; exact h
  refine .cons (digits_token (b := []) .none (by simp) h.int (one ',' _ (by decide)) hx) ?_
  refine .cons (digits_token (b := [',']) .none (by simp; decide) h.frac (one ';' _ (by decide)) hy) ?_
  refine .stop fun z r' => no_token (b := []) (by simp) ?_ z r'
  intro c hc
  simp only [List.head?_cons, Option.some.injEq] at hc
  subst hc; decide

theorem digits_mem {l : List Char} (h : Numeral.AllDigits l) : '\n' ∉ l ∧ '#' ∉ l := by
  constructor
  · intro hc; exact absurd (h _ hc) (by decide)
  · intro hc; exact absurd (h _ hc) (by decide)

theorem not_comment_digits {ds rest : List Char} (h : ds ≠ [] ∧ Numeral.AllDigits ds) : ¬ IsComment (ds ++ rest) := by
  intro hc
  obtain ⟨c, ds, rfl⟩ := List.exists_cons_of_ne_nil h.1
  unfold IsComment at hc
  rw [List.cons_append, List.head?_cons, Option.some.injEq] at hc
  exact (digits_mem h.2).2 (by simp [hc])

theorem fileOf_lines {ls : List (List Char)} (h : ∀ l ∈ ls, '\n' ∉ l) : IsLines (fileOf ls) ls := ⟨h, Or.inl rfl⟩

theorem mkFile_fileOf (ls : List (List Char)) (L : List (List F)) (hn : ∀ l ∈ ls, '\n' ∉ l) (hc : ∀ l ∈ ls, ¬ IsComment l)
    (h : List.Forall₂ Tokens ls L) : mkFile (some (fileOf ls)) = fileMeaning L := by
  refine C14_meaning _ ls (fileOf_lines hn) L ?_
  have : dataLines ls = ls := List.filter_eq_self.2 fun l hl => by simpa using hc l hl
  rw [this]
  exact h

/-- **C115**, dates: the year is taken for the time, minus the month for the value, and minus the day and the value for
errors.  So the values are not read, and all times of a year are the same. -/
theorem C115_dates_partial (rows : List DateRow) (hv : ∀ r ∈ rows, r.Valid) (hne : rows ≠ []) (pts : List (F × F × F × F))
    (h : List.Forall₂ (fun (r : DateRow) (p : F × F × F × F) => ofDec false (Numeral.natOf r.year) 0 = some p.1 ∧
      ofDec true (Numeral.natOf r.month) 0 = some p.2.1 ∧ ofDec true (Numeral.natOf r.day) 0 = some p.2.2.1 ∧
      ofDec r.value.minus r.value.m r.value.e = some p.2.2.2) rows pts) :
    mkFile (some (fileOf (rows.map DateRow.line))) =
      mkFlatErr (pts.map fun p => p.1) (pts.map fun p => p.2.1) (pts.map fun p => [p.2.2.1, p.2.2.2]).flatten := by
  have ht : List.Forall₂ (Tokens (F := F)) (rows.map DateRow.line) (pts.map fun p => [p.1, p.2.1, p.2.2.1, p.2.2.2]) := by
    clear hne
    induction h with
    | nil => exact .nil
    | cons h1 _ ih =>
      exact .cons (DateRow.tokens (hv _ (by simp)) h1.1 h1.2.1 h1.2.2.1 h1.2.2.2) (ih fun r hr => hv r (by simp [hr]))
  rw [mkFile_fileOf _ _ ?_ ?_ ht]
  · unfold fileMeaning
    rw [List.filter_eq_self.2 (by
      intro l hl
      obtain ⟨p, _, rfl⟩ := List.mem_map.1 hl
      simp)]
    cases h with
    | nil => exact absurd rfl hne
    | cons _ _ =>
      simp [List.map_map, Function.comp_def]
  · intro l hl
    obtain ⟨r, hr, rfl⟩ := List.mem_map.1 hl
    have := hv r hr
    simp only [DateRow.line, List.mem_append, List.mem_cons, not_or]
    exact ⟨(digits_mem this.year.2).1, by decide, (digits_mem this.month.2).1, by decide, (digits_mem this.day.2).1, by decide,
      fun h => (chars_mem r.value.valid h).2.2 rfl⟩
  · intro l hl
    obtain ⟨r, hr, rfl⟩ := List.mem_map.1 hl
    exact not_comment_digits (hv r hr).year

/-- **C115**, decimal commas: the whole part of the time is taken for the time, its fraction, as a whole number, for the
value; the value is not read. -/
theorem C115_decimal_comma_partial (rows : List CommaRow) (hv : ∀ r ∈ rows, r.Valid) (pts : List (F × F))
    (h : List.Forall₂ (fun (r : CommaRow) (p : F × F) => ofDec false (Numeral.natOf r.int) 0 = some p.1 ∧
      ofDec false (Numeral.natOf r.frac) 0 = some p.2) rows pts) :
    mkFile (some (fileOf (rows.map CommaRow.line))) = mkFlat (pts.map Prod.fst) (pts.map Prod.snd) := by
  have ht : List.Forall₂ (Tokens (F := F)) (rows.map CommaRow.line) (pts.map fun p => [p.1, p.2]) := by
    induction h with
    | nil => exact .nil
    | cons h1 _ ih => exact .cons (CommaRow.tokens (hv _ (by simp)) h1.1 h1.2) (ih fun r hr => hv r (by simp [hr]))
  rw [mkFile_fileOf _ _ ?_ ?_ ht]
  · unfold fileMeaning
    rw [List.filter_eq_self.2 (by
      intro l hl
      obtain ⟨p, _, rfl⟩ := List.mem_map.1 hl
      simp)]
    cases pts with
    | nil => rfl
    | cons p pts =>
      have key : ∀ f : F × F → F, (pts.map fun x => [f x]).flatten = pts.map f := by
        intro f
        clear h ht
        induction pts with
        | nil => rfl
        | cons p pts ih => simp [ih]
      simp [List.map_map, Function.comp_def, everyThird, key]
  · intro l hl
    obtain ⟨r, hr, rfl⟩ := List.mem_map.1 hl
    have := hv r hr
    simp only [CommaRow.line, List.mem_append, List.mem_cons, not_or]
    exact ⟨(digits_mem this.int.2).1, by decide, (digits_mem this.frac.2).1, by decide, this.rest⟩
  · intro l hl
    obtain ⟨r, hr, rfl⟩ := List.mem_map.1 hl
    exact not_comment_digits (hv r hr).int

/-- **C115**, times of day (`12:30,5`), units (`3h 5`), hexadecimal numbers: a row whose first word goes on with other
text after its digits is left out. -/
theorem C115_first_word_partial (b ds rest : List Char) (c : Char) (hb : ∀ x ∈ b, isSep x = true)
    (hd : ds ≠ [] ∧ Numeral.AllDigits ds)
    (hc : isSep c = false ∧ startChar c = false ∧ c ≠ 'e' ∧ c ≠ 'E') (hn : '\n' ∉ b) (hr : '\n' ∉ rest) (hcn : c ≠ '\n')
    (x : F) (hx : ofDec false (Numeral.natOf ds) 0 = some x) (pre post : List Char) :
    mkFile (F := F) (some (pre ++ '\n' :: ((b ++ (ds ++ c :: rest)) ++ '\n' :: post))) = mkFile (some (pre ++ '\n' :: post)) := by
  have hc0 : c.isDigit = false ∧ c ≠ '.' := by
    have := hc.2.1
    unfold startChar at this
    simp at this
    exact ⟨this.1.1.1, this.2⟩
  refine (C11_neutral_line _ ?_ (Or.inr ?_) pre post).2.1
  · simp only [List.mem_append, List.mem_cons, not_or]
    exact ⟨hn, (digits_mem hd.2).1, hcn.symm, hr⟩
  · rw [← short_iff]
    have h : Tokens (F := F) (b ++ (ds ++ c :: rest)) [x] := by
      refine .cons (r := c :: rest) (digits_token .none hb hd ?_ hx) ?_
      · intro c' h
        simp only [List.head?_cons, Option.some.injEq] at h
        subst h
        exact ⟨hc0.1, hc.2.2.1, hc.2.2.2, hc0.2⟩
      · refine .stop fun y r => no_token (b := []) (by simp) ?_ y r
        intro c' h
        simp only [List.head?_cons, Option.some.injEq] at h
        subst h
        exact ⟨hc.1, hc.2.1⟩
    rw [← tokens_unique h]
    simp

/-- **C115 is false of the code**: no exception for rows with dates, for decimal commas, or for times of day beside
readable rows. -/
theorem C115_false :
    ((mkFile (some "2020-01-05,3.5\n2020-02-05,4.5\n".toList) : Res (DS Q)).bind fun d => .ok d.timeseries) = .ok (q [2020, 2020]) ∧
    ((mkFile (some "2020-01-05,3.5\n2020-02-05,4.5\n".toList) : Res (DS Q)).bind fun d => d.data2d) = .ok [q [-1, -2]] ∧
    ((mkFile (some "0,5;2,25\n1,5;4,75\n".toList) : Res (DS Q)).bind fun d => d.data2d) = .ok [q [5, 5]] ∧
    ((mkFile (some "12,1\n12:30,5\n13,2\n".toList) : Res (DS Q)).bind fun d => .ok d.timeseries) = .ok (q [12, 13]) := by
  decide +kernel

end Sacf
