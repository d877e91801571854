import Verif.Model.DataStructure

/-!
# The file constructor, `DataStructure.cpp:90-138`

Character-level model: line splitting (`std::getline`), comma replacement, and
`std::stringstream >> double` as implemented by libstdc++ in the "C" locale
(`bits/locale_facets.tcc`, `num_get::_M_extract_float` followed by `strtod` on the collected
characters).
-/

set_option linter.unusedVariables false

namespace Sacf

open Arith

variable {F : Type} [Arith F]

/-- `isspace` in the "C" locale (skipped by formatted extraction). -/
def isSpaceC (c : Char) : Bool :=
  c == ' ' || c == '\t' || c == '\n' || c == '\x0b' || c == '\x0c' || c == '\r'

/-- Optional sign; `true` for minus. -/
def readSign : List Char → Bool × List Char
  | '-' :: r => (true, r)
  | '+' :: r => (false, r)
  | s => (false, s)

/-- Maximal prefix of digits, and the rest. -/
def readDigits (s : List Char) : List Char × List Char := s.span Char.isDigit

/-- Optional decimal point followed by digits. -/
def readFrac : List Char → List Char × List Char
  | '.' :: r => readDigits r
  | s => ([], s)

/-- Value of a digit string. -/
def digitsVal (l : List Char) : Nat := l.foldl (fun n c => 10 * n + (c.toNat - '0'.toNat)) 0

/-- `linestream >> x` for `double x`: skip white space, then sign, digits, point, digits, and, if a digit
was found, an exponent.  `none` = the stream fails (no digit in the mantissa, an exponent letter without
exponent digits, end of input, or overflow). -/
def readDouble (s : List Char) : Option (F × List Char) :=
  let s := s.dropWhile isSpaceC
  let (neg, s) := readSign s
  let (d1, s) := readDigits s
  let (d2, s) := readFrac s
  if d1.isEmpty && d2.isEmpty then none
  else
    let m := digitsVal (d1 ++ d2)
    let plain := (ofDec neg m (-(d2.length : Int))).map (fun x => (x, s))
    let sci (r : List Char) :=
      let (eneg, r) := readSign r
      let (d3, r) := readDigits r
      if d3.isEmpty then none
      else
        let e : Int := if eneg then -(digitsVal d3 : Int) else digitsVal d3
        (ofDec neg m (e - d2.length)).map (fun x => (x, r))
    match s with
    | 'e' :: r => sci r
    | 'E' :: r => sci r
    | _ => plain

/-! `readDouble` consumes at least one character. -/

theorem dropWhile_length_le (p : Char → Bool) (s : List Char) : (s.dropWhile p).length ≤ s.length := by
  induction s with
  | nil => simp
  | cons a s ih => simp only [List.dropWhile_cons]; split <;> (simp; try omega)

theorem readSign_length (s : List Char) : (readSign s).2.length ≤ s.length := by
  unfold readSign; split <;> simp

theorem readDigits_length (s : List Char) :
    (readDigits s).1.length + (readDigits s).2.length = s.length := by
  unfold readDigits
  rw [List.span_eq_takeWhile_dropWhile]
  rw [← List.length_append, List.takeWhile_append_dropWhile]

theorem readFrac_length (s : List Char) :
    (readFrac s).1.length + (readFrac s).2.length ≤ s.length := by
  unfold readFrac
  split
  · have := readDigits_length ‹_›; simp; omega
  · simp

theorem readDouble_length {s r : List Char} {x : F} (h : readDouble s = some (x, r)) :
    r.length < s.length := by
  unfold readDouble at h
  simp only at h
  have h0 := dropWhile_length_le isSpaceC s
  generalize s.dropWhile isSpaceC = s0 at *
  have h1 := readSign_length s0
  generalize readSign s0 = p1 at *
  obtain ⟨ng, s1⟩ := p1
  have h2 := readDigits_length s1
  generalize readDigits s1 = p2 at *
  obtain ⟨d1, s2⟩ := p2
  have h3 := readFrac_length s2
  generalize readFrac s2 = p3 at *
  obtain ⟨d2, s3⟩ := p3
  simp only at *
  split at h
  · simp at h
  · rename_i hne
    have hpos : 0 < d1.length + d2.length := by
      rcases d1 with _ | ⟨a, d1⟩
      · rcases d2 with _ | ⟨b, d2⟩
        · simp at hne
        · simp
      · simp
    have key : ∀ r' : List Char, (let p := readSign r'; let q := readDigits p.2; q.2.length ≤ r'.length) := by
      intro r'
      have a1 := readSign_length r'
      have a2 := readDigits_length (readSign r').2
      simp only; omega
    split at h
    · rename_i r'
      have := key r'
      simp only at this
      split at h
      · simp at h
      · simp only [Option.map_eq_some_iff, Prod.mk.injEq] at h
        obtain ⟨_, _, _, h⟩ := h
        subst h
        simp at h3; omega
    · rename_i r'
      have := key r'
      simp only at this
      split at h
      · simp at h
      · simp only [Option.map_eq_some_iff, Prod.mk.injEq] at h
        obtain ⟨_, _, _, h⟩ := h
        subst h
        simp at h3; omega
    · simp only [Option.map_eq_some_iff, Prod.mk.injEq] at h
      obtain ⟨_, _, _, h⟩ := h
      subst h
      omega

/-- Local variables of the file constructor, `DataStructure.cpp:94-103`. -/
structure RState (F : Type) where
  t : List F
  data : List F
  err : List F
  hasErrors : Bool
  updateHasErrors : Bool
deriving DecidableEq

/-- Initial values, `DataStructure.cpp:94-103`. -/
def RState.init : RState F := ⟨[], [], [], true, true⟩

/-- Inner loop `while(linestream >> X_err_val && has_errors)`, `DataStructure.cpp:119-122`.
Returns the state and the rest of the stream, `none` if the stream has failed. -/
def innerLoop (st : RState F) (s : List Char) : RState F × Option (List Char) :=
  match h : (readDouble s : Option (F × List Char)) with
  | none => (st, none)
  | some (x, r) =>
    if st.hasErrors then
      innerLoop { st with err := st.err ++ [x], updateHasErrors := false } r
    else (st, some r)
termination_by s.length
decreasing_by exact readDouble_length h

theorem innerLoop_length (st : RState F) (s r : List Char) (h : (innerLoop st s).2 = some r) :
    r.length < s.length := by
  induction hn : s.length using Nat.strong_induction_on generalizing st s with
  | _ n ih =>
    unfold innerLoop at h
    split at h
    · simp at h
    · rename_i x r' hr
      have hl := readDouble_length hr
      split at h
      · have := ih r'.length (by omega) _ _ h rfl
        omega
      · simp only [Option.some.injEq] at h
        subst h; omega

/-- Outer loop `while(linestream >> t_val >> X_val)`, `DataStructure.cpp:116-126`. -/
def outerLoop (st : RState F) (s : List Char) : RState F :=
  match h1 : (readDouble s : Option (F × List Char)) with
  | none => st
  | some (tv, s1) =>
    match h2 : (readDouble s1 : Option (F × List Char)) with
    | none => st
    | some (xv, s2) =>
      let st := { st with t := st.t ++ [tv], data := st.data ++ [xv] }
      let p := innerLoop st s2
      let st := if p.1.updateHasErrors then { p.1 with hasErrors := false } else p.1
      match h3 : p.2 with
      | none => st
      | some r => outerLoop st r
termination_by s.length
decreasing_by
  have a := readDouble_length h1
  have b := readDouble_length h2
  have c := innerLoop_length _ _ _ h3
  omega

/-- Commas become blanks, `DataStructure.cpp:111-113`. -/
def replaceCommas (line : List Char) : List Char := line.map fun c => if c == ',' then ' ' else c

/-- One pass of the `while (std::getline(...))` body, `DataStructure.cpp:106-127`. -/
def readLine (st : RState F) (line : List Char) : RState F :=
  if line.head? = some '#' then st else outerLoop st (replaceCommas line)

/-- The lines that repeated `std::getline(file, line, '\n')` delivers; a final newline does not start
another line. -/
def splitLines : List Char → List (List Char)
  | [] => []
  | s@(_ :: _) => go [] s
where
  go (cur : List Char) : List Char → List (List Char)
    | [] => [cur.reverse]
    | c :: rest =>
      if c == '\n' then cur.reverse :: (match rest with | [] => [] | _ :: _ => go [] rest)
      else go (c :: cur) rest

/-- Lines `DataStructure.cpp:130-137`. -/
def finishFile (st : RState F) : Res (DS F) :=
  setUp st.t st.data (if st.hasErrors then st.err else []) 1 st.t.length

/-- `DataStructure(filename)`, `DataStructure.cpp:90-138`; `none` = the file cannot be opened. -/
def mkFile (contents : Option (List Char)) : Res (DS F) :=
  match contents with
  | none => .exn .badDataFileRead
  | some s => finishFile ((splitLines s).foldl readLine RState.init)

end Sacf
