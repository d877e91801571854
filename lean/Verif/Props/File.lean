import Verif.Lemmas.File
import Verif.Spec.Rational

/-!
# Reading a data file (C10 – C14)

Stated with the grammar of `Spec/File.lean`, in any arithmetic.
-/

set_option linter.unusedSectionVars false

namespace Sacf

open Arith

variable {F : Type} [Arith F]

/-- lines that are not comments -/
def dataLines (ls : List (List Char)) : List (List Char) := ls.filter fun l => !decide (IsComment l)

/-! ## the meaning of a file -/

/-- **C14** (complete description): what is built from a file depends on the numbers at the start of each line that is
not a comment, and is `fileMeaning` of them. -/
theorem C14_meaning (s : List Char) (ls : List (List Char)) (hs : IsLines s ls) (L : List (List F))
    (hL : List.Forall₂ Tokens (dataLines ls) L) : mkFile (some s) = fileMeaning L := by
  rw [mkFile_eq, splitLines_of_isLines hs]
  congr 1
  unfold dataLines at hL
  generalize (ls.filter fun l => !decide (IsComment l)) = D at hL
  induction hL with
  | nil => rfl
  | cons h _ ih => rw [List.map_cons, ih, ← tokens_unique h]

/-- every text has lines and every line has numbers, so `C14_meaning` covers every file -/
theorem C14_every_file (s : List Char) :
    ∃ ls, IsLines s ls ∧ ∃ L : List (List F), List.Forall₂ Tokens (dataLines ls) L := by
  refine ⟨splitLines s, isLines_splitLines s, (dataLines (splitLines s)).map fun l => toks (replaceCommas l), ?_⟩
  generalize dataLines (splitLines s) = D
  induction D with
  | nil => exact .nil
  | cons l D ih => exact .cons (tokens_total l) ih

/-! ## C10 -/

theorem fields_not_comment {l : List Char} {v : List F} (h : Fields l v) : ¬ IsComment l := by
  unfold IsComment
  intro hc
  have key : ∀ c, (isSep c = true ∨ startChar c = true) → c ≠ '#' := by
    rintro c h rfl
    rcases h with h | h <;> exact absurd h (by decide)
  cases h with
  | nil hb =>
    exact key '#' (Or.inl (hb _ (List.mem_of_mem_head? (by rw [hc]; rfl)))) rfl
  | cons hb hn _ _ _ =>
    rename_i b rest n _ _ _ _ _
    cases b with
    | nil =>
      obtain ⟨c, h1, h2⟩ := chars_head hn rest
      rw [List.nil_append, h1] at hc
      simp only [Option.some.injEq] at hc
      exact key c (Or.inr h2) hc
    | cons a b =>
      simp only [List.cons_append, List.head?_cons, Option.some.injEq] at hc
      exact key a (Or.inl (hb a (by simp))) hc

theorem dataLines_fields {ls : List (List Char)} {L : List (List F)} (h : List.Forall₂ Fields ls L) :
    dataLines ls = ls ∧ List.Forall₂ Tokens ls L := by
  induction h with
  | nil => exact ⟨rfl, .nil⟩
  | cons h1 _ ih =>
    refine ⟨?_, .cons (tokens_of_fields h1) ih.2⟩
    unfold dataLines at *
    rw [List.filter_cons_of_pos (by simpa using fields_not_comment h1), ih.1]

/-- **C10**: a file of lines `time value`, in any decimal or scientific notation and with any separators, gives the object
built in memory from the same numbers. -/
theorem C10_round_trip (s : List Char) (ls : List (List Char)) (hs : IsLines s ls) (pts : List (F × F))
    (h : List.Forall₂ (fun l p => Fields l [p.1, p.2]) ls pts) :
    mkFile (some s) = mkFlat (pts.map Prod.fst) (pts.map Prod.snd) := by
  have h' : List.Forall₂ Fields ls (pts.map fun p => [p.1, p.2]) := by
    clear hs
    induction h with
    | nil => exact .nil
    | cons a _ ih => exact .cons a ih
  obtain ⟨h1, h2⟩ := dataLines_fields h'
  rw [C14_meaning s ls hs _ (by rw [h1]; exact h2)]
  unfold fileMeaning
  rw [List.filter_eq_self.2 (by
    intro l hl
    obtain ⟨p, _, rfl⟩ := List.mem_map.1 hl
    simp)]
  cases pts with
  | nil => simp only [List.map_nil]; exact (setUp_empty (Or.inl rfl)).symm
  | cons p pts =>
    simp only [List.map_cons]
    rw [if_neg (by simp)]
    have : ((pts.map fun p => [p.1, p.2]).map everyThird).flatten = pts := by
      rw [List.map_map]
      clear h h' h2
      induction pts with
      | nil => rfl
      | cons a l ih => simp_all [everyThird]
    rw [List.flatten_cons, this]
    simp [everyThird]

/-- **C10**: a file of lines `time value error`. -/
theorem C10_round_trip_errors (s : List Char) (ls : List (List Char)) (hs : IsLines s ls) (pts : List (F × F × F))
    (h : List.Forall₂ (fun l p => Fields l [p.1, p.2.1, p.2.2]) ls pts) :
    mkFile (some s) = mkFlatErr (pts.map fun p => p.1) (pts.map fun p => p.2.1) (pts.map fun p => p.2.2) := by
  have h' : List.Forall₂ Fields ls (pts.map fun p => [p.1, p.2.1, p.2.2]) := by
    clear hs
    induction h with
    | nil => exact .nil
    | cons a _ ih => exact .cons a ih
  obtain ⟨h1, h2⟩ := dataLines_fields h'
  rw [C14_meaning s ls hs _ (by rw [h1]; exact h2)]
  unfold fileMeaning
  rw [List.filter_eq_self.2 (by
    intro l hl
    obtain ⟨p, _, rfl⟩ := List.mem_map.1 hl
    simp)]
  cases pts with
  | nil => simp only [List.map_nil]; exact (setUp_empty (Or.inl rfl)).symm
  | cons p pts =>
    simp only [List.map_cons]
    rw [if_pos (by simp)]
    congr 1
    · simp
    · simp
    · simp only [List.drop_succ_cons, List.drop_zero, List.flatten_cons, List.map_map]
      have : (pts.map ((fun l => List.drop 2 l) ∘ fun p => [p.1, p.2.1, p.2.2])).flatten = pts.map fun p => p.2.2 := by
        clear h h' h2
        induction pts with
        | nil => rfl
        | cons a l ih => simp_all
      rw [this]; rfl

/-! ### every table of decimal numbers can be written -/

/-- a decimal number `± m · 10^e` -/
structure Decimal where
  minus : Bool
  m : Nat
  e : Int

/-- written as `-123e-4` -/
def Decimal.numeral (d : Decimal) : Numeral :=
  { sign := if d.minus then .minus else .none
    ints := Nat.toDigits 10 d.m
    expo := some ('e', if d.e < 0 then .minus else .none, Nat.toDigits 10 d.e.natAbs) }

theorem natOf_append (l : List Char) (c : Char) : Numeral.natOf (l ++ [c]) = 10 * Numeral.natOf l + (c.toNat - '0'.toNat) := by
  unfold Numeral.natOf
  rw [List.map_append, List.reverse_append, List.map_singleton, List.reverse_singleton, List.singleton_append,
    Nat.ofDigits_cons]
  simp; ring

theorem digitChar_val {n : Nat} (h : n < 10) : n.digitChar.toNat - '0'.toNat = n := by
  revert n
  decide

theorem natOf_toDigits (n : Nat) : Numeral.natOf (Nat.toDigits 10 n) = n := by
  induction n using Nat.strong_induction_on with
  | _ n ih =>
    by_cases h : n < 10
    · rw [Nat.toDigits_of_lt_base h]
      have := natOf_append [] n.digitChar
      rw [List.nil_append] at this
      rw [this, digitChar_val h]
      simp [Numeral.natOf]
    · rw [Nat.toDigits_of_base_le (by norm_num) (by omega), natOf_append, ih _ (by omega),
        digitChar_val (Nat.mod_lt _ (by norm_num))]
      omega

theorem toDigits_ne_nil (n : Nat) : Nat.toDigits 10 n ≠ [] := by
  by_cases h : n < 10
  · rw [Nat.toDigits_of_lt_base h]; simp
  · rw [Nat.toDigits_of_base_le (by norm_num) (by omega)]; simp

theorem Decimal.valid (d : Decimal) : d.numeral.Valid where
  ints := fun c hc => Nat.isDigit_of_mem_toDigits (by norm_num) (by norm_num) hc
  frac := by simp [Decimal.numeral, Numeral.fracDigits, Numeral.AllDigits]
  some_digit := Or.inl (toDigits_ne_nil _)
  expo := by
    intro c s l h
    simp only [Decimal.numeral, Option.some.injEq, Prod.mk.injEq] at h
    obtain ⟨rfl, _, rfl⟩ := h
    exact ⟨Or.inl rfl, toDigits_ne_nil _, fun c hc => Nat.isDigit_of_mem_toDigits (by norm_num) (by norm_num) hc⟩

theorem Decimal.value (d : Decimal) : (d.numeral.value : Option F) = ofDec d.minus d.m d.e := by
  unfold Numeral.value Numeral.mant Numeral.exp10 Numeral.fracDigits Decimal.numeral
  simp only [List.append_nil, natOf_toDigits, List.length_nil, Option.getD_none]
  congr 1
  · cases d.minus <;> rfl
  · by_cases h : d.e < 0
    · simp only [h, if_true, Sign.isMinus]; omega
    · simp only [h, if_false, Sign.isMinus]; simp; omega

/-- a line: numerals separated by a comma -/
def writeLine : List Decimal → List Char
  | [] => []
  | [d] => d.numeral.chars
  | d :: ds => d.numeral.chars ++ ',' :: writeLine ds

theorem fields_writeLine (ds : List Decimal) (xs : List F)
    (h : List.Forall₂ (fun d x => ofDec d.minus d.m d.e = some x) ds xs) :
    Fields (writeLine ds) xs ∧ Fields (',' :: writeLine ds) xs := by
  induction h with
  | nil => exact ⟨.nil (by simp [writeLine]), .nil (by simp [writeLine]; decide)⟩
  | cons h1 h2 ih =>
    rename_i d x ds xs
    have hv : (d.numeral.value : Option F) = some x := by rw [Decimal.value, h1]
    have key : ∃ rest, writeLine (d :: ds) = d.numeral.chars ++ rest ∧ (∀ c, rest.head? = some c → isSep c = true) ∧
        Fields rest xs := by
      cases h2 with
      | nil => exact ⟨[], by simp [writeLine], by simp, .nil (by simp)⟩
      | cons h3 h4 =>
        refine ⟨_, rfl, ?_, ih.2⟩
        intro c hc
        simp only [List.head?_cons, Option.some.injEq] at hc
        subst hc; decide
    obtain ⟨rest, e, hr, hf⟩ := key
    rw [e]
    exact ⟨Fields.cons (b := []) (by simp) d.valid hv hr hf,
      Fields.cons (b := [',']) (by simp; decide) d.valid hv hr hf⟩

theorem writeLine_no_newline (ds : List Decimal) : '\n' ∉ writeLine ds := by
  induction ds with
  | nil => simp [writeLine]
  | cons d ds ih =>
    have hd : '\n' ∉ d.numeral.chars := fun h => (chars_mem d.valid h).2.2 rfl
    cases ds with
    | nil => simpa [writeLine] using hd
    | cons d' ds =>
      simp only [writeLine, List.mem_append, List.mem_cons, not_or]
      exact ⟨hd, by decide, ih⟩

/-- a file -/
def writeFile (rows : List (List Decimal)) : List Char := (rows.map fun r => writeLine r ++ ['\n']).flatten

/-- **C10**: every table of decimal numbers can be written to a file that reads back as the same numbers. -/
theorem C10_every_table (rows : List (Decimal × Decimal)) (pts : List (F × F))
    (h : List.Forall₂ (fun r p => ofDec r.1.minus r.1.m r.1.e = some p.1 ∧ ofDec r.2.minus r.2.m r.2.e = some p.2)
      rows pts) :
    mkFile (some (writeFile (rows.map fun r => [r.1, r.2]))) = mkFlat (pts.map Prod.fst) (pts.map Prod.snd) := by
  refine C10_round_trip _ (rows.map fun r => writeLine [r.1, r.2]) ⟨?_, Or.inl ?_⟩ pts ?_
  · intro l hl
    obtain ⟨r, _, rfl⟩ := List.mem_map.1 hl
    exact writeLine_no_newline _
  · unfold writeFile
    rw [List.map_map, List.map_map]; rfl
  · induction h with
    | nil => exact .nil
    | cons h1 _ ih =>
      exact .cons (fields_writeLine _ _ (.cons h1.1 (.cons h1.2 .nil))).1 ih

example : String.ofList (writeFile [[⟨true, 125, -2⟩, ⟨false, 7, 3⟩]]) = "-125e-2,7e3\n" := by decide +kernel
example : (mkFile (some "-125e-2,7e3\n+.5e0\t3.\n".toList) : Res (DS Q)) = mkFlat (q [-5/4, 1/2]) (q [7000, 3]) := by
  decide +kernel
example : (mkFile (some "# t,x,e\n0 1.5 .1\n1,2.5,.2".toList) : Res (DS Q))
    = mkFlatErr (q [0, 1]) (q [3/2, 5/2]) (q [1/10, 1/5]) := by decide +kernel

/-! ## C11 -/

/-- a line that is a comment or does not start with two numbers -/
def Neutral (F : Type) [Arith F] (l : List Char) : Prop :=
  IsComment l ∨ ¬ ∃ (x : F) (r : List Char) (y : F) (r' : List Char), Token l x r ∧ Token r y r'

/-- the data lines that matter for `fileMeaning` -/
def contrib (ls : List (List Char)) : List (List F) :=
  ((dataLines ls).map fun l => toks (replaceCommas l)).filter (2 ≤ ·.length)

theorem fileMeaning_filter (L : List (List F)) : fileMeaning L = fileMeaning (L.filter (2 ≤ ·.length)) := by
  unfold fileMeaning
  rw [List.filter_filter]
  simp

theorem mkFile_contrib (s : List Char) : mkFile (F := F) (some s) = fileMeaning (contrib (splitLines s)) := by
  rw [mkFile_eq, fileMeaning_filter]; rfl

theorem contrib_append (a b : List (List Char)) : contrib (F := F) (a ++ b) = contrib a ++ contrib b := by
  unfold contrib dataLines
  rw [List.filter_append, List.map_append, List.filter_append]

theorem short_iff (l : List Char) : (toks (F := F) (replaceCommas l)).length < 2 ↔
    ¬ ∃ (x : F) (r : List Char) (y : F) (r' : List Char), Token l x r ∧ Token r y r' := by
  constructor
  · rintro h ⟨x, r, y, r', h1, h2⟩
    rw [toks_some (readDouble_of_token h1), toks_some (readDouble_of_token h2)] at h
    simp at h; omega
  · intro h
    have := tokens_total (F := F) l
    generalize toks (F := F) (replaceCommas l) = v at this ⊢
    cases this with
    | stop _ => simp
    | cons h1 h2 =>
      cases h2 with
      | stop _ => simp
      | cons h3 h4 => exact absurd ⟨_, _, _, _, h1, h3⟩ h

theorem contrib_neutral {l : List Char} (h : Neutral F l) : contrib (F := F) [l] = [] := by
  unfold contrib dataLines
  rcases h with h | h
  · rw [List.filter_cons_of_neg (by simpa using h)]; rfl
  · by_cases hc : IsComment l
    · rw [List.filter_cons_of_neg (by simpa using hc)]; rfl
    · rw [List.filter_cons_of_pos (by simpa using hc)]
      rw [← short_iff] at h
      rw [List.filter_nil, List.map_singleton, List.filter_cons_of_neg (by simpa using h)]; rfl

theorem empty_neutral : Neutral F [] := by
  right
  rintro ⟨x, r, _, _, ⟨b, n, _, hn, he, _⟩, _⟩
  obtain ⟨c, hc, _⟩ := chars_head hn r
  rw [List.nil_eq, List.append_eq_nil_iff] at he
  rw [he.2] at hc; simp at hc

/-- a newline splits the contribution of a text -/
theorem contrib_newline (s t : List Char) :
    contrib (F := F) (splitLines (s ++ '\n' :: t)) = contrib (splitLines s) ++ contrib (splitLines t) := by
  obtain ⟨h1, h2⟩ := isLines_splitLines s
  have pre : ∀ (ini : List (List Char)) (rest : List Char), (∀ l ∈ ini, '\n' ∉ l) →
      splitLines ((ini.map (· ++ ['\n'])).flatten ++ rest) = ini ++ splitLines rest := by
    intro ini rest hi
    induction ini with
    | nil => rfl
    | cons l ini ih =>
      have : ((l :: ini).map (· ++ ['\n'])).flatten ++ rest = l ++ '\n' :: ((ini.map (· ++ ['\n'])).flatten ++ rest) := by
        simp
      rw [this, splitLines_cons (hi l (by simp)), ih fun x hx => hi x (by simp [hx])]
      rfl
  rcases h2 with h2 | ⟨ini, last, e, h2, h3⟩
  · conv_lhs => rw [h2]
    have := splitLines_cons (l := []) (rest := t) (by simp)
    rw [List.nil_append] at this
    rw [pre _ _ h1, this, contrib_append]
    congr 1
    have e : ([] : List Char) :: splitLines t = [[]] ++ splitLines t := rfl
    rw [e, contrib_append, contrib_neutral empty_neutral]; rfl
  · rw [e] at h1 ⊢
    conv_lhs => rw [h3]
    rw [List.append_assoc, pre _ _ (fun l hl => h1 l (by simp [hl])), splitLines_cons (h1 last (by simp))]
    have e2 : ini ++ last :: splitLines t = (ini ++ [last]) ++ splitLines t := by simp
    rw [e2, contrib_append]

theorem contrib_line {l : List Char} (hl : '\n' ∉ l) (h : Neutral F l) : contrib (F := F) (splitLines l) = [] := by
  by_cases hne : l = []
  · subst hne; rfl
  · rw [splitLines_last hl hne, contrib_neutral h]

/-- **C11**: a neutral line (comment, blank, header, or with a single number) has no effect, wherever it is inserted: as
the first line, between two lines, or as the last line. -/
theorem C11_neutral_line (line : List Char) (hl : '\n' ∉ line) (hn : Neutral F line) (pre post : List Char) :
    mkFile (F := F) (some (line ++ '\n' :: post)) = mkFile (some post) ∧
    mkFile (F := F) (some (pre ++ '\n' :: (line ++ '\n' :: post))) = mkFile (some (pre ++ '\n' :: post)) ∧
    mkFile (F := F) (some (pre ++ '\n' :: line)) = mkFile (some pre) := by
  simp only [mkFile_contrib, contrib_newline, contrib_line hl hn, List.nil_append, List.append_nil, and_self]

/-- **C11**: which lines are neutral: comments, blank lines, and lines whose first field does not start like a number. -/
theorem C11_neutral_kinds (line : List Char)
    (h : IsComment line ∨ ∃ b rest, line = b ++ rest ∧ (∀ c ∈ b, isSep c = true) ∧
      ∀ c, rest.head? = some c → isSep c = false ∧ c.isDigit = false ∧ c ≠ '+' ∧ c ≠ '-' ∧ c ≠ '.') :
    Neutral F line := by
  rcases h with h | ⟨b, rest, rfl, hb, hr⟩
  · exact Or.inl h
  · right
    rintro ⟨x, r, _, _, ⟨b', n, hb', hn, he, _⟩, _⟩
    obtain ⟨c, hc, hs⟩ := chars_head hn r
    have hsep : isSep c = false := by
      unfold isSep
      rw [startChar_not_space hs]
      simp
      rintro rfl
      exact absurd hs (by decide)
    have key : ∀ b b' : List Char, (∀ c ∈ b, isSep c = true) → (∀ c ∈ b', isSep c = true) →
        b ++ rest = b' ++ (n.chars ++ r) → rest.head? = some c := by
      intro b
      induction b with
      | nil =>
        intro b' _ hb' he
        cases b' with
        | nil => rw [List.nil_append, List.nil_append] at he; rw [he, hc]
        | cons a b' =>
          rw [List.nil_append] at he
          have := (hr a (by rw [he]; rfl)).1
          rw [hb' a (by simp)] at this
          simp at this
      | cons a b ih =>
        intro b' hb hb' he
        cases b' with
        | nil =>
          rw [List.nil_append] at he
          rw [← he] at hc
          simp only [List.cons_append, List.head?_cons, Option.some.injEq] at hc
          subst hc
          rw [hb a (by simp)] at hsep
          simp at hsep
        | cons a' b' =>
          simp only [List.cons_append, List.cons.injEq] at he
          exact ih b' (fun c hc => hb c (by simp [hc])) (fun c hc => hb' c (by simp [hc])) he.2
    have := hr c (key b b' hb hb' he)
    unfold startChar at hs
    simp [this] at hs

example : Neutral Q "  time, flux".toList :=
  C11_neutral_kinds _ (Or.inr ⟨[' ', ' '], "time, flux".toList, rfl, by decide, by
    intro c hc
    have : c = 't' := by simpa using hc.symm
    subst this; decide⟩)

/-! ## C12 -/

/-- the same text up to the choice of separator characters (the newline is not one of them) -/
def SameUpToSeparators (s s' : List Char) : Prop :=
  List.Forall₂ (fun c c' => c = c' ∨ (isSep c = true ∧ isSep c' = true ∧ c ≠ '\n' ∧ c' ≠ '\n')) s s'

theorem same_append {s₁ s₂ s' : List Char} (h : SameUpToSeparators (s₁ ++ s₂) s') :
    ∃ t₁ t₂, s' = t₁ ++ t₂ ∧ SameUpToSeparators s₁ t₁ ∧ SameUpToSeparators s₂ t₂ := by
  induction s₁ generalizing s' with
  | nil => exact ⟨[], s', rfl, .nil, h⟩
  | cons c s₁ ih =>
    cases h with
    | cons h1 h2 =>
      obtain ⟨t₁, t₂, rfl, h3, h4⟩ := ih h2
      exact ⟨_ :: t₁, t₂, rfl, .cons h1 h3, h4⟩

theorem sep_of_same {b b' : List Char} (h : SameUpToSeparators b b') (hb : ∀ c ∈ b, isSep c = true) :
    ∀ c ∈ b', isSep c = true := by
  induction h with
  | nil => simp
  | cons h1 _ ih =>
    intro c hc
    rcases List.mem_cons.1 hc with rfl | hc
    · rcases h1 with rfl | h1
      · exact hb _ (by simp)
      · exact h1.2.1
    · exact ih (fun c hc => hb c (by simp [hc])) c hc

theorem same_symm {s s' : List Char} (h : SameUpToSeparators s s') : SameUpToSeparators s' s := by
  induction h with
  | nil => exact .nil
  | cons h1 _ ih =>
    refine .cons ?_ ih
    rcases h1 with rfl | ⟨a, b, c, d⟩
    · exact Or.inl rfl
    · exact Or.inr ⟨b, a, d, c⟩

theorem numeral_chars_not_sep {n : Numeral} (hn : n.Valid) {c : Char} (hc : c ∈ n.chars) : isSep c = false := by
  have hd : ∀ l : List Char, Numeral.AllDigits l → c ∈ l → isSep c = false := by
    intro l hl hc
    unfold isSep
    rw [digit_not_space (hl c hc)]
    simp
    exact digit_ne (hl c hc) (by decide)
  have hs : ∀ s : Sign, c ∈ s.chars → isSep c = false := by
    intro s hs
    cases s <;> simp [Sign.chars] at hs <;> subst hs <;> decide
  unfold Numeral.chars at hc
  rw [List.mem_append, List.mem_append, List.mem_append] at hc
  rcases hc with hc | hc | hc | hc
  · exact hs _ hc
  · exact hd _ hn.ints hc
  · have := hn.frac
    unfold Numeral.pointChars at hc
    unfold Numeral.fracDigits at this
    cases hf : n.frac with
    | none => rw [hf] at hc; simp at hc
    | some f =>
      rw [hf] at hc this
      rcases List.mem_cons.1 hc with rfl | hc
      · decide
      · exact hd _ this hc
  · unfold Numeral.expoChars at hc
    cases hf : n.expo with
    | none => rw [hf] at hc; simp at hc
    | some p =>
      obtain ⟨e, s, d⟩ := p
      rw [hf] at hc
      obtain ⟨h1, _, h3⟩ := hn.expo _ _ _ hf
      rcases List.mem_cons.1 hc with rfl | hc
      · rcases h1 with rfl | rfl <;> decide
      · rcases List.mem_append.1 hc with hc | hc
        · exact hs _ hc
        · exact hd _ h3 hc

theorem same_of_not_sep {s s' : List Char} (h : SameUpToSeparators s s') (hs : ∀ c ∈ s, isSep c = false) : s' = s := by
  induction h with
  | nil => rfl
  | cons h1 _ ih =>
    rw [ih fun c hc => hs c (by simp [hc])]
    rcases h1 with rfl | h1
    · rfl
    · have := hs _ (List.mem_cons_self ..)
      rw [h1.1] at this; simp at this

theorem token_same {s s' : List Char} (h : SameUpToSeparators s s') {x : F} {r : List Char} (ht : Token s x r) :
    ∃ r', Token s' x r' ∧ SameUpToSeparators r r' := by
  obtain ⟨b, n, hb, hn, rfl, he, hv⟩ := ht
  obtain ⟨b', t, rfl, h1, h2⟩ := same_append h
  obtain ⟨c', r', rfl, h3, h4⟩ := same_append h2
  rw [same_of_not_sep h3 fun c hc => numeral_chars_not_sep hn hc]
  refine ⟨r', ⟨b', n, sep_of_same h1 hb, hn, rfl, ?_, hv⟩, h4⟩
  cases h4 with
  | nil => exact he
  | cons h5 _ =>
    intro c hc
    simp only [List.head?_cons, Option.some.injEq] at hc
    subst hc
    rcases h5 with rfl | h5
    · exact he _ rfl
    · have hsep := h5.2.1
      rename_i c' _ _ _
      unfold isSep isSpaceC at hsep
      simp only [Bool.or_eq_true, beq_iff_eq] at hsep
      rcases hsep with (((((h | h) | h) | h) | h) | h) | h <;> rw [h] <;>
        exact ⟨by decide, fun _ => ⟨by decide, by decide, fun _ => by decide⟩⟩

theorem tokens_same {s s' : List Char} (h : SameUpToSeparators s s') {l : List F} (ht : Tokens s l) : Tokens s' l := by
  induction ht generalizing s' with
  | stop hn =>
    refine .stop fun x r hr => ?_
    obtain ⟨r', h1, _⟩ := token_same (same_symm h) hr
    exact hn _ _ h1
  | cons h1 _ ih =>
    obtain ⟨r', h2, h3⟩ := token_same h h1
    exact .cons h2 (ih h3)

theorem comment_same {s s' : List Char} (h : SameUpToSeparators s s') : IsComment s ↔ IsComment s' := by
  unfold IsComment
  cases h with
  | nil => rfl
  | cons h1 _ =>
    simp only [List.head?_cons, Option.some.injEq]
    rcases h1 with rfl | h1
    · rfl
    · constructor
      · rintro rfl; exact absurd h1.1 (by decide)
      · rintro rfl; exact absurd h1.2.1 (by decide)

theorem newline_same {s s' : List Char} (h : SameUpToSeparators s s') : '\n' ∉ s → '\n' ∉ s' := by
  induction h with
  | nil => simp
  | cons h1 _ ih =>
    intro hs
    simp only [List.mem_cons, not_or] at hs ⊢
    refine ⟨?_, ih hs.2⟩
    rcases h1 with rfl | h1
    · exact hs.1
    · exact fun hc => h1.2.2.2 hc.symm

theorem lines_same {s s' : List Char} (h : SameUpToSeparators s s') {ls : List (List Char)} (hl : IsLines s ls) :
    ∃ ls', IsLines s' ls' ∧ List.Forall₂ SameUpToSeparators ls ls' := by
  have key : ∀ (ls : List (List Char)) (rest s' : List Char), (∀ l ∈ ls, '\n' ∉ l) →
      SameUpToSeparators ((ls.map (· ++ ['\n'])).flatten ++ rest) s' →
      ∃ ls' rest', s' = (ls'.map (· ++ ['\n'])).flatten ++ rest' ∧ (∀ l ∈ ls', '\n' ∉ l) ∧
        List.Forall₂ SameUpToSeparators ls ls' ∧ SameUpToSeparators rest rest' := by
    intro ls
    induction ls with
    | nil => intro rest s' _ h; exact ⟨[], s', rfl, by simp, .nil, h⟩
    | cons l ls ih =>
      intro rest s' hn h
      have e : ((l :: ls).map (· ++ ['\n'])).flatten ++ rest = l ++ (['\n'] ++ ((ls.map (· ++ ['\n'])).flatten ++ rest)) := by
        simp
      rw [e] at h
      obtain ⟨l', t, rfl, h1, h2⟩ := same_append h
      obtain ⟨nl, t, rfl, h3, h4⟩ := same_append h2
      have : nl = ['\n'] := by
        cases h3 with
        | cons h5 h6 =>
          cases h6
          rcases h5 with rfl | h5
          · rfl
          · exact absurd rfl h5.2.2.1
      subst this
      obtain ⟨ls', rest', rfl, h5, h6, h7⟩ := ih rest t (fun x hx => hn x (by simp [hx])) h4
      refine ⟨l' :: ls', rest', by simp, ?_, .cons h1 h6, h7⟩
      intro x hx
      rcases List.mem_cons.1 hx with rfl | hx
      · exact newline_same h1 (hn l (by simp))
      · exact h5 x hx
  obtain ⟨h1, rfl | ⟨ini, last, rfl, h2, rfl⟩⟩ := hl
  · obtain ⟨ls', rest', rfl, h5, h6, h7⟩ := key ls [] s' h1 (by simpa using h)
    cases h7
    exact ⟨ls', ⟨h5, Or.inl (by simp)⟩, h6⟩
  · obtain ⟨ls', rest', rfl, h5, h6, h7⟩ := key ini last s' (fun l hl => h1 l (by simp [hl])) h
    refine ⟨ls' ++ [rest'], ⟨?_, Or.inr ⟨ls', rest', rfl, ?_, rfl⟩⟩, List.rel_append h6 (.cons h7 .nil)⟩
    · intro l hl
      rcases List.mem_append.1 hl with hl | hl
      · exact h5 l hl
      · simp only [List.mem_singleton] at hl
        subst hl
        exact newline_same h7 (h1 last (by simp))
    · cases h7 with
      | nil => exact h2
      | cons _ _ => simp

/-- **C12**: replacing separators (comma, blank, tab, carriage return, vertical tab, form feed) by one another, anywhere
in a file, does not change the outcome. -/
theorem C12_separators (s s' : List Char) (h : SameUpToSeparators s s') : mkFile (F := F) (some s) = mkFile (some s') := by
  obtain ⟨ls, hl, L, hL⟩ := C14_every_file (F := F) s
  obtain ⟨ls', hl', hsame⟩ := lines_same h hl
  rw [C14_meaning s ls hl L hL]
  refine (C14_meaning s' ls' hl' L ?_).symm
  clear hl hl' h
  unfold dataLines at *
  induction hsame generalizing L with
  | nil => exact hL
  | cons h1 _ ih =>
    rename_i l l' _ _ _
    by_cases hc : IsComment l
    · rw [List.filter_cons_of_neg (by simpa using hc)] at hL
      rw [List.filter_cons_of_neg (by simpa using (comment_same h1).1 hc)]
      exact ih L hL
    · rw [List.filter_cons_of_pos (by simpa using hc)] at hL
      rw [List.filter_cons_of_pos (by simpa using fun h => hc ((comment_same h1).2 h))]
      cases hL with
      | cons h2 h3 => exact .cons (tokens_same h1 h2) (ih _ h3)

example : SameUpToSeparators "0,1\n2 3\r\n".toList "0\t1\n2,3 \n".toList := by
  unfold SameUpToSeparators
  decide

/-! ## C13 -/

/-- a line that gives a data point -/
def IsDataLine (F : Type) [Arith F] (l : List Char) : Prop :=
  ¬ IsComment l ∧ ∃ (x : F) (r : List Char) (y : F) (r' : List Char), Token l x r ∧ Token r y r'

theorem contrib_eq_nil {ls : List (List Char)} : contrib (F := F) ls = [] ↔ ∀ l ∈ ls, ¬ IsDataLine F l := by
  induction ls with
  | nil => simp [contrib, dataLines]
  | cons l ls ih =>
    have e : l :: ls = [l] ++ ls := rfl
    rw [e, contrib_append, List.append_eq_nil_iff, ih]
    simp only [List.singleton_append, List.forall_mem_cons]
    refine and_congr_left fun _ => ?_
    constructor
    · intro h hd
      unfold contrib dataLines at h
      rw [List.filter_cons_of_pos (by simpa using hd.1), List.filter_nil, List.map_singleton] at h
      have hlen : ¬ (toks (F := F) (replaceCommas l)).length < 2 := fun hc => (short_iff l).1 hc hd.2
      rw [List.filter_cons_of_pos (by simp; omega)] at h
      simp at h
    · intro h
      by_cases hc : IsComment l
      · exact contrib_neutral (Or.inl hc)
      · exact contrib_neutral (Or.inr fun h2 => h ⟨hc, h2⟩)

theorem everyThird_ne_nil {l : List F} (h : 2 ≤ l.length) : everyThird l ≠ [] := by
  match l, h with
  | [a, b], _ => simp [everyThird]
  | a :: b :: c :: r, _ => simp [everyThird]

/-- **C13**: which exception a file gives, for every file. -/
theorem C13_outcome (s : List Char) (ls : List (List Char)) (hs : IsLines s ls) :
    mkFile (F := F) none = .exn .badDataFileRead ∧
    (mkFile (F := F) (some s) = .exn .emptyDataStructure ↔ ∀ l ∈ ls, ¬ IsDataLine F l) ∧
    ((∃ l ∈ ls, IsDataLine F l) → ∃ d, mkFile (F := F) (some s) = .ok d) := by
  refine ⟨rfl, ?_⟩
  rw [mkFile_contrib, splitLines_of_isLines hs, ← contrib_eq_nil]
  have hall : ∀ l ∈ contrib (F := F) ls, 2 ≤ l.length := fun l hl => by simpa using (List.mem_filter.1 hl).2
  have hex : (∃ l ∈ ls, IsDataLine F l) ↔ contrib (F := F) ls ≠ [] := by
    rw [Ne, contrib_eq_nil]; push Not; rfl
  rw [hex]
  generalize contrib (F := F) ls = C at hall
  have key : C ≠ [] → ∃ d, fileMeaning C = .ok d := by
    intro hne
    unfold fileMeaning
    rw [List.filter_eq_self.2 (by intro l hl; simpa using hall l hl)]
    cases C with
    | nil => exact absurd rfl hne
    | cons first more =>
      simp only
      split
      · obtain ⟨d, h, _⟩ := setUp_ok (t := (first :: more).map fun l => l.getD 0 zero)
          (data := (first :: more).map fun l => l.getD 1 zero) (err := ((first :: more).map fun l => l.drop 2).flatten)
          (N := 1) (by simp) (by simp) (by simp) (by simp)
        exact ⟨d, h⟩
      · have hne' : ((first :: more).map everyThird).flatten ≠ [] := by
          have := everyThird_ne_nil (hall first (by simp))
          simp [this]
        generalize ((first :: more).map everyThird).flatten = P at hne'
        obtain ⟨d, h, _⟩ := setUp_ok (t := P.map Prod.fst) (data := P.map Prod.snd) (err := []) (N := 1)
          (by simpa using hne') (by simpa using hne') (by simp) (by simp)
        exact ⟨d, by simpa [mkFlat] using h⟩
  refine ⟨⟨fun h => ?_, fun h => ?_⟩, key⟩
  · by_contra hne
    obtain ⟨d, hd⟩ := key hne
    rw [hd] at h; simp at h
  · rw [h]; rfl

example : (mkFile (some "# only\nheader line\n7\n".toList) : Res (DS Q)) = .exn .emptyDataStructure := by decide +kernel

/-! ## C14 -/

/-- **C14 is false of the code**: a missing error makes `errors()` read out of bounds (as does the unreadable error
`NaN` in the repository's own test file), a missing and a surplus number shift the errors, and in a file without errors a
line with five numbers gives two data points. -/
theorem C14_false :
    ((mkFile (some "0,1,5\n1,2\n2,3,7\n".toList) : Res (DS Q)).bind fun d => d.err2d) = .ub ∧
    ((mkFile (some "0,1,5\n1,2,NaN\n2,3,7\n".toList) : Res (DS Q)).bind fun d => d.err2d) = .ub ∧
    ((mkFile (some "0,1,5\n1,2\n2,3,7,8\n".toList) : Res (DS Q)).bind fun d => d.err2d) = .ok [q [5, 7, 8]] ∧
    ((mkFile (some "0,0\n1,1,8,7,6\n".toList) : Res (DS Q)).bind fun d => .ok d.timeseries) = .ok (q [0, 1, 7]) := by
  decide +kernel

/-- **C14**, what holds: if every data line has exactly three numbers, `errors()` is the third column. -/
theorem C14_three_columns_partial (s : List Char) (ls : List (List Char)) (hs : IsLines s ls) (L : List (List F))
    (hL : List.Forall₂ Tokens (dataLines ls) L) (pts : List (F × F × F)) (hne : pts ≠ [])
    (h3 : L.filter (2 ≤ ·.length) = pts.map fun p => [p.1, p.2.1, p.2.2]) :
    ∃ d, mkFile (some s) = .ok d ∧ d.timeseries = pts.map (fun p => p.1) ∧ d.data2d = .ok [pts.map fun p => p.2.1] ∧
      d.err2d = .ok [pts.map fun p => p.2.2] := by
  rw [C14_meaning s ls hs L hL]
  unfold fileMeaning
  rw [h3]
  obtain ⟨d, h, hb⟩ := setUp_ok (t := pts.map fun p => p.1) (data := pts.map fun p => p.2.1)
    (err := pts.map fun p => p.2.2) (N := 1) (by simpa using hne) (by simpa using hne) (by simp) (by simp)
  refine ⟨d, ?_, hb.ht, ?_, ?_⟩
  · cases pts with
    | nil => exact absurd rfl hne
    | cons p pts =>
      simp only [List.map_cons]
      rw [if_pos (by simp), ← h]
      unfold mkFlatErr
      congr 1
      · simp
      · simp
      · simp only [List.drop_succ_cons, List.drop_zero, List.flatten_cons, List.map_map]
        have : (pts.map ((fun l => List.drop 2 l) ∘ fun p => [p.1, p.2.1, p.2.2])).flatten = pts.map fun p => p.2.2 := by
          clear hb h h3 hne
          induction pts with
          | nil => rfl
          | cons a l ih => simp_all
        rw [this]; rfl
      · simp
  · unfold DS.data2d
    rw [hb.hdata, hb.hN, hb.hM, unflatten_ok (by simp)]
    simp [rowOf]
  · unfold DS.err2d
    rw [hb.herr, if_neg (by simpa using hne), hb.hN, hb.hM, unflatten_ok (by simp)]
    simp [rowOf]

/-- **C14**, what holds: if the first data line has exactly two numbers, there are no errors. -/
theorem C14_no_errors_partial (s : List Char) (ls : List (List Char)) (hs : IsLines s ls) (L : List (List F))
    (hL : List.Forall₂ Tokens (dataLines ls) L) (x y : F) (more : List (List F))
    (h2 : L.filter (2 ≤ ·.length) = [x, y] :: more) :
    ∃ d : DS F, mkFile (some s) = .ok d ∧ d.err2d = .ok [] := by
  rw [C14_meaning s ls hs L hL]
  unfold fileMeaning
  rw [h2]
  simp only
  rw [if_neg (by simp)]
  have hne : (([x, y] :: more).map everyThird).flatten ≠ [] := by simp [everyThird]
  generalize (([x, y] :: more).map everyThird).flatten = P at hne
  obtain ⟨d, h, hb⟩ := setUp_ok (t := P.map Prod.fst) (data := P.map Prod.snd) (err := ([] : List F)) (N := 1)
    (by simpa using hne) (by simpa using hne) (by simp) (by simp)
  refine ⟨d, by simpa [mkFlat] using h, ?_⟩
  unfold DS.err2d
  rw [hb.herr]; rfl

/-- **C14**, exact condition: `errors()` of an object read from a file is undefined exactly when the first data line has
at least three numbers and all the lines together have fewer surplus numbers than there are data lines. -/
theorem C14_errors_ub_iff_partial (s : List Char) (ls : List (List Char)) (hs : IsLines s ls) (L : List (List F))
    (hL : List.Forall₂ Tokens (dataLines ls) L) (d : DS F) (hd : mkFile (some s) = .ok d) :
    d.err2d = .ub ↔ ∃ first more, L.filter (2 ≤ ·.length) = first :: more ∧ 3 ≤ first.length ∧
      (((first :: more).map fun l => l.length - 2).sum < (first :: more).length) := by
  rw [C14_meaning s ls hs L hL] at hd
  unfold fileMeaning at hd
  cases hD : L.filter (2 ≤ ·.length) with
  | nil => rw [hD] at hd; simp at hd
  | cons first more =>
    rw [hD] at hd
    simp only at hd
    have hex : (∃ first' more', first :: more = first' :: more' ∧ 3 ≤ first'.length ∧
        (((first' :: more').map fun l => l.length - 2).sum < (first' :: more').length)) ↔
        (3 ≤ first.length ∧ (((first :: more).map fun l => l.length - 2).sum < (first :: more).length)) := by
      constructor
      · rintro ⟨f, m, e, h1, h2⟩
        simp only [List.cons.injEq] at e
        obtain ⟨rfl, rfl⟩ := e
        exact ⟨h1, h2⟩
      · rintro ⟨h1, h2⟩
        exact ⟨first, more, rfl, h1, h2⟩
    rw [hex]
    split at hd
    · rename_i h3
      have hb := setUp_built hd
      have hlen : (((first :: more).map fun l => l.drop 2).flatten).length = ((first :: more).map fun l => l.length - 2).sum := by
        rw [List.length_flatten, List.map_map]
        congr 1
        apply List.map_congr_left
        intro l _
        simp
      have hpos : 0 < (((first :: more).map fun l => l.drop 2).flatten).length := by
        rw [hlen]; simp; omega
      unfold DS.err2d
      rw [hb.herr, hb.hN, hb.hM, if_neg (by
        intro h0
        rw [List.isEmpty_iff] at h0
        rw [h0] at hpos; simp at hpos)]
      rw [← hlen]
      generalize ((first :: more).map fun l => l.drop 2).flatten = E
      have hM : ((first :: more).map fun l => l.getD 0 zero).length = (first :: more).length := by simp
      rw [hM]
      generalize (first :: more).length = M
      constructor
      · intro h
        refine ⟨h3, ?_⟩
        by_contra hc
        rw [unflatten_ok (by omega)] at h
        simp at h
      · rintro ⟨_, h⟩
        unfold unflatten
        have : Res.mapL (fun i => rawGet E (vecIdx M i 0)) (List.range M) = .ub := by
          have e : (fun i => rawGet E (vecIdx M i 0)) = fun i => rawGet E i := by
            funext i; simp [vecIdx]
          rw [e]
          have : List.range M = List.range E.length ++ (E.length :: (List.range (M - E.length - 1)).map (· + (E.length + 1))) := by
            have h1 : M = E.length + (1 + (M - E.length - 1)) := by omega
            conv_lhs => rw [h1, List.range_add, List.range_add]
            simp [Function.comp_def, Nat.add_comm, Nat.add_left_comm]
          rw [this, Res.mapL_append, Res.mapL_cons, rawGet_of_ge le_rfl]
          have hok : ∃ ys, Res.mapL (fun i => rawGet E i) (List.range E.length) = .ok ys := by
            obtain ⟨ys, h1, _⟩ := Res.mapL_ok_of_forall (f := fun i => rawGet E i) (P := fun _ => True)
              (l := List.range E.length) (fun i hi => ⟨_, rawGet_of_lt (List.mem_range.1 hi), trivial⟩)
            exact ⟨ys, h1⟩
          obtain ⟨ys, hys⟩ := hok
          rw [hys]; rfl
        simp [this]
    · rename_i h3
      have hb : d.Built _ _ [] 1 := setUp_built hd
      unfold DS.err2d
      rw [hb.herr]
      simp only [List.isEmpty_nil, if_true]
      constructor
      · simp
      · rintro ⟨h, _⟩; exact absurd h h3

end Sacf
