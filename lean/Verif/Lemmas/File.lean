import Verif.Spec.File
import Verif.Lemmas.DataStructure
import Mathlib.Data.List.TakeWhile

/-! Lemmas about the file reader. -/

set_option linter.unusedSimpArgs false
set_option linter.unusedSectionVars false
set_option linter.unusedVariables false

namespace Sacf

open Arith

variable {F : Type} [Arith F]

/-! ### numerals -/

theorem readDigits_append {d r : List Char} (hd : Numeral.AllDigits d)
    (hr : ∀ c, r.head? = some c → c.isDigit = false) : readDigits (d ++ r) = (d, r) := by
  unfold readDigits
  rw [List.span_eq_takeWhile_dropWhile]
  induction d with
  | nil =>
    cases r with
    | nil => rfl
    | cons c r => have := hr c rfl; simp [List.takeWhile_cons, List.dropWhile_cons, this]
  | cons c d ih =>
    have h1 := hd c (by simp)
    have := ih (fun x hx => hd x (by simp [hx]))
    simp only [Prod.mk.injEq] at this
    simp [List.takeWhile_cons, List.dropWhile_cons, h1, this]

theorem readDigits_spec (s : List Char) : s = (readDigits s).1 ++ (readDigits s).2 ∧
    Numeral.AllDigits (readDigits s).1 ∧ ∀ c, (readDigits s).2.head? = some c → c.isDigit = false := by
  unfold readDigits
  rw [List.span_eq_takeWhile_dropWhile]
  refine ⟨(List.takeWhile_append_dropWhile).symm, ?_, ?_⟩
  · intro c hc
    exact (List.mem_takeWhile_imp hc)
  · intro c hc
    have := List.head?_dropWhile_not Char.isDigit s
    simp only at hc
    rw [hc] at this
    simpa using this

theorem digitsVal_eq (l : List Char) : digitsVal l = Numeral.natOf l := by
  unfold digitsVal Numeral.natOf
  have : ∀ (l : List Char) (a : Nat), l.foldl (fun n c => 10 * n + (c.toNat - '0'.toNat)) a
      = Nat.ofDigits 10 ((l.map fun c => c.toNat - '0'.toNat).reverse) + 10 ^ l.length * a := by
    intro l
    induction l with
    | nil => intro a; simp
    | cons c l ih =>
      intro a
      simp only [List.foldl_cons, ih, List.map_cons, List.reverse_cons, Nat.ofDigits_append, List.length_reverse,
        List.length_map, Nat.ofDigits_singleton, List.length_cons]
      ring
  simpa using this l 0

theorem digit_not_space {c : Char} (h : c.isDigit = true) : isSpaceC c = false := by
  unfold isSpaceC
  simp only [Char.isDigit, Bool.and_eq_true, decide_eq_true_eq] at h
  have : ∀ d : Char, d.val < 48 → (c == d) = false := by
    intro d hd
    rw [beq_eq_false_iff_ne]
    rintro rfl
    exact absurd h.1 (UInt32.not_le.2 hd)
  rw [this ' ' (by decide), this '\t' (by decide), this '\n' (by decide), this '\x0b' (by decide),
    this '\x0c' (by decide), this '\r' (by decide)]
  rfl

theorem digit_ne {c d : Char} (h : c.isDigit = true) (hd : d.isDigit = false) : c ≠ d := by
  rintro rfl; rw [h] at hd; simp at hd

/-- characters that may start a numeral -/
def startChar (c : Char) : Bool := c.isDigit || c == '+' || c == '-' || c == '.'

theorem startChar_not_space {c : Char} (h : startChar c = true) : isSpaceC c = false := by
  unfold startChar at h
  simp only [Bool.or_eq_true, beq_iff_eq] at h
  rcases h with ((h | rfl) | rfl) | rfl
  · exact digit_not_space h
  all_goals decide

theorem body_head {n : Numeral} (h : n.Valid) (rest : List Char) :
    ∃ c, (n.ints ++ (n.pointChars ++ n.expoChars) ++ rest).head? = some c ∧ (c.isDigit = true ∨ c = '.') := by
  cases hi : n.ints with
  | cons c l => exact ⟨c, rfl, Or.inl (h.ints c (by rw [hi]; simp))⟩
  | nil =>
    have := h.some_digit
    rw [hi] at this
    unfold Numeral.pointChars
    unfold Numeral.fracDigits at this
    cases hf : n.frac with
    | none => rw [hf] at this; simp at this
    | some f => exact ⟨'.', rfl, Or.inr rfl⟩

theorem chars_head {n : Numeral} (h : n.Valid) (rest : List Char) :
    ∃ c, (n.chars ++ rest).head? = some c ∧ startChar c = true := by
  unfold Numeral.chars
  cases hs : n.sign with
  | none =>
    obtain ⟨c, h1, h2⟩ := body_head h rest
    refine ⟨c, by simpa [Sign.chars] using h1, ?_⟩
    unfold startChar
    rcases h2 with h2 | rfl
    · rw [h2]; rfl
    · decide
  | plus => exact ⟨'+', rfl, by decide⟩
  | minus => exact ⟨'-', rfl, by decide⟩

theorem readSign_chars {s : Sign} {r : List Char} (h : ∃ c, r.head? = some c ∧ (c.isDigit = true ∨ c = '.')) :
    readSign (s.chars ++ r) = (s.isMinus, r) := by
  cases s with
  | none =>
    obtain ⟨c, hc, hd⟩ := h
    cases r with
    | nil => simp at hc
    | cons a r =>
      simp only [List.head?_cons, Option.some.injEq] at hc
      subst hc
      simp only [Sign.chars, List.nil_append]
      have h1 : a ≠ '-' := by rcases hd with hd | rfl; exact digit_ne hd (by decide); decide
      have h2 : a ≠ '+' := by rcases hd with hd | rfl; exact digit_ne hd (by decide); decide
      unfold readSign
      split
      · rename_i heq; simp at heq; exact absurd heq.1 h1
      · rename_i heq; simp at heq; exact absurd heq.1 h2
      · rfl
  | plus => rfl
  | minus => rfl

theorem readSign_spec (s : List Char) : ∃ g : Sign, s = g.chars ++ (readSign s).2 ∧ g.isMinus = (readSign s).1 := by
  unfold readSign
  split
  · exact ⟨.minus, rfl, rfl⟩
  · exact ⟨.plus, rfl, rfl⟩
  · exact ⟨.none, rfl, rfl⟩

theorem readFrac_chars {n : Numeral} (h : n.Valid) {r : List Char} (hr : ∀ c, r.head? = some c → c.isDigit = false)
    (hr' : n.frac = none → ∀ c, r.head? = some c → c ≠ '.') :
    readFrac (n.pointChars ++ r) = (n.fracDigits, r) := by
  unfold Numeral.pointChars Numeral.fracDigits
  have := h.frac
  unfold Numeral.fracDigits at this
  cases hf : n.frac with
  | none =>
    simp only [List.nil_append, Option.getD_none]
    unfold readFrac
    split
    · rename_i r'; exact absurd rfl (hr' hf '.' rfl)
    · rfl
  | some f =>
    rw [hf] at this
    simp only [List.cons_append, Option.getD_some, readFrac]
    exact readDigits_append this hr

/-- the reader accepts a numeral that cannot be continued -/
theorem readDouble_of_numeral {b rest : List Char} {n : Numeral} (hb : ∀ c ∈ b, isSpaceC c = true) (hn : n.Valid)
    (he : n.Ends rest) : (readDouble (b ++ (n.chars ++ rest)) : Option (F × List Char)) = n.value.map fun x => (x, rest) := by
  obtain ⟨c0, hc0, hs0⟩ := chars_head hn rest
  have hdrop : (b ++ (n.chars ++ rest)).dropWhile isSpaceC = n.chars ++ rest := by
    rw [List.dropWhile_append_of_pos hb]
    cases hcr : n.chars ++ rest with
    | nil => rfl
    | cons a l =>
      rw [hcr] at hc0
      simp only [List.head?_cons, Option.some.injEq] at hc0
      subst hc0
      rw [List.dropWhile_cons, startChar_not_space hs0]
      rfl
  unfold readDouble
  simp only [hdrop]
  have e1 : n.chars ++ rest = n.sign.chars ++ (n.ints ++ (n.pointChars ++ n.expoChars) ++ rest) := by
    unfold Numeral.chars; simp
  rw [e1, readSign_chars (body_head hn rest)]
  simp only
  -- what follows the mantissa
  have hafter : ∀ c, (n.expoChars ++ rest).head? = some c → c.isDigit = false ∧ (n.frac = none → c ≠ '.') := by
    intro c hc
    unfold Numeral.expoChars at hc
    cases hx : n.expo with
    | none =>
      rw [hx] at hc
      have := he c (by simpa using hc)
      exact ⟨this.1, fun hf => (this.2 hx).2.2 hf⟩
    | some p =>
      obtain ⟨c', s, d⟩ := p
      rw [hx] at hc
      simp only [List.cons_append, List.head?_cons, Option.some.injEq] at hc
      subst hc
      obtain ⟨h1, _, _⟩ := hn.expo _ _ _ hx
      rcases h1 with rfl | rfl <;> exact ⟨by decide, fun _ => by decide⟩
  have e2 : n.ints ++ (n.pointChars ++ n.expoChars) ++ rest = n.ints ++ (n.pointChars ++ (n.expoChars ++ rest)) := by simp
  have hpt : ∀ c, (n.pointChars ++ (n.expoChars ++ rest)).head? = some c → c.isDigit = false := by
    intro c hc
    unfold Numeral.pointChars at hc
    cases hf : n.frac with
    | none => rw [hf] at hc; exact (hafter c (by simpa using hc)).1
    | some f =>
      rw [hf] at hc
      simp only [List.cons_append, List.head?_cons, Option.some.injEq] at hc
      subst hc; decide
  rw [e2, readDigits_append hn.ints hpt]
  simp only
  rw [readFrac_chars hn (fun c hc => (hafter c hc).1) (fun hf c hc => (hafter c hc).2 hf)]
  simp only
  have hne : (n.ints.isEmpty && n.fracDigits.isEmpty) = false := by
    rcases hn.some_digit with h | h
    · cases hi : n.ints with
      | nil => exact absurd hi h
      | cons _ _ => rfl
    · cases hi : n.fracDigits with
      | nil => exact absurd hi h
      | cons _ _ => simp
  rw [hne]
  simp only [Bool.false_eq_true, if_false]
  unfold Numeral.value Numeral.exp10 Numeral.mant
  cases hx : n.expo with
  | none =>
    have e3 : n.expoChars ++ rest = rest := by unfold Numeral.expoChars; rw [hx]; rfl
    rw [e3]
    have hh := fun c hc => (he c hc).2 hx
    split
    · exact absurd rfl (hh 'e' rfl).1
    · exact absurd rfl (hh 'E' rfl).2.1
    · rw [digitsVal_eq]; simp
  | some p =>
    obtain ⟨c, s, d⟩ := p
    obtain ⟨h1, h2, h3⟩ := hn.expo _ _ _ hx
    have hd : ∃ c, (d ++ rest).head? = some c ∧ (c.isDigit = true ∨ c = '.') := by
      cases d with
      | nil => exact absurd rfl h2
      | cons a d => exact ⟨a, rfl, Or.inl (h3 a (by simp))⟩
    have e3 : n.expoChars ++ rest = c :: (s.chars ++ (d ++ rest)) := by
      unfold Numeral.expoChars; rw [hx]; simp
    have hde : d.isEmpty = false := by cases d with
      | nil => exact absurd rfl h2
      | cons _ _ => rfl
    rw [e3]
    have hrd := readDigits_append h3 (fun c hc => (he c hc).1)
    rcases h1 with rfl | rfl
    · simp only [readSign_chars hd, hrd, hde, Bool.false_eq_true, if_false, digitsVal_eq]
    · simp only [readSign_chars hd, hrd, hde, Bool.false_eq_true, if_false, digitsVal_eq]

/-- what the reader accepts is a numeral -/
theorem numeral_of_readDouble {s r : List Char} {x : F} (h : readDouble s = some (x, r)) :
    ∃ (b : List Char) (n : Numeral), (∀ c ∈ b, isSpaceC c = true) ∧ n.Valid ∧ s = b ++ (n.chars ++ r) ∧ n.Ends r ∧
      n.value = some x := by
  set b := s.takeWhile isSpaceC with hb
  set s0 := s.dropWhile isSpaceC with hs0
  have hs : s = b ++ s0 := (List.takeWhile_append_dropWhile).symm
  have hbs : ∀ c ∈ b, isSpaceC c = true := fun c hc => List.mem_takeWhile_imp hc
  obtain ⟨g, hg, hgm⟩ := readSign_spec s0
  obtain ⟨hi1, hi2, hi3⟩ := readDigits_spec (readSign s0).2
  set s1 := (readSign s0).2 with hs1
  set d1 := (readDigits s1).1 with hd1
  set s2 := (readDigits s1).2 with hs2
  -- the fraction
  have hfr : ∃ fr : Option (List Char), (readFrac s2).1 = fr.getD [] ∧ Numeral.AllDigits (fr.getD []) ∧
      s2 = (match fr with | none => [] | some f => '.' :: f) ++ (readFrac s2).2 ∧
      ∀ c, (readFrac s2).2.head? = some c → c.isDigit = false ∧ (fr = none → c ≠ '.') := by
    cases hc : s2 with
    | nil => exact ⟨none, rfl, by simp [Numeral.AllDigits], rfl, by simp [readFrac]⟩
    | cons a l =>
      by_cases ha : a = '.'
      · subst ha
        obtain ⟨f1, f2, f3⟩ := readDigits_spec l
        refine ⟨some (readDigits l).1, rfl, f2, ?_, ?_⟩
        · simp only [readFrac, List.cons_append]
          rw [← f1]
        · intro c hc
          exact ⟨f3 c hc, by simp⟩
      · have e : readFrac (a :: l) = ([], a :: l) := by
          unfold readFrac
          split
          · rename_i heq; simp at heq; exact absurd heq.1 ha
          · rfl
        refine ⟨none, by rw [e]; rfl, by simp [Numeral.AllDigits], by rw [e]; rfl, ?_⟩
        intro c hc'
        rw [e] at hc'
        refine ⟨hi3 c (by rw [hc]; exact hc'), fun _ => ?_⟩
        simp only [List.head?_cons, Option.some.injEq] at hc'
        rw [← hc']; exact ha
  obtain ⟨fr, hf1, hf2, hf3, hf4⟩ := hfr
  set d2 := (readFrac s2).1 with hd2
  set s3 := (readFrac s2).2 with hs3
  unfold readDouble at h
  simp only [← hs0, ← hs1, ← hd1, ← hs2, ← hd2, ← hs3] at h
  clear_value s3 d2 s2 d1 s1 s0 b
  generalize (readSign s0).1 = ng at *
  clear hs0 hs1 hd1 hs2 hd2 hs3 hb
  split at h
  · simp at h
  · rename_i hne
    have hsome : d1 ≠ [] ∨ fr.getD [] ≠ [] := by
      rw [← hf1]
      by_contra hc
      push Not at hc
      rw [hc.1, hc.2] at hne
      simp at hne
    have sci : ∀ (c : Char) (r0 : List Char), s3 = c :: r0 → (c = 'e' ∨ c = 'E') →
        (if (readDigits (readSign r0).2).1.isEmpty = true then none
          else Option.map (fun x => (x, (readDigits (readSign r0).2).2))
            (ofDec ng (digitsVal (d1 ++ d2))
              ((if (readSign r0).1 = true then -(digitsVal (readDigits (readSign r0).2).1 : Int)
                else (digitsVal (readDigits (readSign r0).2).1 : Int)) - (d2.length : Int)))) = some (x, r) →
        ∃ (b : List Char) (n : Numeral), (∀ c ∈ b, isSpaceC c = true) ∧ n.Valid ∧ s = b ++ (n.chars ++ r) ∧ n.Ends r ∧
          n.value = some x := by
      intro c r0 hs3' hc h
      obtain ⟨g', hg', hgm'⟩ := readSign_spec r0
      obtain ⟨e1, e2, e3⟩ := readDigits_spec (readSign r0).2
      generalize readSign r0 = p at *
      obtain ⟨eneg, r1⟩ := p
      simp only at *
      generalize readDigits r1 = q at *
      obtain ⟨d3, r2⟩ := q
      simp only at *
      split at h
      · simp at h
      · rename_i hde
        simp only [Option.map_eq_some_iff, Prod.mk.injEq] at h
        obtain ⟨x', hx', rfl, hr⟩ := h
        subst hr
        refine ⟨b, ⟨g, d1, fr, some (c, g', d3)⟩, hbs, ⟨hi2, hf2, hsome, ?_⟩, ?_, ?_, ?_⟩
        · intro c' s' d' heq
          simp only [Option.some.injEq, Prod.mk.injEq] at heq
          obtain ⟨rfl, rfl, rfl⟩ := heq
          exact ⟨hc, by intro hn; rw [hn] at hde; simp at hde, e2⟩
        · rw [hs]
          congr 1
          conv_lhs => rw [hg, hi1, hf3, hs3', hg', e1]
          unfold Numeral.chars Numeral.pointChars Numeral.expoChars
          cases fr <;> simp
        · intro c' hc'
          exact ⟨e3 c' hc', by simp⟩
        · unfold Numeral.value Numeral.mant Numeral.exp10 Numeral.fracDigits
          rw [digitsVal_eq, digitsVal_eq, ← hgm, ← hgm', hf1] at hx'
          exact hx'
    generalize hz : s3 = z at h
    split at h
    · exact sci 'e' _ hz (Or.inl rfl) h
    · exact sci 'E' _ hz (Or.inr rfl) h
    · rename_i hne1 hne2
      rw [← hz] at h hne1 hne2
      simp only [Option.map_eq_some_iff, Prod.mk.injEq] at h
      obtain ⟨x', hx', rfl, hr⟩ := h
      refine ⟨b, ⟨g, d1, fr, none⟩, hbs, ⟨hi2, hf2, hsome, by simp⟩, ?_, ?_, ?_⟩
      · rw [hs]
        congr 1
        conv_lhs => rw [hg, hi1, hf3]
        unfold Numeral.chars Numeral.pointChars Numeral.expoChars
        rw [← hr]
        cases fr <;> simp
      · intro c hc
        rw [← hr] at hc
        refine ⟨(hf4 c hc).1, fun _ => ⟨?_, ?_, (hf4 c hc).2⟩⟩
        · rintro rfl
          cases h3 : s3 with
          | nil => rw [h3] at hc; simp at hc
          | cons a l => rw [h3] at hc; simp at hc; subst hc; exact hne1 l h3
        · rintro rfl
          cases h3 : s3 with
          | nil => rw [h3] at hc; simp at hc
          | cons a l => rw [h3] at hc; simp at hc; subst hc; exact hne2 l h3
      · unfold Numeral.value Numeral.mant Numeral.exp10 Numeral.fracDigits
        rw [digitsVal_eq, ← hgm, hf1] at hx'
        simpa using hx'

/-! ### separators -/

theorem chars_mem {n : Numeral} (h : n.Valid) {c : Char} (hc : c ∈ n.chars) : c ≠ ',' ∧ c ≠ ' ' ∧ c ≠ '\n' := by
  have hs : ∀ s : Sign, c ∈ s.chars → c ≠ ',' ∧ c ≠ ' ' ∧ c ≠ '\n' := by
    intro s hs
    cases s <;> simp [Sign.chars] at hs <;> subst hs <;> decide
  have hd : ∀ l : List Char, Numeral.AllDigits l → c ∈ l → c ≠ ',' ∧ c ≠ ' ' ∧ c ≠ '\n' := by
    intro l hl hc
    have := hl c hc
    exact ⟨digit_ne this (by decide), digit_ne this (by decide), digit_ne this (by decide)⟩
  unfold Numeral.chars at hc
  rw [List.mem_append, List.mem_append, List.mem_append] at hc
  rcases hc with hc | hc | hc | hc
  · exact hs _ hc
  · exact hd _ h.ints hc
  · have := h.frac
    unfold Numeral.pointChars at hc
    unfold Numeral.fracDigits at this
    cases hf : n.frac with
    | none => rw [hf] at hc; simp at hc
    | some f =>
      rw [hf] at hc this
      rcases List.mem_cons.1 hc with rfl | hc
      · decide
      · exact hd _ this hc
  · unfold Numeral.expoChars at hc
    cases hf : n.expo with
    | none => rw [hf] at hc; simp at hc
    | some p =>
      obtain ⟨e, s, d⟩ := p
      rw [hf] at hc
      obtain ⟨h1, _, h3⟩ := h.expo _ _ _ hf
      rcases List.mem_cons.1 hc with rfl | hc
      · rcases h1 with rfl | rfl <;> decide
      · rcases List.mem_append.1 hc with hc | hc
        · exact hs _ hc
        · exact hd _ h3 hc

/-- one character of `replaceCommas` -/
def rc (c : Char) : Char := if c == ',' then ' ' else c

theorem replaceCommas_eq (s : List Char) : replaceCommas s = s.map rc := rfl

theorem rc_space {c : Char} : isSpaceC (rc c) = isSep c := by
  unfold rc isSep
  by_cases h : c = ','
  · subst h; decide
  · have : (c == ',') = false := by simpa using h
    rw [this]; simp

theorem rc_eq {c c' : Char} (h : rc c = c') (h1 : c' ≠ ' ') : c = c' := by
  unfold rc at h
  split at h
  · exact absurd h.symm h1
  · exact h

theorem rc_fix {c : Char} (h : c ≠ ',') : rc c = c := by
  unfold rc
  rw [if_neg (by simpa using h)]

theorem map_rc_chars {n : Numeral} (h : n.Valid) : n.chars.map rc = n.chars := by
  conv_rhs => rw [← List.map_id n.chars]
  apply List.map_congr_left
  intro c hc
  exact rc_fix (chars_mem h hc).1

theorem rc_digit (c : Char) : (rc c).isDigit = c.isDigit := by
  by_cases h : c = ','
  · subst h; decide
  · rw [rc_fix h]

theorem ends_map_rc {n : Numeral} {r : List Char} : n.Ends (r.map rc) ↔ n.Ends r := by
  unfold Numeral.Ends
  cases r with
  | nil => simp
  | cons a l =>
    simp only [List.map_cons, List.head?_cons, Option.some.injEq, forall_eq']
    by_cases h : a = ','
    · subst h
      have : rc ',' = ' ' := by decide
      rw [this]
      constructor <;> intro _ <;> exact ⟨by decide, fun _ => ⟨by decide, by decide, fun _ => by decide⟩⟩
    · rw [rc_fix h]

/-- a token is what the reader reads -/
theorem readDouble_of_token {s r : List Char} {x : F} (h : Token s x r) :
    readDouble (replaceCommas s) = some (x, replaceCommas r) := by
  obtain ⟨b, n, hb, hn, rfl, he, hv⟩ := h
  rw [replaceCommas_eq, replaceCommas_eq, List.map_append, List.map_append, map_rc_chars hn,
    readDouble_of_numeral _ hn (ends_map_rc.2 he), hv]
  · rfl
  · intro c hc
    obtain ⟨c', h1, rfl⟩ := List.mem_map.1 hc
    rw [rc_space]; exact hb _ h1

theorem token_of_readDouble {s r' : List Char} {x : F} (h : readDouble (replaceCommas s) = some (x, r')) :
    ∃ r, Token s x r ∧ r' = replaceCommas r := by
  obtain ⟨b, n, hb, hn, hs, he, hv⟩ := numeral_of_readDouble h
  rw [replaceCommas_eq, List.map_eq_append_iff] at hs
  obtain ⟨b', s1, rfl, rfl, hs⟩ := hs
  rw [List.map_eq_append_iff] at hs
  obtain ⟨c', r, rfl, hc, rfl⟩ := hs
  have : c' = n.chars := by
    rw [← hc]
    conv_lhs => rw [← List.map_id c']
    apply List.map_congr_left
    intro a ha
    exact rc_eq rfl (chars_mem hn (by rw [← hc]; exact List.mem_map_of_mem ha)).2.1
  subst this
  refine ⟨r, ⟨b', n, ?_, hn, rfl, ends_map_rc.1 he, hv⟩, rfl⟩
  intro a ha
  rw [← rc_space]
  exact hb _ (List.mem_map_of_mem ha)

/-! ### the loops over a line -/

/-- all numbers the reader finds in a row -/
def toks (s : List Char) : List F :=
  match h : (readDouble s : Option (F × List Char)) with
  | none => []
  | some (x, r) => x :: toks r
termination_by s.length
decreasing_by exact readDouble_length h

theorem toks_none {s : List Char} (h : (readDouble s : Option (F × List Char)) = none) : toks (F := F) s = [] := by
  unfold toks
  split
  · rfl
  · rename_i heq; rw [h] at heq; simp at heq

theorem toks_some {s r : List Char} {x : F} (h : readDouble s = some (x, r)) : toks (F := F) s = x :: toks r := by
  conv_lhs => unfold toks
  split
  · rename_i heq; rw [h] at heq; simp at heq
  · rename_i heq; rw [h] at heq; simp at heq; rw [heq.1, heq.2]

theorem tokens_unique {s : List Char} {l : List F} (h : Tokens s l) : l = toks (replaceCommas s) := by
  induction h with
  | stop hn =>
    rename_i s
    rw [toks_none]
    cases hr : (readDouble (replaceCommas s) : Option (F × List Char)) with
    | none => rfl
    | some p =>
      obtain ⟨r, h1, _⟩ := token_of_readDouble (x := p.1) (r' := p.2) hr
      exact absurd h1 (hn _ _)
  | cons h1 _ ih => rw [toks_some (readDouble_of_token h1), ih]

theorem tokens_total (s : List Char) : Tokens (F := F) s (toks (replaceCommas s)) := by
  induction hn : s.length using Nat.strong_induction_on generalizing s with
  | _ n ih =>
    cases hr : (readDouble (replaceCommas s) : Option (F × List Char)) with
    | none =>
      rw [toks_none hr]
      refine .stop fun x r h => ?_
      rw [readDouble_of_token h] at hr
      simp at hr
    | some p =>
      obtain ⟨x, r'⟩ := p
      obtain ⟨r, h1, rfl⟩ := token_of_readDouble hr
      rw [toks_some hr]
      have hl := readDouble_length hr
      refine .cons h1 (ih r.length ?_ r rfl)
      simpa [replaceCommas, hn] using hl

theorem tokens_of_fields {s : List Char} {l : List F} (h : Fields s l) : Tokens s l := by
  induction h with
  | nil hb =>
    rename_i b
    refine .stop fun x r h => ?_
    obtain ⟨b', n, _, hn, he, _⟩ := h
    obtain ⟨c, hc, hs⟩ := chars_head hn r
    have : c ∈ b := by
      rw [he]
      exact List.mem_append_right _ (List.mem_of_mem_head? (by rw [hc]; rfl))
    have hsep := hb c this
    unfold isSep at hsep
    rw [startChar_not_space hs] at hsep
    simp at hsep
    subst hsep
    simp [startChar] at hs
  | cons hb hn hv hr _ ih =>
    refine .cons ⟨_, _, hb, hn, rfl, ?_, hv⟩ ih
    intro c hc
    have hsep := hr c hc
    have key : c.isDigit = false ∧ c ≠ 'e' ∧ c ≠ 'E' ∧ c ≠ '.' := by
      unfold isSep isSpaceC at hsep
      simp only [Bool.or_eq_true, beq_iff_eq] at hsep
      rcases hsep with (((((rfl | rfl) | rfl) | rfl) | rfl) | rfl) | rfl <;> decide
    exact ⟨key.1, fun _ => ⟨key.2.1, key.2.2.1, fun _ => key.2.2.2⟩⟩

theorem innerLoop_errors (st : RState F) (s : List Char) (h : st.hasErrors = true) :
    innerLoop st s = ({ st with err := st.err ++ toks s,
                                updateHasErrors := st.updateHasErrors && (toks (F := F) s).isEmpty }, none) := by
  induction hn : s.length using Nat.strong_induction_on generalizing st s with
  | _ n ih =>
    unfold innerLoop
    split
    · rename_i heq
      rw [toks_none heq]; simp
    · rename_i x r heq
      rw [if_pos h, ih r.length (by rw [← hn]; exact readDouble_length heq) _ _ (by simp [h]) rfl, toks_some heq]
      simp

theorem innerLoop_plain (st : RState F) (s : List Char) (h : st.hasErrors = false) :
    innerLoop st s = (st, (readDouble s : Option (F × List Char)).map Prod.snd) := by
  unfold innerLoop
  split
  · rename_i heq; rw [heq]; rfl
  · rename_i x r heq; rw [if_neg (by simp [h]), heq]; rfl

/-- effect of one line on the state, in terms of the numbers found -/
def lineEffect (st : RState F) (l : List F) : RState F :=
  if st.hasErrors then
    match l with
    | t :: x :: es =>
      { t := st.t ++ [t], data := st.data ++ [x], err := st.err ++ es,
        updateHasErrors := st.updateHasErrors && es.isEmpty, hasErrors := !(st.updateHasErrors && es.isEmpty) }
    | _ => st
  else { st with t := st.t ++ (everyThird l).map Prod.fst, data := st.data ++ (everyThird l).map Prod.snd }

theorem outerLoop_eq (st : RState F) (s : List Char) (h : st.hasErrors = false → st.updateHasErrors = true) :
    outerLoop st s = lineEffect st (toks s) := by
  induction hn : s.length using Nat.strong_induction_on generalizing st s with
  | _ n ih =>
    unfold outerLoop
    split
    · rename_i heq
      rw [toks_none heq]
      unfold lineEffect
      split
      · rfl
      · simp [everyThird]
    · rename_i tv s1 heq
      rw [toks_some heq]
      split
      · rename_i heq2
        rw [toks_none heq2]
        unfold lineEffect
        split
        · rfl
        · simp [everyThird]
      · rename_i xv s2 heq2
        rw [toks_some heq2]
        simp only
        cases he : st.hasErrors with
        | true =>
          rw [innerLoop_errors _ _ (by simp)]
          simp only
          unfold lineEffect
          rw [if_pos he]
          simp only
          by_cases hu : (st.updateHasErrors && (toks (F := F) s2).isEmpty) = true
          · rw [if_pos hu]; simp [hu, he]
          · rw [if_neg hu]
            have : (st.updateHasErrors && (toks (F := F) s2).isEmpty) = false := by simpa using hu
            simp [this, he]
        | false =>
          have hu := h he
          rw [innerLoop_plain _ s2 rfl]
          simp only [hu, if_true]
          cases hr : (readDouble s2 : Option (F × List Char)) with
          | none =>
            rw [toks_none hr]
            simp [lineEffect, he, everyThird, hu]
          | some p =>
            obtain ⟨y, r⟩ := p
            rw [toks_some hr]
            simp only [Option.map_some]
            have h1 := readDouble_length heq
            have h2 := readDouble_length heq2
            have h3 := readDouble_length hr
            rw [ih r.length (by omega) _ _ (by simp) rfl]
            unfold lineEffect
            simp [he, everyThird, hu]

/-! ### lines -/

theorem splitLines_go (cur s : List Char) : ∃ l rest, splitLines.go cur s = (cur.reverse ++ l) :: splitLines rest ∧
    '\n' ∉ l ∧ ((rest = [] ∧ s = l) ∨ s = l ++ '\n' :: rest) := by
  induction s generalizing cur with
  | nil => exact ⟨[], [], by simp [splitLines.go, splitLines], by simp, Or.inl ⟨rfl, rfl⟩⟩
  | cons c s ih =>
    unfold splitLines.go
    by_cases hc : c = '\n'
    · subst hc
      refine ⟨[], s, ?_, by simp, Or.inr rfl⟩
      cases s with
      | nil => simp [splitLines]
      | cons a l => simp [splitLines]
    · rw [if_neg (by simpa using hc)]
      obtain ⟨l, rest, h1, h2, h3⟩ := ih (c :: cur)
      refine ⟨c :: l, rest, by rw [h1]; simp, by simp [h2, Ne.symm hc], ?_⟩
      rcases h3 with ⟨h3, rfl⟩ | rfl
      · exact Or.inl ⟨h3, rfl⟩
      · exact Or.inr rfl

theorem splitLines_cons {l rest : List Char} (h : '\n' ∉ l) : splitLines (l ++ '\n' :: rest) = l :: splitLines rest := by
  have key : ∀ cur, splitLines.go cur (l ++ '\n' :: rest) = (cur.reverse ++ l) :: splitLines rest := by
    induction l with
    | nil =>
      intro cur
      simp only [List.nil_append, splitLines.go]
      rw [if_pos (by decide)]
      cases rest with
      | nil => simp [splitLines]
      | cons a l => simp [splitLines]
    | cons c l ih =>
      intro cur
      simp only [List.cons_append, splitLines.go]
      rw [if_neg (by simp at h; simpa using fun hc => h.1 hc.symm), ih (fun hm => h (by simp [hm]))]
      simp
  have hne : l ++ '\n' :: rest ≠ [] := by simp
  cases hs : l ++ '\n' :: rest with
  | nil => exact absurd hs hne
  | cons a t =>
    unfold splitLines
    simp only
    rw [← hs, key]; rfl

theorem splitLines_last {l : List Char} (h : '\n' ∉ l) (hne : l ≠ []) : splitLines l = [l] := by
  have key : ∀ cur, splitLines.go cur l = [cur.reverse ++ l] := by
    clear hne
    induction l with
    | nil => intro cur; simp [splitLines.go]
    | cons c l ih =>
      intro cur
      simp only [splitLines.go]
      rw [if_neg (by simp at h; simpa using fun hc => h.1 hc.symm), ih (fun hm => h (by simp [hm]))]
      simp
  cases l with
  | nil => exact absurd rfl hne
  | cons a t =>
    unfold splitLines
    simp only
    rw [key]; rfl

theorem splitLines_of_isLines {s : List Char} {ls : List (List Char)} (h : IsLines s ls) : splitLines s = ls := by
  have pre : ∀ (ini : List (List Char)) (rest : List Char), (∀ l ∈ ini, '\n' ∉ l) →
      splitLines ((ini.map (· ++ ['\n'])).flatten ++ rest) = ini ++ splitLines rest := by
    intro ini rest hi
    induction ini with
    | nil => rfl
    | cons l ini ih =>
      have : ((l :: ini).map (· ++ ['\n'])).flatten ++ rest = l ++ '\n' :: ((ini.map (· ++ ['\n'])).flatten ++ rest) := by
        simp
      rw [this, splitLines_cons (hi l (by simp)), ih fun x hx => hi x (by simp [hx])]
      rfl
  obtain ⟨h1, rfl | ⟨ini, last, rfl, h2, rfl⟩⟩ := h
  · have := pre ls [] h1
    simpa [splitLines] using this
  · rw [pre ini last (fun l hl => h1 l (by simp [hl])), splitLines_last (h1 last (by simp)) h2]

theorem isLines_splitLines (s : List Char) : IsLines s (splitLines s) := by
  induction hn : s.length using Nat.strong_induction_on generalizing s with
  | _ n ih =>
    cases s with
    | nil => exact ⟨by simp [splitLines], Or.inl (by simp [splitLines])⟩
    | cons a s =>
      obtain ⟨l, rest, h1, h2, h3⟩ := splitLines_go [] (a :: s)
      have e : splitLines (a :: s) = l :: splitLines rest := by
        unfold splitLines at *
        simp only
        rw [h1]
        simp
      rw [e]
      rcases h3 with ⟨rfl, h3⟩ | h3
      · refine ⟨by simp [splitLines, h2], Or.inr ⟨[], l, by simp [splitLines], ?_, by simpa using h3⟩⟩
        rw [← h3]; simp
      · obtain ⟨g1, g2⟩ := ih rest.length (by rw [← hn, h3]; simp; omega) rest rfl
        refine ⟨?_, ?_⟩
        · intro x hx
          rcases List.mem_cons.1 hx with rfl | hx
          · exact h2
          · exact g1 x hx
        · rcases g2 with g2 | ⟨ini, last, g2, g3, g4⟩
          · left
            rw [h3]
            conv_lhs => rw [g2]
            simp
          · right
            refine ⟨l :: ini, last, by rw [g2]; rfl, g3, ?_⟩
            rw [h3]
            conv_lhs => rw [g4]
            simp

/-! ### the whole file -/

theorem readLine_eq (st : RState F) (line : List Char) (h : st.hasErrors = false → st.updateHasErrors = true) :
    readLine st line = if IsComment line then st else lineEffect st (toks (replaceCommas line)) := by
  unfold readLine
  by_cases hc : IsComment line
  · rw [if_pos hc]; exact if_pos hc
  · rw [if_neg hc, ← outerLoop_eq _ _ h]; exact if_neg hc

theorem lineEffect_inv {st : RState F} (h : st.hasErrors = false → st.updateHasErrors = true) (l : List F) :
    (lineEffect st l).hasErrors = false → (lineEffect st l).updateHasErrors = true := by
  unfold lineEffect
  split
  · split
    · simp
    · exact h
  · simpa using h

theorem foldl_readLine (ls : List (List Char)) (st : RState F) (h : st.hasErrors = false → st.updateHasErrors = true) :
    ls.foldl readLine st = ((ls.filter fun l => !decide (IsComment l)).map fun l => toks (replaceCommas l)).foldl lineEffect st := by
  induction ls generalizing st with
  | nil => rfl
  | cons l ls ih =>
    rw [List.foldl_cons, readLine_eq _ _ h]
    by_cases hc : IsComment l
    · rw [if_pos hc, ih _ h, List.filter_cons_of_neg (by simpa using hc)]
    · rw [if_neg hc, ih _ (lineEffect_inv h _), List.filter_cons_of_pos (by simpa using hc)]
      rfl

theorem everyThird_short {l : List F} (h : l.length < 2) : everyThird l = [] := by
  match l, h with
  | [], _ => rfl
  | [x], _ => rfl
  | _ :: _ :: _, h => simp at h; omega

theorem lineEffect_short {st : RState F} {l : List F} (h : l.length < 2) : lineEffect st l = st := by
  unfold lineEffect
  split
  · match l, h with
    | [], _ => rfl
    | [x], _ => rfl
    | _ :: _ :: _, h => simp at h; omega
  · rw [everyThird_short h]; simp

theorem foldl_lineEffect_filter (L : List (List F)) (st : RState F) :
    L.foldl lineEffect st = (L.filter (2 ≤ ·.length)).foldl lineEffect st := by
  induction L generalizing st with
  | nil => rfl
  | cons l L ih =>
    by_cases h : 2 ≤ l.length
    · rw [List.filter_cons_of_pos (by simpa using h), List.foldl_cons, List.foldl_cons, ih]
    · rw [List.filter_cons_of_neg (by simpa using h), List.foldl_cons, lineEffect_short (by omega), ih]

theorem foldl_plain (L : List (List F)) (st : RState F) (h : st.hasErrors = false) :
    L.foldl lineEffect st = { st with t := st.t ++ (L.map everyThird).flatten.map Prod.fst,
                                      data := st.data ++ (L.map everyThird).flatten.map Prod.snd } := by
  induction L generalizing st with
  | nil => simp
  | cons l L ih =>
    have e : lineEffect st l = { st with t := st.t ++ (everyThird l).map Prod.fst,
                                         data := st.data ++ (everyThird l).map Prod.snd } := by
      unfold lineEffect; rw [if_neg (by simp [h])]
    rw [List.foldl_cons, e, ih _ (by simpa using h)]
    simp

theorem foldl_errors (L : List (List F)) (hL : ∀ l ∈ L, 2 ≤ l.length) (st : RState F) (h : st.hasErrors = true)
    (hu : st.updateHasErrors = false) :
    L.foldl lineEffect st = { st with t := st.t ++ L.map (fun l => l.getD 0 zero),
                                      data := st.data ++ L.map (fun l => l.getD 1 zero),
                                      err := st.err ++ (L.map fun l => l.drop 2).flatten } := by
  induction L generalizing st with
  | nil => simp
  | cons l L ih =>
    have e : lineEffect st l = { st with t := st.t ++ [l.getD 0 zero], data := st.data ++ [l.getD 1 zero],
                                         err := st.err ++ l.drop 2 } := by
      unfold lineEffect
      rw [if_pos h]
      have := hL l (by simp)
      match l, this with
      | t :: x :: es, _ => simp [h, hu]
    rw [List.foldl_cons, e, ih (fun x hx => hL x (by simp [hx])) _ (by simpa using h) (by simpa using hu)]
    simp

/-- the reader computes the meaning of the file -/
theorem mkFile_eq (s : List Char) :
    mkFile (F := F) (some s) = fileMeaning (((splitLines s).filter fun l => !decide (IsComment l)).map
      fun l => toks (replaceCommas l)) := by
  unfold mkFile
  simp only
  rw [foldl_readLine _ _ (by simp [RState.init]), foldl_lineEffect_filter]
  unfold fileMeaning
  generalize (((splitLines s).filter fun l => !decide (IsComment l)).map fun l => toks (F := F) (replaceCommas l)) = L
  have hall : ∀ l ∈ L.filter (2 ≤ ·.length), 2 ≤ l.length := fun l hl => by simpa using (List.mem_filter.1 hl).2
  cases hD : L.filter (2 ≤ ·.length) with
  | nil =>
    simp only [List.foldl_nil, finishFile, RState.init]
    exact setUp_empty (Or.inl rfl)
  | cons first more =>
    rw [hD] at hall
    have h2 := hall first (by simp)
    simp only
    obtain ⟨a, b, es, rfl⟩ : ∃ a b es, first = a :: b :: es := by
      match first, h2 with
      | a :: b :: es, _ => exact ⟨a, b, es, rfl⟩
    cases es with
    | nil =>
      rw [if_neg (by simp), List.foldl_cons]
      have e : lineEffect RState.init [a, b] = (⟨[a], [b], [], false, true⟩ : RState F) := by
        simp [lineEffect, RState.init]
      rw [e, foldl_plain _ _ rfl]
      unfold finishFile mkFlat
      simp [everyThird]
    | cons c es =>
      rw [if_pos (by simp), List.foldl_cons]
      have e : lineEffect RState.init (a :: b :: c :: es) = (⟨[a], [b], c :: es, true, false⟩ : RState F) := by
        simp [lineEffect, RState.init]
      rw [e, foldl_errors _ (fun l hl => hall l (by simp [hl])) _ rfl rfl]
      unfold finishFile mkFlatErr
      simp

end Sacf
