import Verif.Props.File

/-!
# The words of a file (C112 – C114)

What a file means depends on the words of its lines only: not on line endings, blank lines or the number of separators
between two words.  Hence an empty field is no field, and a word that is not a number ends its line.
-/

set_option linter.unusedSectionVars false

namespace Sacf

open Arith

variable {F : Type} [Arith F]

/-- the words of a line: what is left between the separators -/
def words (l : List Char) : List (List Char) := (l.splitOnP isSep).filter (· ≠ [])

/-- the words of the lines that have any -/
def wordLines (ls : List (List Char)) : List (List (List Char)) := (ls.map words).filter (· ≠ [])

/-! ## words -/

theorem words_sep {c : Char} (hc : isSep c = true) (s : List Char) : words (c :: s) = words s := by
  unfold words
  have := List.splitOnP_append_cons_of_forall_mem (p := isSep) (xs := []) (by simp) c hc s
  rw [List.nil_append] at this
  rw [this, List.filter_cons_of_neg (by simp)]

theorem words_seps {b : List Char} (hb : ∀ c ∈ b, isSep c = true) (s : List Char) : words (b ++ s) = words s := by
  induction b with
  | nil => rfl
  | cons c b ih => rw [List.cons_append, words_sep (hb c (by simp)), ih fun x hx => hb x (by simp [hx])]

theorem words_word {w rest : List Char} (hw : ∀ c ∈ w, isSep c = false) (hne : w ≠ [])
    (hr : ∀ c, rest.head? = some c → isSep c = true) : words (w ++ rest) = w :: words rest := by
  unfold words
  cases rest with
  | nil => rw [List.append_nil, List.splitOnP_eq_singleton hw]; simp [hne]
  | cons c rest =>
    have h1 := List.splitOnP_append_cons_of_forall_mem hw c (hr c rfl) rest
    have h2 := words_sep (hr c rfl) rest
    unfold words at h2
    rw [h1, h2, List.filter_cons_of_pos (by simpa using hne)]

theorem word_split (s : List Char) : ∃ w rest, s = w ++ rest ∧ (∀ c ∈ w, isSep c = false) ∧
    ∀ c, rest.head? = some c → isSep c = true := by
  induction s with
  | nil => exact ⟨[], [], rfl, by simp, by simp⟩
  | cons c s ih =>
    by_cases hc : isSep c = true
    · exact ⟨[], c :: s, rfl, by simp, by simpa using hc⟩
    · obtain ⟨w, rest, e, h1, h2⟩ := ih
      refine ⟨c :: w, rest, by rw [e]; rfl, ?_, h2⟩
      intro x hx
      rcases List.mem_cons.1 hx with rfl | hx
      · simpa using hc
      · exact h1 x hx

theorem words_cons {l w : List Char} {ws : List (List Char)} (h : words l = w :: ws) :
    ∃ b rest, l = b ++ (w ++ rest) ∧ (∀ c ∈ b, isSep c = true) ∧ (∀ c, rest.head? = some c → isSep c = true) ∧
      words rest = ws := by
  induction l with
  | nil => simp [words] at h
  | cons c s ih =>
    by_cases hc : isSep c = true
    · rw [words_sep hc] at h
      obtain ⟨b, rest, e, h1, h2, h3⟩ := ih h
      refine ⟨c :: b, rest, by rw [e]; rfl, ?_, h2, h3⟩
      intro x hx
      rcases List.mem_cons.1 hx with rfl | hx
      · exact hc
      · exact h1 x hx
    · obtain ⟨w', rest, e, h1, h2⟩ := word_split (c :: s)
      have hne : w' ≠ [] := by
        rintro rfl
        rw [List.nil_append] at e
        exact hc (h2 c (by rw [← e]; rfl))
      rw [e, words_word h1 hne h2, List.cons.injEq] at h
      obtain ⟨rfl, h⟩ := h
      exact ⟨[], rest, e, by simp, h2, h⟩

/-! ## tokens of lines with the same words -/

theorem sep_ends {c : Char} (h : isSep c = true) : c.isDigit = false ∧ c ≠ 'e' ∧ c ≠ 'E' ∧ c ≠ '.' := by
  unfold isSep isSpaceC at h
  simp only [Bool.or_eq_true, beq_iff_eq] at h
  rcases h with (((((h | h) | h) | h) | h) | h) | h <;> rw [h] <;> decide

theorem numeral_chars_ne_nil {n : Numeral} (hn : n.Valid) : n.chars ≠ [] := by
  obtain ⟨c, hc, _⟩ := chars_head hn []
  rintro h
  rw [h] at hc
  simp at hc

theorem token_words {l l' : List Char} (h : words l = words l') {x : F} {r : List Char} (ht : Token l x r) :
    ∃ r', Token l' x r' ∧ words r = words r' := by
  obtain ⟨b, n, hb, hn, rfl, he, hv⟩ := ht
  obtain ⟨w, rest, rfl, hw, hrest⟩ := word_split r
  have hns : ∀ c ∈ n.chars ++ w, isSep c = false := by
    intro c hc
    rcases List.mem_append.1 hc with hc | hc
    · exact numeral_chars_not_sep hn hc
    · exact hw c hc
  have hne : n.chars ++ w ≠ [] := by simp [numeral_chars_ne_nil hn]
  rw [words_seps hb, ← List.append_assoc, words_word hns hne hrest] at h
  obtain ⟨b', rest', rfl, hb', hrest', e⟩ := words_cons h.symm
  refine ⟨w ++ rest', ⟨b', n, hb', hn, by simp, ?_, hv⟩, ?_⟩
  · cases w with
    | nil =>
      intro c hc
      have := sep_ends (hrest' c hc)
      exact ⟨this.1, fun _ => ⟨this.2.1, this.2.2.1, fun _ => this.2.2.2⟩⟩
    | cons a w => exact fun c hc => he c hc
  · by_cases hw0 : w = []
    · subst hw0; simpa using e.symm
    · rw [words_word hw hw0 hrest, words_word hw hw0 hrest', e]

theorem tokens_words {l l' : List Char} (h : words l = words l') {v : List F} (ht : Tokens l v) : Tokens l' v := by
  induction ht generalizing l' with
  | stop hn =>
    refine .stop fun x r hr => ?_
    obtain ⟨r', h1, _⟩ := token_words h.symm hr
    exact hn _ _ h1
  | cons h1 _ ih =>
    obtain ⟨r', h2, h3⟩ := token_words h h1
    exact .cons h2 (ih h3)

theorem toks_words {l l' : List Char} (h : words l = words l') :
    toks (F := F) (replaceCommas l) = toks (replaceCommas l') :=
  tokens_unique (tokens_words h (tokens_total l))

/-- a line whose first word does not start like a number has no numbers -/
theorem no_token {b rest : List Char} (hb : ∀ c ∈ b, isSep c = true)
    (hr : ∀ c, rest.head? = some c → isSep c = false ∧ startChar c = false) (x : F) (r : List Char) :
    ¬ Token (b ++ rest) x r := by
  rintro ⟨b', n, hb', hn, he, _⟩
  obtain ⟨c, hc, hs⟩ := chars_head hn r
  have hd : ∀ (b s : List Char), (∀ c ∈ b, isSep c = true) → (b ++ s).dropWhile isSep = s.dropWhile isSep := by
    intro b s hb
    induction b with
    | nil => rfl
    | cons a b ih =>
      rw [List.cons_append, List.dropWhile_cons_of_pos (hb a (by simp)), ih fun c hc => hb c (by simp [hc])]
  have e := congrArg (List.dropWhile isSep) he
  rw [hd _ _ hb, hd _ _ hb'] at e
  have hsep : isSep c = false := by
    unfold isSep
    rw [startChar_not_space hs]
    simp
    rintro rfl
    exact absurd hs (by decide)
  have e1 : ∀ s : List Char, (∀ c, s.head? = some c → isSep c = false) → s.dropWhile isSep = s := by
    intro s h
    cases s with
    | nil => rfl
    | cons a s => rw [List.dropWhile_cons_of_neg (by simp [h a rfl])]
  rw [e1 _ fun c hc => (hr c hc).1, e1 _ (by rw [hc]; rintro _ ⟨⟩; exact hsep)] at e
  have := (hr c (by rw [e, hc])).2
  rw [hs] at this
  simp at this

/-- a comment has no numbers, with or without separators before it -/
theorem comment_words {l l' : List Char} (h : words l = words l') (hc : IsComment l) :
    toks (F := F) (replaceCommas l') = [] := by
  rw [← toks_words h]
  refine (tokens_unique (Tokens.stop fun x r => ?_)).symm
  refine no_token (b := []) (by simp) ?_ x r
  intro c h1
  rw [hc] at h1
  cases h1
  decide

theorem contrib_words {l l' : List Char} (h : words l = words l') : contrib (F := F) [l] = contrib [l'] := by
  have key : ∀ {l l' : List Char}, words l = words l' → IsComment l → contrib (F := F) [l] = contrib [l'] := by
    intro l l' h hc
    rw [contrib_neutral (Or.inl hc), contrib_neutral (Or.inr ?_)]
    rw [← short_iff, comment_words h hc]
    simp
  by_cases hc : IsComment l
  · exact key h hc
  · by_cases hc' : IsComment l'
    · exact (key h.symm hc').symm
    · unfold contrib dataLines
      rw [List.filter_cons_of_pos (by simpa using hc), List.filter_cons_of_pos (by simpa using hc')]
      simp only [List.filter_nil, List.map_cons, List.map_nil, toks_words (F := F) h]

/-- a line with the given words -/
def spaced (ws : List (List Char)) : List Char := (ws.map (' ' :: ·)).flatten

theorem words_word_mem {l w : List Char} (h : w ∈ words l) : w ≠ [] ∧ ∀ c ∈ w, isSep c = false := by
  induction hn : l.length using Nat.strong_induction_on generalizing l with
  | _ n ih =>
    cases l with
    | nil => simp [words] at h
    | cons c s =>
      by_cases hc : isSep c = true
      · rw [words_sep hc] at h
        exact ih s.length (by simp at hn; omega) h rfl
      · obtain ⟨w', rest, e, h1, h2⟩ := word_split (c :: s)
        have hne : w' ≠ [] := by
          rintro rfl
          rw [List.nil_append] at e
          exact hc (h2 c (by rw [← e]; rfl))
        rw [e, words_word h1 hne h2] at h
        rcases List.mem_cons.1 h with rfl | h
        · exact ⟨hne, h1⟩
        · refine ih rest.length ?_ h rfl
          rw [e, List.length_append] at hn
          have := List.length_pos_iff.2 hne
          omega

theorem words_spaced {ws : List (List Char)} (h : ∀ w ∈ ws, w ≠ [] ∧ ∀ c ∈ w, isSep c = false) :
    words (spaced ws) = ws := by
  induction ws with
  | nil => rfl
  | cons w ws ih =>
    have e : spaced (w :: ws) = ' ' :: (w ++ spaced ws) := by simp [spaced]
    rw [e, words_sep (by decide), words_word (h w (by simp)).2 (h w (by simp)).1, ih fun x hx => h x (by simp [hx])]
    intro c hc
    cases ws with
    | nil => simp [spaced] at hc
    | cons w' ws =>
      simp [spaced] at hc
      rw [← hc]; decide

theorem contrib_wordLines (ls : List (List Char)) :
    contrib (F := F) ls = ((wordLines ls).map fun ws => contrib [spaced ws]).flatten := by
  induction ls with
  | nil => rfl
  | cons l ls ih =>
    have e : l :: ls = [l] ++ ls := rfl
    rw [e, contrib_append, ih, contrib_words (words_spaced (fun w => words_word_mem (l := l))).symm]
    unfold wordLines
    rw [List.map_append, List.filter_append, List.map_append, List.flatten_append]
    congr 1
    by_cases hw : words l = []
    · rw [List.map_singleton, hw, List.filter_cons_of_neg (by simp)]
      exact contrib_neutral empty_neutral
    · rw [List.map_singleton, List.filter_cons_of_pos (by simpa using hw)]
      simp

/-! ## C114 -/

/-- **C114**: two files whose lines have the same words, blank lines aside, give the same object (or the same
exception). -/
theorem C114_words (s s' : List Char) (ls ls' : List (List Char)) (hs : IsLines s ls) (hs' : IsLines s' ls')
    (h : wordLines ls = wordLines ls') : mkFile (F := F) (some s) = mkFile (some s') := by
  rw [mkFile_contrib, mkFile_contrib, splitLines_of_isLines hs, splitLines_of_isLines hs', contrib_wordLines, h,
    ← contrib_wordLines]

/-- the text with Windows line endings -/
def windows (s : List Char) : List Char := s.flatMap fun c => if c = '\n' then ['\r', '\n'] else [c]

theorem words_append_sep {c : Char} (hc : isSep c = true) (l : List Char) : words (l ++ [c]) = words l := by
  unfold words
  have := List.splitOnP_append_cons (p := isSep) l [] hc
  rw [this]
  simp

theorem windows_line {l : List Char} (h : '\n' ∉ l) : windows l = l := by
  induction l with
  | nil => rfl
  | cons c l ih =>
    have : c ≠ '\n' := fun e => h (by simp [e])
    unfold windows at *
    rw [List.flatMap_cons, ih fun e => h (by simp [e]), if_neg this]; rfl

theorem windows_append (a b : List Char) : windows (a ++ b) = windows a ++ windows b := by
  unfold windows; rw [List.flatMap_append]

theorem windows_terminated {ls : List (List Char)} (h : ∀ l ∈ ls, '\n' ∉ l) :
    windows (ls.map (· ++ ['\n'])).flatten = ((ls.map (· ++ ['\r'])).map (· ++ ['\n'])).flatten := by
  induction ls with
  | nil => rfl
  | cons l ls ih =>
    simp only [List.map_cons, List.flatten_cons, windows_append]
    rw [ih fun x hx => h x (by simp [hx]), windows_line (h l (by simp))]
    simp [windows]

/-- **C114**: Windows line endings make no difference, in any file, with or without a final line ending. -/
theorem C114_line_endings (s : List Char) : mkFile (F := F) (some (windows s)) = mkFile (some s) := by
  obtain ⟨h1, h2⟩ := isLines_splitLines s
  have hcr : ∀ l : List Char, '\n' ∉ l → '\n' ∉ l ++ ['\r'] := by
    intro l h
    simp only [List.mem_append, List.mem_singleton, not_or]
    exact ⟨h, by decide⟩
  have hw : ∀ ls : List (List Char), (ls.map (· ++ ['\r'])).map words = ls.map words := by
    intro ls
    rw [List.map_map]
    exact List.map_congr_left fun l _ => words_append_sep (by decide) l
  rcases h2 with h2 | ⟨ini, last, e, h2, h3⟩
  · refine C114_words _ _ ((splitLines s).map (· ++ ['\r'])) (splitLines s) ⟨?_, Or.inl ?_⟩ (isLines_splitLines s) ?_
    · intro l hl
      obtain ⟨l', hl', rfl⟩ := List.mem_map.1 hl
      exact hcr _ (h1 l' hl')
    · conv_lhs => rw [h2]
      exact windows_terminated h1
    · unfold wordLines
      rw [hw]
  · rw [e] at h1
    refine C114_words _ _ (ini.map (· ++ ['\r']) ++ [last]) (splitLines s) ⟨?_, Or.inr ⟨_, last, rfl, h2, ?_⟩⟩
      (isLines_splitLines s) ?_
    · intro l hl
      rcases List.mem_append.1 hl with hl | hl
      · obtain ⟨l', hl', rfl⟩ := List.mem_map.1 hl
        exact hcr _ (h1 l' (by simp [hl']))
      · exact h1 l (by simp only [List.mem_append]; exact Or.inr hl)
    · conv_lhs => rw [h3]
      rw [windows_append, windows_terminated fun l hl => h1 l (by simp [hl]), windows_line (h1 last (by simp))]
    · unfold wordLines
      rw [e, List.map_append, List.map_append, hw]

/-! ## C112 -/

/-- a row of a table in which the value may be missing: time and value, or time and the word `w` -/
def missingLine (w : List Char) (r : Decimal × Option Decimal) : List Char :=
  match r.2 with
  | some x => writeLine [r.1, x]
  | none => r.1.numeral.chars ++ ',' :: w

/-- the file of such a table -/
def missingFile (w : List Char) (rows : List (Decimal × Option Decimal)) : List Char :=
  (rows.map fun r => missingLine w r ++ ['\n']).flatten

/-- the decimals denote the numbers `p`, and the same value is missing -/
def Denotes (r : Decimal × Option Decimal) (p : F × Option F) : Prop :=
  ofDec r.1.minus r.1.m r.1.e = some p.1 ∧
    match r.2, p.2 with
    | some d, some x => ofDec d.minus d.m d.e = some x
    | none, none => True
    | _, _ => False

/-- the rows whose value is present -/
def complete (pts : List (F × Option F)) : List (F × F) := pts.filterMap fun p => p.2.map (p.1, ·)

theorem missing_neutral {w : List Char} (hw : ∀ (y : F) r, ¬ Token w y r)
    {d : Decimal} {x : F} (hd : ofDec d.minus d.m d.e = some x) : Neutral F (d.numeral.chars ++ ',' :: w) := by
  right
  rw [← short_iff]
  have h : Tokens (F := F) (d.numeral.chars ++ ',' :: w) [x] := by
    refine .cons (r := ',' :: w) ⟨[], d.numeral, by simp, d.valid, rfl, ?_, by rw [Decimal.value, hd]⟩ ?_
    · intro c hc
      simp only [List.head?_cons, Option.some.injEq] at hc
      subst hc
      exact ⟨by decide, fun _ => ⟨by decide, by decide, fun _ => by decide⟩⟩
    · refine .stop fun y r ht => ?_
      obtain ⟨r', h', _⟩ := token_words (words_sep (by decide) w) ht
      exact hw y r' h'
  rw [← tokens_unique h]
  simp

theorem missingLine_no_newline {w : List Char} (hw : '\n' ∉ w) (r : Decimal × Option Decimal) :
    '\n' ∉ missingLine w r := by
  unfold missingLine
  split
  · exact writeLine_no_newline _
  · simp only [List.mem_append, List.mem_cons, not_or]
    exact ⟨fun h => (chars_mem r.1.valid h).2.2 rfl, by decide, hw⟩

/-- **C112**, what holds: the rows whose value is a word that starts no number (`nan`, `-inf`, `null`, …) are left out, without any
error; the object is that of the complete rows alone, and a file without a complete row is an empty one. -/
theorem C112_left_out_partial (w : List Char) (hn : '\n' ∉ w)
    (hw : ∀ (y : F) r, ¬ Token w y r)
    (rows : List (Decimal × Option Decimal)) (pts : List (F × Option F)) (h : List.Forall₂ Denotes rows pts) :
    mkFile (some (missingFile w rows)) = mkFlat ((complete pts).map Prod.fst) ((complete pts).map Prod.snd) := by
  have hl : IsLines (missingFile w rows) (rows.map (missingLine w)) := by
    refine ⟨?_, Or.inl ?_⟩
    · intro l hl
      obtain ⟨r, _, rfl⟩ := List.mem_map.1 hl
      exact missingLine_no_newline hn r
    · unfold missingFile; rw [List.map_map]; rfl
  let kept : List (Decimal × Decimal) := rows.filterMap fun r => r.2.map (r.1, ·)
  have hk : IsLines (writeFile (kept.map fun r => [r.1, r.2])) (kept.map fun r => writeLine [r.1, r.2]) := by
    refine ⟨?_, Or.inl ?_⟩
    · intro l hl
      obtain ⟨r, _, rfl⟩ := List.mem_map.1 hl
      exact writeLine_no_newline _
    · unfold writeFile; rw [List.map_map, List.map_map]; rfl
  have hp : List.Forall₂ (fun (r : Decimal × Decimal) (p : F × F) =>
      ofDec r.1.minus r.1.m r.1.e = some p.1 ∧ ofDec r.2.minus r.2.m r.2.e = some p.2) kept (complete pts) := by
    show List.Forall₂ _ (rows.filterMap fun r => r.2.map (r.1, ·)) _
    unfold complete
    clear hl hk
    clear kept
    induction h with
    | nil => exact .nil
    | cons h1 _ ih =>
      rename_i r p _ _ _
      obtain ⟨d, o⟩ := r
      obtain ⟨x, y⟩ := p
      unfold Denotes at h1
      cases o <;> cases y <;> simp at h1 ⊢
      · exact ih
      · exact ⟨h1, ih⟩
  rw [← C10_every_table kept (complete pts) hp, mkFile_contrib, mkFile_contrib, splitLines_of_isLines hl,
    splitLines_of_isLines hk]
  congr 1
  show contrib (rows.map (missingLine w)) = contrib ((rows.filterMap fun r => r.2.map (r.1, ·)).map _)
  clear hl hk hp
  clear kept
  induction h with
  | nil => rfl
  | cons h1 _ ih =>
    rename_i r p rows _ _
    have e : ∀ (l : List Char) (ls : List (List Char)), contrib (F := F) (l :: ls) = contrib [l] ++ contrib ls :=
      fun l ls => contrib_append [l] ls
    rw [List.map_cons, e, ih]
    obtain ⟨d, o⟩ := r
    cases o with
    | none =>
      rw [List.filterMap_cons_none rfl]
      have : contrib (F := F) [missingLine w (d, none)] = [] := contrib_neutral (missing_neutral hw h1.1)
      rw [this, List.nil_append]
    | some v =>
      have e2 : (((d, some v) :: rows).filterMap fun r : Decimal × Option Decimal => r.2.map (r.1, ·)) =
          (d, v) :: rows.filterMap fun r => r.2.map (r.1, ·) := rfl
      rw [e2, List.map_cons, e (writeLine [d, v])]
      rfl

/-- **C112 is false of the code**: the row `1,nan` gives no sample, while a NaN in a list is a sample. -/
theorem C112_false :
    ((mkFile (some "0,1\n1,nan\n2,4\n".toList) : Res (DS Q)).bind fun d => .ok d.timeseries) = .ok (q [0, 2]) ∧
    ((mkFlat (q [0, 1, 2]) [.fin 1, .nan, .fin 4] : Res (DS Q)).bind fun d => .ok d.timeseries) = .ok (q [0, 1, 2]) := by
  decide +kernel

/-! ## C113 -/

/-- a row with time and error, and an empty field for the value -/
def emptyLine (r : Decimal × Decimal) : List Char := r.1.numeral.chars ++ ',' :: ',' :: r.2.numeral.chars

theorem words_double (a b : List Char) (c c' : Char) (hc : isSep c = true) (hc' : isSep c' = true) :
    words (a ++ c :: c' :: b) = words (a ++ c :: b) := by
  unfold words
  have h1 := List.splitOnP_append_cons (p := isSep) a (c' :: b) hc
  have h2 := List.splitOnP_append_cons (p := isSep) a b hc
  have h3 := words_sep hc' b
  unfold words at h3
  rw [h1, h2, List.filter_append, List.filter_append, h3]

/-- **C113**, what holds: an empty field is no field.  In any line of any file, a separator beside another one can be
left out. -/
theorem C113_empty_field_partial (pre post a b : List Char) (c c' : Char) (hc : isSep c = true) (hc' : isSep c' = true)
    (hn : c ≠ '\n') (hn' : c' ≠ '\n') (ha : '\n' ∉ a) (hb : '\n' ∉ b) :
    mkFile (F := F) (some (pre ++ '\n' :: (a ++ c :: c' :: b ++ '\n' :: post))) =
      mkFile (some (pre ++ '\n' :: (a ++ c :: b ++ '\n' :: post))) := by
  have line : ∀ l : List Char, '\n' ∉ l → l ≠ [] → contrib (F := F) (splitLines l) = contrib [l] := by
    intro l h hne
    rw [splitLines_last h hne]
  rw [mkFile_contrib, mkFile_contrib, contrib_newline, contrib_newline, contrib_newline, contrib_newline,
    line (a ++ c :: c' :: b) (by simp [ha, hb, hn.symm, hn'.symm]) (by simp),
    line (a ++ c :: b) (by simp [ha, hb, hn.symm]) (by simp), contrib_words (words_double a b c c' hc hc')]

/-- **C113**, the consequence: in a file of times and errors whose values are empty fields, the errors are taken for
the values. -/
theorem C113_shifted_partial (rows : List (Decimal × Decimal)) (pts : List (F × F))
    (h : List.Forall₂ (fun r p => ofDec r.1.minus r.1.m r.1.e = some p.1 ∧ ofDec r.2.minus r.2.m r.2.e = some p.2)
      rows pts) :
    mkFile (some (rows.map fun r => emptyLine r ++ ['\n']).flatten) = mkFlat (pts.map Prod.fst) (pts.map Prod.snd) := by
  rw [← C10_every_table rows pts h]
  refine C114_words _ _ (rows.map emptyLine) (rows.map fun r => writeLine [r.1, r.2]) ⟨?_, Or.inl ?_⟩ ⟨?_, Or.inl ?_⟩ ?_
  · intro l hl
    obtain ⟨r, _, rfl⟩ := List.mem_map.1 hl
    simp only [emptyLine, List.mem_append, List.mem_cons, not_or]
    exact ⟨fun h => (chars_mem r.1.valid h).2.2 rfl, by decide, by decide, fun h => (chars_mem r.2.valid h).2.2 rfl⟩
  · rw [List.map_map]; rfl
  · intro l hl
    obtain ⟨r, _, rfl⟩ := List.mem_map.1 hl
    exact writeLine_no_newline _
  · unfold writeFile; rw [List.map_map, List.map_map]; rfl
  · unfold wordLines
    rw [List.map_map, List.map_map]
    congr 1
    exact List.map_congr_left fun r _ => words_double _ _ ',' ',' (by decide) (by decide)

/-- **C113 is false of the code**: in the row `1,,7` the error 7 becomes the value, and the object has no errors for it. -/
theorem C113_false :
    ((mkFile (some "0,1,5\n1,,7\n2,4,6\n".toList) : Res (DS Q)).bind fun d => d.data2d) = .ok [q [1, 7, 4]] ∧
    ((mkFile (some "0,1,5\n1,,7\n2,4,6\n".toList) : Res (DS Q)).bind fun d => d.err2d) = .ub ∧
    ((mkFile (some "0,,5\n1,,7\n".toList) : Res (DS Q)).bind fun d => d.data2d) = .ok [q [5, 7]] := by
  decide +kernel

end Sacf
