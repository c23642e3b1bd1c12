import Verif.Proofs.LexerEnd
/-!
# C87, C88: the lexer of the schema compiler

Specification: Spec/Lexer (the lexical items of X.680 clause 12).
-/
namespace FastBer.Props
open FastBer Lexer Lexer.Spec Names Names.Spec

/-- **C87.** A file that consists of lexical items, white space and comments is read as these items, in this order. -/
theorem C87_lex {ts : List Tok} {file : Bytes} (h : Text ts file) : lex file = .ok (some ts) := lex_text h

/-- **C87.** There is only one way to read such a file. -/
theorem C87_unique {ts us : List Tok} {file : Bytes} (h1 : Text ts file) (h2 : Text us file) : ts = us := by
  have := (lex_text h1).symm.trans (lex_text h2)
  simpa using this

/-- **C87.** Blanks between items change nothing: a file with the same items gives the same tokens. -/
theorem C87_layout {ts : List Tok} {f g : Bytes} (h1 : Text ts f) (h2 : Text ts g) : lex f = lex g :=
  (lex_text h1).trans (lex_text h2).symm

theorem lex_skip {x : Bytes} (h : ∀ r, r ≠ [] → Reads .skip x r) (t : Bytes) : lex (x ++ t) = lex t := by
  rw [lex_eq, lex_eq, List.append_assoc]
  exact lexAll_skip (h _ (by simp))

/-- A string up to the first apostrophe. -/
theorem reads_apostrophe {s r : Bytes} (hs : ∀ b ∈ s, b ≠ 0x22 ∧ b ≠ 0x27 ∧ b ≠ 0x5C) : Reads .cstring (0x22 :: (s ++ [0x27])) r := by
  have peel : ∀ (s t : Bytes), (∀ b ∈ s, b ≠ 0x22 ∧ b ≠ 0x27 ∧ b ≠ 0x5C) → (rxStringEnd.Lang (s ++ 0x27 :: t) ↔ t = []) := by
    intro s t hs
    induction s with
    | nil => exact stringEnd_apostrophe
    | cons c s ih =>
      obtain ⟨h1, h2, h3⟩ := hs c (by simp)
      rw [List.cons_append, stringEnd_plain h1 h2 h3]
      exact ih fun b hb => hs b (by simp [hb])
  refine reads_item (l := [98, 127]) (u := []) (v := r) rfl (by decide +kernel) rule_98 (string_iff.mpr ⟨rfl, (peel s [] hs).mpr rfl⟩) ?_ ?_
  · intro j hj hlt
    simp at hj; omega
  · intro j hj
    simp only [List.mem_cons, List.not_mem_nil, or_false] at hj
    rcases hj with rfl | rfl
    · refine only_rule rule_98 ?_
      intro w hw hp hl
      have h1 := (string_iff.mp hl).2
      rw [List.append_assoc, List.cons_append, List.nil_append, peel s w hs] at h1
      exact hw h1
    · exact any_rule

/-- **C87, violated.** An apostrophe ends a string: `"it's"` is read as the string `"it'`, and the rest as other items. -/
theorem C87_violated_apostrophe {s : Bytes} (hs : ∀ b ∈ s, b ≠ 0x22 ∧ b ≠ 0x27 ∧ b ≠ 0x5C) (t : Bytes) :
    lex (0x22 :: (s ++ [0x27]) ++ t) = (do let ts ← lex t; .ok (ts.map (Tok.cstring (0x22 :: (s ++ [0x27])) :: ·))) := by
  rw [lex_eq, lex_eq, List.append_assoc]
  exact lexAll_token (reads_apostrophe hs) rfl

/-- **C87, violated.** Comments do not nest (X.680 12.6.4): the first `*/` ends the comment, and what follows is read as items. -/
theorem C87_violated_nested {s : Bytes} (h : ¬ Occurs [0x2A, 0x2F] s) (t : Bytes) :
    lex ((0x2F :: 0x2A :: (s ++ [0x2A, 0x2F])) ++ t) = lex t := lex_skip (fun _ _ => reads_block h) t

example : lex (bytes "/* a /* b */ C */ ") = .ok (some [.upper ['C']]) := by decide +kernel

/-- **C87, violated.** Vertical tab and form feed do not end a comment (X.680 12.1.6, 12.6.3). -/
theorem C87_violated_newline {s : Bytes} (h1 : ∀ b ∈ s, b ≠ 13 ∧ b ≠ 10) (h2 : ¬ Occurs [0x2D, 0x2D] s) (t : Bytes) :
    lex ((0x2D :: 0x2D :: s) ++ 10 :: t) = lex t := by
  rw [lex_eq, lex_eq, List.append_assoc]
  rw [List.cons_append (as := t), lexAll_skip (reads_line h1 h2 (.inl rfl))]
  exact lexAll_skip (x := [10]) reads_lf

example : lex (bytes "-- a\x0bB ::= NULL\n") = .ok (some []) := by decide +kernel

/-- **C87, violated.** Characters that start no item are ignored; the user gets a message on `std::cerr`, and the compiler goes on. -/
theorem C87_violated_ignored {b : UInt8} (hb : b ∈ bytes "#$%*+=>?\\_`~" ∨ 128 ≤ b.toNat) (t : Bytes) : lex (b :: t) = lex t := by
  have key : ∀ b : UInt8, b ∈ bytes "#$%*+=>?\\_`~" ∨ 128 ≤ b.toNat → Among [127] b = true ∧ b ≠ 0x0A := by
    exact forall_byte (by decide +kernel)
  obtain ⟨h1, h2⟩ := key b hb
  refine lex_skip (x := [b]) (fun r _ => ?_) t
  refine reads_item (u := []) (v := r) rfl h1 rule_127 (.cls (by simpa using h2)) ?_ ?_
  · intro j hj hlt
    simp at hj; omega
  · intro j hj
    simp only [List.mem_cons, List.not_mem_nil, or_false] at hj
    subst hj
    exact any_rule

/-- **C87, violated.** Three reserved words are read as names: the rules have an underscore for the hyphen. -/
theorem C87_violated_misspelt : ∀ k ∈ misspelt, k ∈ reservedWords ∧ lex (bytes k) = .ok (some [.upper (santizeName k.toList)]) := by
  decide +kernel

/-- **C87, violated.** White space in a binary or hexadecimal string makes it a cstring and a name (X.680 12.10, 12.12 allow it). -/
theorem C87_violated_spaced : lex (bytes "'01 10'B") = .ok (some [.cstring (bytes "'01 10'"), .upper ['B']]) := by decide +kernel

/-- **C87, violated.** The exponent of a real number is read as a name (X.680 12.9). -/
theorem C87_violated_exponent : lex (bytes "1.5E3") = .ok (some [.real (bytes "1.5"), .upper ['E', '3']]) := by decide +kernel

/-- **C87, violated.** A number of 2^63 or more ends the compiler with an exception. -/
theorem C87_violated_number {s : Bytes} (h1 : FastBer.Spec.Digits s) (h2 : 2 ^ 63 ≤ FastBer.Spec.decimal s) : lex s = .ok none := by
  have hne : s ≠ [] := by
    rintro rfl
    simp [FastBer.Spec.decimal] at h2
  have h3 : Reads .number s [0] := by
    refine reads_number hne (digits_decDigit h1) ⟨[], rfl⟩ ?_ ?_
    · intro b t h
      simp only [List.cons.injEq] at h
      rw [← h.1]; unfold Digit; decide
    · intro t h
      simp at h
  have h4 : token .number s = none := by
    rw [token, stoll]
    simp only [atoi_acc, Nat.zero_mul, Nat.zero_add]
    rw [if_neg (by simp), if_neg (by omega)]
    rfl
  rw [lex_eq, lexAll_eq, h3]
  simp only [Exec.ok_bind, h4]

/-- **C88.** The lexer terminates on every file. -/
theorem C88_terminates (file : Bytes) : lex file ≠ .loop := lex_not_loop file

/-- **C88.** The lexer reads behind the NUL that ends the file only if the file ends within a comment or a string. -/
theorem C88_bounds {file : Bytes} (h : lex file = .ub) : ∃ p x, file = p ++ x ∧ Unterminated x := by
  rw [lex_eq] at h
  exact lexAll_ub _ file (Nat.le_refl _) h

/-- **C88.** Files that end with a line and have neither strings nor `/*` are read within bounds, whatever else is in them. -/
theorem C88_safe {s : Bytes} (h1 : ∀ b ∈ s, b ≠ 0x22 ∧ b ≠ 0x27) (h2 : ¬ Occurs [0x2F, 0x2A] (s ++ [10])) :
    ∃ res, lex (s ++ [10]) = .ok res := by
  cases h : lex (s ++ [10]) with
  | ok res => exact ⟨res, rfl⟩
  | loop => exact (lex_not_loop _ h).elim
  | ub =>
    obtain ⟨p, x, h3, h4⟩ := C88_bounds h
    cases h4 with
    | @line y h5 h6 =>
      exfalso
      have h3 : s ++ [10] = (p ++ [0x2D, 0x2D]) ++ y := by rw [h3]; simp
      rcases List.eq_nil_or_concat y with rfl | ⟨y, c, rfl⟩
      · have h3 : s ++ [10] = (p ++ [0x2D]) ++ [0x2D] := by rw [h3]; simp
        have := (List.append_inj' h3 rfl).2
        simp at this
      · have h3 : s ++ [10] = (p ++ [0x2D, 0x2D] ++ y) ++ [c] := by rw [h3]; simp
        have := (List.append_inj' h3 rfl).2
        simp only [List.cons.injEq, and_true] at this
        subst this
        exact (h5 10 (by simp)).2 rfl
    | @block y h5 => exact (h2 ⟨p, y, by rw [h3]; simp⟩).elim
    | @string q y h5 h6 =>
      exfalso
      have hm : q ∈ s ++ [10] := by rw [h3]; simp
      rcases List.mem_append.mp hm with hm | hm
      · rcases h5 with rfl | rfl
        · exact (h1 _ hm).1 rfl
        · exact (h1 _ hm).2 rfl
      · simp only [List.mem_singleton] at hm
        rcases h5 with rfl | rfl <;> cases hm

/-- **C88.** Files of lexical items are read within bounds. -/
theorem C88_text {ts : List Tok} {file : Bytes} (h : Text ts file) : ∃ res, lex file = .ok res := ⟨_, lex_text h⟩

/-- **C88, violated.** A file whose last line is a comment without an end of line, or that ends within a comment or a string, makes the
lexer read behind the end of the buffer. -/
theorem C88_violated_unterminated {ts : List Tok} {s x : Bytes} (h : Text ts s) (hx : Unterminated x) : lex (s ++ 10 :: x) = .ub := by
  have hs : Sealed (10 :: (x ++ [0])) := ⟨10 :: x, rfl⟩
  rw [lex_eq, List.append_assoc, List.cons_append, lexAll_text h (.inr rfl) hs]
  have h1 : lexAll ([10] ++ (x ++ [0])) = lexAll (x ++ [0]) := lexAll_skip reads_lf
  have h2 : lexAll (10 :: (x ++ [0])) = .ub := h1.trans (lexAll_stop hx)
  rw [h2]; rfl

/-- **C88, violated.** A backslash before the closing quotation mark, an ordinary character in X.680, hides the mark: without another
quotation mark the lexer reads behind the end. -/
theorem C88_violated_backslash {s t : Bytes} (hs : ∀ b ∈ s ++ t, b ≠ 0x22 ∧ b ≠ 0x27) : lex (0x22 :: (s ++ 0x5C :: 0x22 :: t)) = .ub := by
  have plain : ∀ t : Bytes, (∀ b ∈ t, b ≠ 0x22 ∧ b ≠ 0x27) → OpenString t := by
    intro t ht
    induction t with
    | nil => exact .nil
    | cons c t ih => exact .char (ht c (by simp)).1 (ht c (by simp)).2 (ih fun b hb => ht b (by simp [hb]))
  have h : OpenString (s ++ 0x5C :: 0x22 :: t) := by
    induction s with
    | nil => exact .escape (by decide) (plain t hs)
    | cons c s ih => exact .char (hs c (by simp)).1 (hs c (by simp)).2 (ih fun b hb => hs b (by simp at hb ⊢; right; exact hb))
  rw [lex_eq]
  exact lexAll_stop (Unterminated.string (.inl rfl) h)

/-! ## An instance -/

theorem ends_space {r : Bytes} : WordEnds (0x20 :: r) := by
  refine ⟨?_, ?_⟩
  · intro b s h
    simp only [List.cons.injEq] at h
    rw [← h.1]; unfold Word; decide
  · intro s h; simp at h

theorem space_text {ts : List Tok} {s : Bytes} (h : Text ts s) : Text ts (0x20 :: s) := .blank (b := [0x20]) (.space (.inr rfl)) h

theorem oneLetter {c : Char} (h : letter c) : AsnName [c] where
  start := ⟨c, [], rfl, h⟩
  chars := by intro d hd; rw [List.mem_singleton.mp hd]; exact .inl h
  last := by
    intro he
    simp only [List.getLast?_singleton, Option.some.injEq] at he
    subst he
    rcases h with h | h <;> exact absurd h (by decide)
  twice := by
    intro p q he
    have := congrArg List.length he
    simp at this; omega

theorem notNext_head {P : UInt8 → Prop} {r : Bytes} {c : UInt8} (h : r.head? = some c) (hp : ¬ P c) : NotNext P r := by
  rintro b s rfl
  simp only [List.head?_cons, Option.some.injEq] at h
  rw [h]; exact hp

theorem simpleEnds {k : String} {r : Bytes} (hk : k ∈ itemSymbols) (h : k ≠ ":" ∧ k ≠ "." ∧ k ≠ ".." ∧ k ≠ "-") : Ends (.sym k) r := by
  rw [Ends, if_pos hk]
  exact ⟨fun e => (h.1 e).elim, fun e => (e.elim h.2.1 h.2.2.1).elim, fun e => (h.2.2.2 e).elim⟩

/-- `A ::= INTEGER (1..5) -- ok` -/
theorem lexedText : Text [.upper ['A'], .sym "::=", .sym "INTEGER", .sym "(", .number 1, .sym "..", .number 5, .sym ")"]
    (bytes "A ::= INTEGER (1..5) -- ok\n") := by
  have hA : Item (.upper (santizeName ['A'])) (nameText ['A']) :=
    .typeReference (oneLetter (.inl (by decide))) ⟨'A', [], rfl, by decide, by decide⟩ (by decide +kernel)
  have end1 : Text [] (bytes "-- ok\n") :=
    .blank (b := bytes "-- ok\n") (s := [])
      (.line (s := bytes " ok") (nl := 10) (by decide) (by
        rintro ⟨a, b, h⟩
        have : (0x2D : UInt8) ∈ bytes " ok" := by rw [h]; simp
        exact absurd this (by decide)) (.inl rfl)) .nil
  have e2 : Text [.sym ")"] (bytes ") -- ok\n") :=
    .item (x := bytes ")") (s := bytes " -- ok\n") (.symbol (k := ")") (by decide)) (simpleEnds (by decide) (by decide)) (space_text end1)
  have e3 : Text [.number 5, .sym ")"] (bytes "5) -- ok\n") :=
    .item (t := .number ((FastBer.Spec.decimal [0x35] : Nat) : Int)) (x := [0x35]) (s := bytes ") -- ok\n")
      (.number (by unfold FastBer.Spec.Digits; decide) (by simp) (by decide)) ⟨notNext_head (c := 0x29) (by decide) (by unfold Digit; decide), by
        intro s h
        have : (bytes ") -- ok\n").head? = some 0x2E := by rw [h]; rfl
        exact absurd this (by decide)⟩ e2
  have e4 : Text [.sym "..", .number 5, .sym ")"] (bytes "..5) -- ok\n") :=
    .item (x := bytes "..") (s := bytes "5) -- ok\n") (.symbol (k := "..") (by decide)) (by
      rw [Ends, if_pos (by decide)]
      exact ⟨fun e => absurd e (by decide), fun _ => notNext_head (c := 0x35) (by decide) (by decide), fun e => absurd e (by decide)⟩) e3
  have e5 : Text [.number 1, .sym "..", .number 5, .sym ")"] (bytes "1..5) -- ok\n") :=
    .item (t := .number ((FastBer.Spec.decimal [0x31] : Nat) : Int)) (x := [0x31]) (s := bytes "..5) -- ok\n")
      (.number (by unfold FastBer.Spec.Digits; decide) (by simp) (by decide)) ⟨notNext_head (c := 0x2E) (by decide) (by unfold Digit; decide), by
        intro s h
        have : s = (bytes "..5) -- ok\n").tail := by rw [h]; rfl
        rw [this]
        exact notNext_head (c := 0x2E) (by decide) (by unfold Digit; decide)⟩ e4
  have e6 : Text [.sym "(", .number 1, .sym "..", .number 5, .sym ")"] (bytes "(1..5) -- ok\n") :=
    .item (x := bytes "(") (s := bytes "1..5) -- ok\n") (.symbol (k := "(") (by decide)) (simpleEnds (by decide) (by decide)) e5
  have e7 : Text [.sym "INTEGER", .sym "(", .number 1, .sym "..", .number 5, .sym ")"] (bytes "INTEGER (1..5) -- ok\n") :=
    .item (x := bytes "INTEGER") (s := bytes " (1..5) -- ok\n") (.word (k := "INTEGER") (by decide) (by decide)) (by
      rw [Ends, if_neg (by decide)]; exact ends_space) (space_text e6)
  have e8 : Text [.sym "::=", .sym "INTEGER", .sym "(", .number 1, .sym "..", .number 5, .sym ")"] (bytes "::= INTEGER (1..5) -- ok\n") :=
    .item (x := bytes "::=") (s := bytes " INTEGER (1..5) -- ok\n") (.symbol (k := "::=") (by decide)) (simpleEnds (by decide) (by decide)) (space_text e7)
  exact .item (x := bytes "A") (s := bytes " ::= INTEGER (1..5) -- ok\n") hA ends_space (space_text e8)

example : lex (bytes "A ::= INTEGER (1..5) -- ok\n") =
    .ok (some [.upper ['A'], .sym "::=", .sym "INTEGER", .sym "(", .number 1, .sym "..", .number 5, .sym ")"]) := C87_lex lexedText

/-- The same file without the end of the last line. -/
example : lex (bytes "A ::= INTEGER\n-- ok") = .ub := by decide +kernel

example : lex (bytes "\"it's\" A \"") = .ok (some [.cstring (bytes "\"it'"), .lower ['s'], .cstring (bytes "\" A \"")]) := by decide +kernel

end FastBer.Props
