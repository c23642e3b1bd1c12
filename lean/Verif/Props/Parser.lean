import Verif.Proofs.Notation
import Verif.Proofs.AstEq
import Verif.Proofs.Lexer
import Verif.Model.CompileText
import Verif.Props.Lexer
import Verif.Props.EndToEnd
/-!
# C92-C94, C96: the parser
-/
namespace FastBer.Props
open FastBer Ast Lexer Lexer.Spec Notation Parser

/-! ## C92: notation is read as what it means -/

/-- **C92.** The parser accepts a file in ASN.1 notation and adds its modules to those read before, as the notation means them.  The assignments of a module, whose order has no
meaning, are kept in reverse. -/
theorem C92_parse {stod : Bytes → UInt64} {ts : List Tok} {ms : List Module} (h : FileN stod ts ms) (st : St) :
    parse stod ts st = .ok (some { st with modules := st.modules ++ ms.map fun m => { m with assignments := m.assignments.reverse } }) :=
  parse_of_derives (read_file h st)

theorem map_inj {α β : Type} {f : α → β} (hf : ∀ a b, f a = f b → a = b) : ∀ {l l' : List α}, l.map f = l'.map f → l = l'
  | [], [], _ => rfl
  | [], _ :: _, h => by simp at h
  | _ :: _, [], h => by simp at h
  | a :: l, b :: l', h => by
    simp only [List.map_cons, List.cons.injEq] at h
    rw [hf a b h.1, map_inj hf h.2]

/-- **C92.** Notation has one meaning only. -/
theorem C92_unique {stod : Bytes → UInt64} {ts : List Tok} {ms ms' : List Module} (h : FileN stod ts ms) (h' : FileN stod ts ms') : ms = ms' := by
  have := (C92_parse h ⟨[], 0⟩).symm.trans (C92_parse h' ⟨[], 0⟩)
  simp only [Exec.ok.injEq, Option.some.injEq, St.mk.injEq, List.nil_append, and_true] at this
  refine map_inj (fun m m' e => ?_) this
  obtain ⟨a, b, c, d⟩ := m
  obtain ⟨a', b', c', d'⟩ := m'
  simpa using e

/-- Files and the modules written in them. -/
inductive Written (stod : Bytes → UInt64) : List Bytes → List Module → Prop
  | nil : Written stod [] []
  | cons {file : Bytes} {files : List Bytes} {ts : List Tok} {ms ms' : List Module} : Text ts file → FileN stod ts ms → Written stod files ms' →
      Written stod (file :: files) (ms ++ ms')

/-- **C92.** So are files: their bytes are read as the modules written in them, file after file. -/
theorem C92_files {stod : Bytes → UInt64} {files : List Bytes} {ms : List Module} (h : Written stod files ms) : ∀ st : St,
    parseFiles stod files st = .ok (some { st with modules := st.modules ++ ms.map fun m => { m with assignments := m.assignments.reverse } }) := by
  induction h with
  | nil => intro st; simp [parseFiles]
  | @cons file files ts ms ms' ht hf _ ih =>
    intro st
    have h1 : parseFile stod file st = .ok (some { st with modules := st.modules ++ ms.map fun m => { m with assignments := m.assignments.reverse } }) := by
      unfold parseFile
      rw [lex_text ht]
      exact C92_parse hf st
    unfold parseFiles
    rw [h1]
    refine (ih _).trans ?_
    simp

/-- **C92 (ENUMERATED).** The items of an enumeration are read in order with the numbers given for them, root items before additional ones.  The syntax tree of Model/Ast does not
keep them: this is the value of the symbol `EnumeratedType`, which the parser stores in the type. -/
theorem C92_enumerated {stod : Bytes → UInt64} {w : List Tok} {es es' : List (Name × Option Int)} (h : EnumN w es es') (st : St) :
    ∃ ext, Derives stod Sym.EnumeratedType (kw "ENUMERATED" :: kw "{" :: (w ++ [kw "}"])) st (.enums (es ++ es') ext) st := by
  obtain ⟨ext, h⟩ := read_enum (stod := stod) h
  exact ⟨ext, h st⟩

/-! ### Examples -/

/-- `a (0..255) OPTIONAL` and the like -/
theorem byte_range {stod : Bytes → UInt64} : ConstraintN stod [kw "(", .number 0, kw "..", .number 255, kw ")"] :=
  .subtype (w := [.number 0, kw "..", .number 255]) (.root (.weaker (.weaker (.weaker (.weaker (.range (w := [.number 0]) (w' := [.number 255])
    (.value (.int (.number 0))) (.value (.int (.number 255)))) (by decide)) (by decide)) (by decide)) (by decide)))

/-- ```
M DEFINITIONS AUTOMATIC TAGS ::= BEGIN
IMPORTS C FROM N;
S ::= SEQUENCE { a INTEGER (0..255) OPTIONAL, b [5] C DEFAULT 7, ... }
L ::= SEQUENCE SIZE (0..255) OF CHOICE { a S }
END
``` -/
theorem notation_sample {stod : Bytes → UInt64} : FileN stod
    ([.upper ['M'], kw "DEFINITIONS", kw "AUTOMATIC", kw "TAGS", kw "::=", kw "BEGIN", kw "IMPORTS", .upper ['C'], kw "FROM", .upper ['N'], kw ";",
      .upper ['S'], kw "::=", kw "SEQUENCE", kw "{", .lower ['a'], kw "INTEGER", kw "(", .number 0, kw "..", .number 255, kw ")", kw "OPTIONAL", kw ",",
      .lower ['b'], kw "[", .number (5 : Nat), kw "]", .upper ['C'], kw "DEFAULT", .number 7, kw ",", kw "...", kw "}",
      .upper ['L'], kw "::=", kw "SEQUENCE", kw "SIZE", kw "(", .number 0, kw "..", .number 255, kw ")", kw "OF", kw "CHOICE", kw "{", .lower ['a'], .upper ['S'],
      kw "}", kw "END"])
    [⟨nm ['M'], .automatic, [⟨nm ['N'], [nm ['C']], []⟩], [
      { name := nm ['S'], body := .type (.sequence [optional (nm ['a']) (.leaf .integer),
        default (nm ['b']) (.prefixed .contextSpecific 5 .automatic (.defined none (nm ['C']) [])) (.int 7)] true) },
      { name := nm ['L'], body := .type (.seqOf none (.choice [.mk (nm ['a']) (.defined none (nm ['S']) [])] .static_) .smallBuffer) }]⟩] := by
  have hint : TypeN stod true ([kw "INTEGER"] ++ [kw "(", .number 0, kw "..", .number 255, kw ")"]) (.leaf .integer) :=
    .constrained (.simple (ks := ["INTEGER"]) (by simp [simpleTypes])) byte_range
  have ha := ComponentN.optional ['a'] hint
  have hb := ComponentN.default ['b'] (.tagged 5 .context (by decide) .default (.reference (real := stod) ['C'])) (.int (.number 7))
  have hs := TypeN.sequence (.extensible (.more (.one ha) hb))
  have hl := TypeN.sequenceOf (.size byte_range) (.plain (.choice (.one ['a'] (.reference (real := stod) ['S']))))
  exact .one (.full (e := []) (o := []) ['M'] .nothing .automatic .nothing
    (.some_ (.one (.mk ['N'] (.one (.type 'C' [] (by decide) (by decide))) .nothing))) (.more (.type ['S'] hs) (.one (.type ['L'] hl))))

/-! ### Notation that is read as something else -/

theorem parse_type {stod : Bytes → UInt64} {w : List Tok} {t : AType} (h : D stod Sym.Type_ w (.type t)) (m n : List Char) (st : St) :
    parse stod (.upper m :: kw "DEFINITIONS" :: kw "::=" :: kw "BEGIN" :: (.upper n :: kw "::=" :: w ++ [kw "END"])) st =
      .ok (some { st with modules := st.modules ++ [⟨nm m, .explicit_, [], [{ name := nm n, body := .type t }]⟩] }) := by
  have h1 := by_ModuleBody_1 by_Exports_3 by_Imports_2 (by_AssignmentList_1 (by_Assignment_1 (by_TypeAssignment_1 (read_type_ref n) h)))
  have h2 := derives_module m by_DefinitiveIdentification_1 by_TagDefault_4 h1 st
  have h3 := DerivesAll.cons h2 (.nil _)
  rw [List.append_nil] at h3
  have h4 : Derives stod Sym.ModuleDefinitionList _ st .none _ := .rule (i := 1) (by decide) rfl h3 rfl
  exact parse_of_derives h4

/-- **C92, violated.** A tag number given by a reference becomes 0 (X.680 31.2.1: it is the value referred to). -/
theorem C92_violated_tag_reference {stod : Bytes → UInt64} {w : List Tok} {b : Bool} {t : AType} (h : TypeN stod b w t) (r m n : List Char) (st : St) :
    parse stod (.upper m :: kw "DEFINITIONS" :: kw "::=" :: kw "BEGIN" :: (.upper n :: kw "::=" :: (kw "[" :: .lower r :: kw "]" :: w) ++ [kw "END"])) st =
      .ok (some { st with modules := st.modules ++ [⟨nm m, .explicit_, [], [{ name := nm n, body := .type (.prefixed .contextSpecific 0 .automatic t) }]⟩] }) :=
  parse_type (w := kw "[" :: .lower r :: kw "]" :: w) (by_Type_3 (by_BuiltinType_open_3 (by_PrefixedType_1 (by_TaggedType_1 (by_Tag_1 by_EncodingReference_1 by_Class_4 (by_ClassNumber_2 (read_defined r)))
    (read_type h).1)))) m n st

/-- **C92, violated.** The upper bits of a tag number are lost: `[4294967296 + i]` is read as `[i]`. -/
theorem C92_violated_tag_number {stod : Bytes → UInt64} {w : List Tok} {b : Bool} {t : AType} (h : TypeN stod b w t) {i : Nat} (hi : i < 2 ^ 31) (m n : List Char) (st : St) :
    parse stod (.upper m :: kw "DEFINITIONS" :: kw "::=" :: kw "BEGIN" :: (.upper n :: kw "::=" :: (kw "[" :: .number (4294967296 + i) :: kw "]" :: w) ++ [kw "END"])) st =
      .ok (some { st with modules := st.modules ++ [⟨nm m, .explicit_, [], [{ name := nm n, body := .type (.prefixed .contextSpecific i .automatic t) }]⟩] }) := by
  have h1 := by_Tag_1 (stod := stod) by_EncodingReference_1 by_Class_4 (by_ClassNumber_1 (4294967296 + i))
  have e : wrap32 (Val.int (4294967296 + i)).asInt = i := by
    show wrap32 (4294967296 + i) = i
    unfold wrap32
    omega
  rw [e] at h1
  exact parse_type (w := kw "[" :: .number (4294967296 + i) :: kw "]" :: w) (by_Type_3 (by_BuiltinType_open_3 (by_PrefixedType_1 (by_TaggedType_1 h1 (read_type h).1)))) m n st

/-- Alternatives and components for the next two theorems. -/
theorem read_alternatives {stod : Bytes → UInt64} {w : List Tok} {as : List Named} (h : AlternativesN stod w as) : D stod Sym.AlternativeTypeList w (.nameds as) := by
  refine AlternativesN.rec
    (motive_1 := fun _ _ _ _ => True) (motive_2 := fun _ _ _ _ => True) (motive_3 := fun _ _ => True) (motive_4 := fun _ _ _ => True)
    (motive_5 := fun _ _ _ => True) (motive_6 := fun _ _ _ _ => True) (motive_7 := fun w as _ => D stod Sym.AlternativeTypeList w (.nameds as))
    (motive_8 := fun _ _ => True) (motive_9 := fun _ _ => True) (motive_10 := fun _ _ _ => True) (motive_11 := fun _ _ => True)
    (motive_12 := fun _ _ => True) ?_ ?_ ?_ ?_ ?_ ?_ ?_ ?_ ?_ ?_ ?_ ?_ ?_ ?_ ?_ ?_ ?_ ?_ ?_ ?_ ?_ ?_ ?_ ?_ ?_ ?_ ?_ ?_ ?_ ?_ ?_ ?_ ?_ ?_ ?_ ?_ ?_ ?_ ?_ ?_ ?_ ?_ ?_ ?_ ?_ ?_ ?_ ?_ 
    ?_ ?_ ?_ ?_ ?_ ?_ ?_ ?_ ?_ ?_ ?_ ?_ ?_ ?_ ?_ ?_ ?_ ?_ ?_ ?_ ?_ h
  all_goals intros
  all_goals first
    | trivial
    | (rename_i n h _; exact by_AlternativeTypeList_1 (read_named n (read_type h)))
    | (rename_i n _ h' h _; exact by_AlternativeTypeList_2 h (read_named n (read_type h')))

/-- **C92, violated.** The additional alternatives of a CHOICE are put before those of the root, which changes the tags AUTOMATIC TAGS gives them (X.680 29.5: the root comes
first). -/
theorem C92_violated_choice_extension {stod : Bytes → UInt64} {w w' : List Tok} {as as' : List Named} (h : AlternativesN stod w as) (h' : AlternativesN stod w' as')
    (m n : List Char) (st : St) :
    parse stod (.upper m :: kw "DEFINITIONS" :: kw "::=" :: kw "BEGIN" ::
        (.upper n :: kw "::=" :: (kw "CHOICE" :: kw "{" :: (w ++ kw "," :: kw "..." :: kw "," :: w' ++ [kw "}"])) ++ [kw "END"])) st =
      .ok (some { st with modules := st.modules ++ [⟨nm m, .explicit_, [], [{ name := nm n, body := .type (.choice (as' ++ as) .static_) }]⟩] }) :=
  parse_type (by_Type_2 (by_BuiltinType_5 (by_ChoiceType_1 (by_AlternativeTypeLists_1 (by_RootAlternativeTypeList_3 (read_alternatives h) (read_alternatives h')))))) m n st

/-- Modules without anything behind the tag default. -/
theorem C92_violated_boolean_value {stod : Bytes → UInt64} (m n : List Char) (st : St) :
    parse stod [.upper m, kw "DEFINITIONS", kw "::=", kw "BEGIN", .lower n, kw "BOOLEAN", kw "::=", kw "TRUE", kw "END"] st =
      .ok (some { st with modules := st.modules ++ [⟨nm m, .explicit_, [], [{ name := nm n, body := .value (.leaf .boolean) (.list []) }]⟩] }) := by
  have h0 : D stod Sym.Type_ [kw "BOOLEAN"] (.type (.leaf .boolean)) := by_Type_2 (by_BuiltinType_3 by_BooleanType_1)
  have h1 := by_ModuleBody_1 by_Exports_3 by_Imports_2 (by_AssignmentList_1 (by_Assignment_2 (by_ValueAssignment_1 (read_value_ref n) h0
    (by_Value_1 (by_ValueWithoutTypeIdentifier_1 by_BooleanValue_1)))))
  have h2 := derives_module m by_DefinitiveIdentification_1 by_TagDefault_4 h1 st
  have h3 := DerivesAll.cons h2 (.nil _)
  rw [List.append_nil] at h3
  have h4 : Derives stod Sym.ModuleDefinitionList _ st .none _ := .rule (i := 1) (by decide) rfl h3 rfl
  exact parse_of_derives h4

/-! ## C93: any input -/

/-- **C93.** For any tokens the parser ends, in at most `100 * (n + 2)` steps, and takes nothing off an empty stack: it accepts or rejects. -/
theorem C93_total (stod : Bytes → UInt64) (ts : List Tok) (st : St) : ∃ res, run stod (100 * (ts.length + 2)) (start ts st) = .ok res := by
  rcases parse_sound stod ts st with h | ⟨st', _, h, _⟩
  · exact ⟨none, h⟩
  · exact ⟨some st', h⟩

/-- **C93.** More steps change nothing: the bound of the model is not what ends the parser. -/
theorem C93_steps (stod : Bytes → UInt64) (ts : List Tok) (st : St) {fuel : Nat} (h : 100 * (ts.length + 2) ≤ fuel) : run stod fuel (start ts st) = parse stod ts st := by
  obtain ⟨res, hr⟩ := C93_total stod ts st
  exact run_mono h (by show run stod (100 * (ts.length + 2)) _ ≠ _; rw [hr]; simp)

/-- **C93.** So do files of any bytes, unless the lexer reads beyond the end of one (C88). -/
theorem C93_files (stod : Bytes → UInt64) (files : List Bytes) : ∀ st,
    (∃ res, parseFiles stod files st = .ok res) ∨ (parseFiles stod files st = .ub ∧ ∃ file ∈ files, ∃ p x, file = p ++ x ∧ Unterminated x) := by
  induction files with
  | nil => intro st; exact Or.inl ⟨_, rfl⟩
  | cons file files ih =>
    intro st
    unfold parseFiles parseFile
    cases hl : lex file with
    | loop => exact (C88_terminates file hl).elim
    | ub =>
      obtain ⟨p, x, h⟩ := C88_bounds hl
      exact Or.inr ⟨rfl, file, by simp, p, x, h⟩
    | ok res =>
      cases res with
      | none => exact Or.inl ⟨_, rfl⟩
      | some ts =>
        obtain ⟨r, hr⟩ := C93_total stod ts st
        have hp : parse stod ts st = .ok r := hr
        show (∃ res, (parse stod ts st >>= _) = _) ∨ ((parse stod ts st >>= _) = _ ∧ _)
        rw [hp]
        cases r with
        | none => exact Or.inl ⟨_, rfl⟩
        | some st' =>
          rcases ih st' with h | ⟨h, f, hf, hx⟩
          · exact Or.inl h
          · exact Or.inr ⟨h, f, by simp [hf], hx⟩

/-! ## C94: what is accepted is in the grammar -/

/-- **C94.** What the parser accepts is derived by the grammar of asn_compiler.yacc from `ModuleDefinitionList`, and the syntax tree is made by the actions of that derivation: the tables
bison made from the grammar, with the conflicts it resolved, accept nothing else. -/
theorem C94_grammar {stod : Bytes → UInt64} {ts : List Tok} {st st' : St} (h : parse stod ts st = .ok (some st')) :
    ∃ v, Parses stod Sym.ModuleDefinitionList ts st v st' := by
  rcases parse_sound stod ts st with h' | ⟨st'', v, h', hp⟩
  · rw [h] at h'; cases h'
  · rw [h] at h'; cases h'; exact ⟨v, hp⟩

example : ∃ st', parse (fun _ => 0) [.upper ['M'], .sym "DEFINITIONS", .sym "::=", .sym "BEGIN", .sym "END"] ⟨[], 0⟩ = .ok (some st') :=
  ⟨_, C92_parse (.one (.empty (o := []) (g := []) ['M'] .nothing .nothing)) _⟩

end FastBer.Props
