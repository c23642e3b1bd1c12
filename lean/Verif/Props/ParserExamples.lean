import Verif.Props.Parser
/-!
# C92: notation that is read as something else
-/
namespace FastBer.Props
open FastBer Ast Lexer Lexer.Spec Notation Parser

/-- A module with one type assignment, `A`, of the items `w`, is read, and the type is `t`. -/
def parsedAs (w : List Tok) (t : AType) : Prop :=
  parse (fun _ => 0) ([.upper ['M'], kw "DEFINITIONS", kw "::=", kw "BEGIN", .upper ['A'], kw "::="] ++ w ++ [kw "END"]) ⟨[], 0⟩ =
    .ok (some ⟨[⟨"M", .explicit_, [], [{ name := "A", body := .type t }]⟩], 0⟩)

/-- It is a syntax error. -/
def parsedNot (w : List Tok) : Prop :=
  parse (fun _ => 0) ([.upper ['M'], kw "DEFINITIONS", kw "::=", kw "BEGIN", .upper ['A'], kw "::="] ++ w ++ [kw "END"]) ⟨[], 0⟩ = .ok none

/-- **C92, violated.** Of two actual parameters (X.683 9.5) one is left, and it is ANY. -/
theorem C92_violated_two_parameters : parsedAs [.upper ['T'], kw "{", .upper ['B'], kw ",", .upper ['C'], kw "}"] (.defined none "T" [.leaf .any]) := gave_sound (by decide +kernel)

/-- **C92, violated.** So is a NULL parameter. -/
theorem C92_violated_null_parameter : parsedAs [.upper ['T'], kw "{", kw "NULL", kw "}"] (.defined none "T" [.leaf .any]) := gave_sound (by decide +kernel)

/-- **C92, violated.** A parameterized type of another module (X.683 9.2) loses its name. -/
theorem C92_violated_external_parameterized : parsedAs [.upper ['N'], kw ".", .upper ['T'], kw "{", .upper ['B'], kw "}"] (.defined none "" [.defined none "B" []]) := gave_sound (by decide +kernel)

/-- **C92, violated.** A selection type (X.680 30) is read as ANY. -/
theorem C92_violated_selection : parsedAs [.lower ['a'], kw "<", .upper ['C']] (.leaf .any) := gave_sound (by decide +kernel)

/-- **C92, violated.** A field of TYPE-IDENTIFIER (X.681 annex A) loses the name of the class. -/
theorem C92_violated_type_identifier : parsedAs [kw "TYPE-IDENTIFIER", kw ".", .valueField ['&', 'i', 'd']] (.objField none "" ["&id"]) := gave_sound (by decide +kernel)

/-- **C92, violated.** OID-IRI is read as a reference (X.680 34). -/
theorem C92_violated_oid_iri :
    parseFile (fun _ => 0) (bytes "M DEFINITIONS ::= BEGIN A ::= OID-IRI END ") ⟨[], 0⟩ =
      .ok (some ⟨[⟨"M", .explicit_, [], [{ name := "A", body := .type (.defined none "OID_IRI" []) }]⟩], 0⟩) := gave_sound (by decide +kernel)

/-- **C92, violated.** With a second extension marker the components of the second root come last, behind the additional ones, which changes the tags AUTOMATIC TAGS gives them (X.680
25.7.2: the root comes first). -/
theorem C92_violated_second_root : parsedAs [kw "SEQUENCE", kw "{", .lower ['a'], kw "NULL", kw ",", kw "...", kw ",", .lower ['b'], kw "NULL", kw ",", kw "...", kw ",", .lower ['c'], kw "NULL", kw "}"]
    (.sequence [required "a" (.leaf .null), required "b" (.leaf .null), required "c" (.leaf .null)] true) := gave_sound (by decide +kernel)

/-- **C92, violated.** Legal types that are syntax errors: extension additions in double brackets (X.680 25.1), a second extension marker of CHOICE (29.1) or ENUMERATED, defaults in
braces (17.7). -/
theorem C92_violated_rejected :
    parsedNot [kw "SEQUENCE", kw "{", .lower ['a'], kw "NULL", kw ",", kw "...", kw ",", kw "[", kw "[", .lower ['b'], kw "NULL", kw "]", kw "]", kw "}"] ∧
    parsedNot [kw "CHOICE", kw "{", .lower ['a'], kw "NULL", kw ",", kw "...", kw ",", .lower ['b'], kw "NULL", kw ",", kw "...", kw "}"] ∧
    parsedNot [kw "CHOICE", kw "{", .lower ['a'], kw "NULL", kw ",", kw "...", kw ",", kw "[", kw "[", .lower ['b'], kw "NULL", kw "]", kw "]", kw "}"] ∧
    parsedNot [kw "SEQUENCE", kw "{", kw "...", kw ",", kw "...", kw ",", .lower ['a'], kw "NULL", kw "}"] ∧
    parsedNot [kw "SEQUENCE", kw "{", .lower ['a'], kw "SEQUENCE", kw "OF", kw "INTEGER", kw "DEFAULT", kw "{", kw "}", kw "}"] ∧
    parsedNot [kw "SEQUENCE", kw "{", .lower ['a'], kw "OBJECT", kw "IDENTIFIER", kw "DEFAULT", kw "{", .number 1, .number 2, kw "}", kw "}"] :=
  ⟨refused_sound (by decide +kernel), refused_sound (by decide +kernel), refused_sound (by decide +kernel), refused_sound (by decide +kernel),
   refused_sound (by decide +kernel), refused_sound (by decide +kernel)⟩

/-- **C92, violated.** EXTENSIBILITY IMPLIED (X.680 13.4) has no effect: no type gets an extension marker. -/
theorem C92_violated_extensibility :
    parse (fun _ => 0) [.upper ['M'], kw "DEFINITIONS", kw "EXTENSIBILITY", kw "IMPLIED", kw "::=", kw "BEGIN", .upper ['A'], kw "::=", kw "SEQUENCE", kw "{",
        .lower ['a'], kw "NULL", kw "}", kw "END"] ⟨[], 0⟩ =
      .ok (some ⟨[⟨"M", .explicit_, [], [{ name := "A", body := .type (.sequence [required "a" (.leaf .null)] false) }]⟩], 0⟩) := gave_sound (by decide +kernel)

end FastBer.Props
