import Verif.Props.AcceptsRecursive
import Verif.Props.Layout
/-!
# The recursive types of testfiles/circular.asn
-/
namespace FastBer.Props.CircularFile
open FastBer FastBer.Ast FastBer.Ast.Spec FastBer.Spec Lexer Lexer.Spec Notation Parser

/-- testfiles/circular.asn, without the comment at its end. -/
def file : String :=
"Circular DEFINITIONS IMPLICIT TAGS ::= BEGIN

CircularSequence1 ::= SEQUENCE {
    name OCTET STRING,
    cs2 CircularSequence2 OPTIONAL
}

CircularSequence2 ::= SEQUENCE {
    cs1 CircularSequence1
}

CircularSequenceOf1 ::= SEQUENCE {
    sequence CircularSequenceOf2
}

CircularSequenceOf2 ::= SEQUENCE OF CircularSequenceOf1

CircularChoice1 ::= CHOICE {
    int INTEGER,
    choice [1] EXPLICIT CircularChoice2,
    seq SEQUENCE { inner SEQUENCE { number MyInt } },
    enum ENUMERATED { one, two }
}

CircularChoice2 ::= SEQUENCE {
    str OCTET STRING,
    choice CircularChoice1
}

MyInt ::= INTEGER

SelfReference ::= CHOICE {
    str [0] OCTET STRING,
    self [1] SelfReference
}

END
"

def sp : Bytes := [32]
def nl (lines spaces : Nat) : Bytes := List.replicate lines 10 ++ List.replicate spaces 32
def w (s : String) (space : Bytes) : Check.Piece := ⟨s.toList, space⟩
/-- Its items and the white space behind each. -/
def pieces : List Check.Piece := [
  w "Circular" sp, w "DEFINITIONS" sp, w "IMPLICIT" sp, w "TAGS" sp, w "::=" sp, w "BEGIN" (nl 2 0), w "CircularSequence1" sp, w "::=" sp, w "SEQUENCE" sp,
  w "{" (nl 1 4), w "name" sp, w "OCTET" sp, w "STRING" [], w "," (nl 1 4), w "cs2" sp, w "CircularSequence2" sp, w "OPTIONAL" (nl 1 0), w "}" (nl 2 0),
  w "CircularSequence2" sp, w "::=" sp, w "SEQUENCE" sp, w "{" (nl 1 4), w "cs1" sp, w "CircularSequence1" (nl 1 0), w "}" (nl 2 0), w "CircularSequenceOf1" sp,
  w "::=" sp, w "SEQUENCE" sp, w "{" (nl 1 4), w "sequence" sp, w "CircularSequenceOf2" (nl 1 0), w "}" (nl 2 0), w "CircularSequenceOf2" sp, w "::=" sp,
  w "SEQUENCE" sp, w "OF" sp, w "CircularSequenceOf1" (nl 2 0), w "CircularChoice1" sp, w "::=" sp, w "CHOICE" sp, w "{" (nl 1 4), w "int" sp, w "INTEGER" [],
  w "," (nl 1 4), w "choice" sp, w "[" [], w "1" [], w "]" sp, w "EXPLICIT" sp, w "CircularChoice2" [], w "," (nl 1 4), w "seq" sp, w "SEQUENCE" sp, w "{" sp,
  w "inner" sp, w "SEQUENCE" sp, w "{" sp, w "number" sp, w "MyInt" sp, w "}" sp, w "}" [], w "," (nl 1 4), w "enum" sp, w "ENUMERATED" sp, w "{" sp, w "one" [],
  w "," sp, w "two" sp, w "}" (nl 1 0), w "}" (nl 2 0), w "CircularChoice2" sp, w "::=" sp, w "SEQUENCE" sp, w "{" (nl 1 4), w "str" sp, w "OCTET" sp, w "STRING" [],
  w "," (nl 1 4), w "choice" sp, w "CircularChoice1" (nl 1 0), w "}" (nl 2 0), w "MyInt" sp, w "::=" sp, w "INTEGER" (nl 2 0), w "SelfReference" sp, w "::=" sp,
  w "CHOICE" sp, w "{" (nl 1 4), w "str" sp, w "[" [], w "0" [], w "]" sp, w "OCTET" sp, w "STRING" [], w "," (nl 1 4), w "self" sp, w "[" [], w "1" [], w "]" sp,
  w "SelfReference" (nl 1 0), w "}" (nl 2 0), w "END" (nl 1 0)]
def items : List Tok := [
  .upper "Circular".toList, kw "DEFINITIONS", kw "IMPLICIT", kw "TAGS", kw "::=", kw "BEGIN", .upper "CircularSequence1".toList, kw "::=", kw "SEQUENCE", kw "{",
  .lower "name".toList, kw "OCTET", kw "STRING", kw ",", .lower "cs2".toList, .upper "CircularSequence2".toList, kw "OPTIONAL", kw "}",
  .upper "CircularSequence2".toList, kw "::=", kw "SEQUENCE", kw "{", .lower "cs1".toList, .upper "CircularSequence1".toList, kw "}",
  .upper "CircularSequenceOf1".toList, kw "::=", kw "SEQUENCE", kw "{", .lower "sequence".toList, .upper "CircularSequenceOf2".toList, kw "}",
  .upper "CircularSequenceOf2".toList, kw "::=", kw "SEQUENCE", kw "OF", .upper "CircularSequenceOf1".toList, .upper "CircularChoice1".toList, kw "::=", kw "CHOICE",
  kw "{", .lower "int_".toList, kw "INTEGER", kw ",", .lower "choice".toList, kw "[", .number 1, kw "]", kw "EXPLICIT", .upper "CircularChoice2".toList, kw ",",
  .lower "seq".toList, kw "SEQUENCE", kw "{", .lower "inner".toList, kw "SEQUENCE", kw "{", .lower "number".toList, .upper "MyInt".toList, kw "}", kw "}", kw ",",
  .lower "enum_".toList, kw "ENUMERATED", kw "{", .lower "one".toList, kw ",", .lower "two".toList, kw "}", kw "}", .upper "CircularChoice2".toList, kw "::=",
  kw "SEQUENCE", kw "{", .lower "str".toList, kw "OCTET", kw "STRING", kw ",", .lower "choice".toList, .upper "CircularChoice1".toList, kw "}", .upper "MyInt".toList,
  kw "::=", kw "INTEGER", .upper "SelfReference".toList, kw "::=", kw "CHOICE", kw "{", .lower "str".toList, kw "[", .number 0, kw "]", kw "OCTET", kw "STRING", kw ",",
  .lower "self".toList, kw "[", .number 1, kw "]", .upper "SelfReference".toList, kw "}", kw "END"]

set_option maxRecDepth 100000 in
theorem file_items : Text items (bytes file) := by
  have e0 : items = pieces.map fun p => Check.tokOf p.item := by decide +kernel
  have e : bytes file = Check.textOf pieces := Check.textOf_chars (by rfl)
  rw [e0, e]
  exact Check.items_sound (by decide +kernel)

def modules : List Module := [⟨"Circular", .implicit, [], [
  { name := "CircularSequence1", body := .type (.sequence [required "name" (.leaf .octetString), optional "cs2" (.defined none "CircularSequence2" [])] false) },
  { name := "CircularSequence2", body := .type (.sequence [required "cs1" (.defined none "CircularSequence1" [])] false) },
  { name := "CircularSequenceOf1", body := .type (.sequence [required "sequence" (.defined none "CircularSequenceOf2" [])] false) },
  { name := "CircularSequenceOf2", body := .type (.seqOf none (.defined none "CircularSequenceOf1" []) .smallBuffer) },
  { name := "CircularChoice1", body := .type (.choice [.mk "int_" (.leaf .integer), .mk "choice" (.prefixed .contextSpecific 1 .explicit_ (.defined none "CircularChoice2" [])), .mk "seq" (.sequence [required "inner" (.sequence [required "number" (.defined none "MyInt" [])] false)] false), .mk "enum_" (.leaf .enumerated)] .static_) },
  { name := "CircularChoice2", body := .type (.sequence [required "str" (.leaf .octetString), required "choice" (.defined none "CircularChoice1" [])] false) },
  { name := "MyInt", body := .type (.leaf .integer) },
  { name := "SelfReference", body := .type (.choice [.mk "str" (.prefixed .contextSpecific 0 .automatic (.leaf .octetString)), .mk "self" (.prefixed .contextSpecific 1 .automatic (.defined none "SelfReference" []))] .static_) }]⟩]

theorem written (stod : Bytes → UInt64) : Written stod [bytes file] modules := by
  have h0 := TypeN.sequence (.root (.more (.one (.required "name".toList (.simple (real := stod) (ks := ["OCTET", "STRING"]) (k := .octetString) (by simp [simpleTypes])))) (.optional "cs2".toList (.reference (real := stod) "CircularSequence2".toList))))
  have h1 := TypeN.sequence (.root (.one (.required "cs1".toList (.reference (real := stod) "CircularSequence1".toList))))
  have h2 := TypeN.sequence (.root (.one (.required "sequence".toList (.reference (real := stod) "CircularSequenceOf2".toList))))
  have h3 := TypeN.sequenceOf .nothing (.plain (.reference (real := stod) "CircularSequenceOf1".toList))
  have h4 := TypeN.choice (.more "enum_".toList (.more "seq".toList (.more "choice".toList (.one "int_".toList (.simple (real := stod) (ks := ["INTEGER"]) (k := .integer) (by simp [simpleTypes]))) (.tagged 1 .context (by decide) .explicit_ (.reference (real := stod) "CircularChoice2".toList))) (.sequence (.root (.one (.required "inner".toList (.sequence (.root (.one (.required "number".toList (.reference (real := stod) "MyInt".toList)))))))))) (.enumerated (.root (.more (.one (.plain "one".toList)) (.plain "two".toList)))))
  have h5 := TypeN.sequence (.root (.more (.one (.required "str".toList (.simple (real := stod) (ks := ["OCTET", "STRING"]) (k := .octetString) (by simp [simpleTypes])))) (.required "choice".toList (.reference (real := stod) "CircularChoice1".toList))))
  have h6 := TypeN.simple (real := stod) (ks := ["INTEGER"]) (k := .integer) (by simp [simpleTypes])
  have h7 := TypeN.choice (.more "self".toList (.one "str".toList (.tagged 0 .context (by decide) .default (.simple (real := stod) (ks := ["OCTET", "STRING"]) (k := .octetString) (by simp [simpleTypes])))) (.tagged 1 .context (by decide) .default (.reference (real := stod) "SelfReference".toList)))
  have hm := FileN.one (.full (o := []) (e := []) (i := []) "Circular".toList .nothing .implicit .nothing .nothing (.more (.type "CircularSequence1".toList h0) (.more (.type "CircularSequence2".toList h1) (.more (.type "CircularSequenceOf1".toList h2) (.more (.type "CircularSequenceOf2".toList h3) (.more (.type "CircularChoice1".toList h4) (.more (.type "CircularChoice2".toList h5) (.more (.type "MyInt".toList h6) (.one (.type "SelfReference".toList h7))))))))))
  exact .cons file_items hm .nil

/-- The conditions of C98 hold: the file is compiled to valid C++ types that can be constructed. -/
theorem compiled (stod : Bytes → UInt64) : ∃ env, RTextCompiled stod demoLib [bytes file] modules env :=
  C98_text_compiled_recursive_partial (written stod) (Check.plainSource_sound (by decide +kernel)) (Check.supportedSource_sound (fuel := 20) (by decide +kernel))
    (Check.legal_sound (fuel := 20) (by decide +kernel)) (Check.accepted_sound (fuel := 20) (by decide +kernel)) (Check.compilableSourceForward_sound (fuel := 20) (by decide +kernel))
    (demoLib_takes (fuel := 20) (by decide +kernel)) (Check.allStartable_sound (fuel := 20) (by decide +kernel)) demoLib_defaults

/-! ## The type `SelfReference` of this file, at every depth -/

/-- A text within `n` values `self`. -/
def deep (s : Bytes) : Nat → Val
  | 0 => .alt 0 (.content s)
  | n + 1 => .alt 1 (deep s n)

def module : Module := modules[0]

def selfReference : AType := .choice [.mk "str" (.prefixed .contextSpecific 0 .automatic (.leaf .octetString)),
  .mk "self" (.prefixed .contextSpecific 1 .automatic (.defined none "SelfReference" []))] .static_

theorem deep_value {s : Bytes} (hs : s.length < 2 ^ 63) : ∀ n, Ast.Spec.ValueOf storable (qualify ⟨modules⟩) (qualifyModule ⟨modules⟩ module) (qualifyType ⟨modules⟩ module.name selfReference) (deep s n)
  | 0 => .choice (i := 0) rfl (.intro (.prefixed (.here rfl)) (.leaf hs))
  | n + 1 => .choice (i := 1) rfl (.intro (.prefixed (.reference rfl (.here rfl))) (deep_value hs n))

theorem self_assigned : SourceAssigned ⟨modules⟩ module "SelfReference" selfReference where
  module := List.mem_cons_self
  assignment := ⟨_, .tail _ (.tail _ (.tail _ (.tail _ (.tail _ (.tail _ (.tail _ (.head _))))))), rfl, rfl⟩
  tags := Check.taggedStruct_sound 5 _ _ rfl

end FastBer.Props.CircularFile

namespace FastBer.Props
open FastBer FastBer.Ast FastBer.Ast.Spec FastBer.Spec Lexer Lexer.Spec Notation Parser

/-- **C96, testfiles/circular.asn.** The program generated from the text of this file has objects for a text within any number of `self`s; each is encoded, and decoding the encoding gives
an object with the same value, into any object there was before. -/
theorem C96_self_reference (stod : Bytes → UInt64) : ∃ env, RTextCompiled stod demoLib [bytes CircularFile.file] CircularFile.modules env ∧
    ∀ s n, s.length < 2 ^ 63 → ∃ o e, env.program.Rep ⟨"Circular", "SelfReference", none⟩ o (CircularFile.deep s n) e ∧
      (e.length < 2 ^ 64 → ∀ o0, env.program.Holds ⟨"Circular", "SelfReference", none⟩ o0 →
        ∃ buf o', Returns (env.program.encode ⟨"Circular", "SelfReference", none⟩ o (List.replicate e.length 0)) (.ok (⟨true, e.length⟩, buf)) ∧
          Returns (env.program.decode ⟨"Circular", "SelfReference", none⟩ o0 (buf.take e.length)) (.ok (true, o')) ∧
          env.program.Rep ⟨"Circular", "SelfReference", none⟩ o' (CircularFile.deep s n) e) := by
  obtain ⟨env, hc⟩ := CircularFile.compiled stod
  refine ⟨env, hc, fun s n hs => ?_⟩
  have hv : Ast.Spec.Value storable _ _ _ (CircularFile.deep s n) := .intro (.here rfl) (CircularFile.deep_value hs n)
  obtain ⟨o, e, k, h, -⟩ := (C96_encodes_recursive_partial hc CircularFile.self_assigned).2.2 _ hv
  refine ⟨o, e, ⟨k, h⟩, fun hl o0 h0 => ?_⟩
  obtain ⟨b, o', g1, g2, g3, -⟩ := C96_round_trip_recursive_partial hc CircularFile.self_assigned o _ e hv ⟨k, h⟩ hl (List.replicate e.length 0) (by simp) o0 h0 []
  rw [List.append_nil] at g2
  exact ⟨b, o', g1, g2, g3⟩

end FastBer.Props
