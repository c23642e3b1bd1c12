import Verif.Props.TagsFile
/-!
# The choices of testfiles/choice.asn
-/
namespace FastBer.Props.ChoiceFile
open FastBer FastBer.Ast FastBer.Ast.Spec FastBer.Spec Lexer Lexer.Spec Notation Parser
open TagsFile (elem encodes_inv one_tag)

/-- testfiles/choice.asn. -/
def file : String :=
"MakeAChoice DEFINITIONS IMPLICIT TAGS ::= BEGIN

IMPORTS BoolMod2 FROM OtherModule;

Collection ::= SEQUENCE {
     the-choice CHOICE {
         hello [0] OCTET STRING,
         goodbye [1] OCTET STRING,
         integer [2] INTEGER,
         boolean [3] BoolMod2,
         sequence [4] SEQUENCE { i INTEGER }
     }
}

END

OtherModule DEFINITIONS IMPLICIT TAGS ::= BEGIN

BoolMod2 ::= BOOLEAN

END

ExplicitChoice DEFINITIONS ::= BEGIN

MySequence ::= SEQUENCE {

}

MyChoice ::= CHOICE {
    hello [0] OCTET STRING,
    goodbye [1] OCTET STRING,
    integer [2] INTEGER,
    boolean [3] BOOLEAN,
    sequence [4] MySequence
}

END

SimpleChoice DEFINITIONS ::= BEGIN

Simple ::= CHOICE {
    a INTEGER,
    b OCTET STRING
}

END

Clashing DEFINITIONS ::= BEGIN

Clash ::= CHOICE {
    a [ 98] IMPLICIT INTEGER,
    b [ 99] IMPLICIT OCTET STRING,
    c [100] IMPLICIT OCTET STRING
}

END

ChoiceOfChoice DEFINITIONS ::= BEGIN

C ::= CHOICE {
    one CHOICE {
        a [1] IMPLICIT OCTET STRING,
        b [2] IMPLICIT OCTET STRING
    },
    two CHOICE {
        c [3] IMPLICIT OCTET STRING,
        d [4] IMPLICIT OCTET STRING
    }
}

END
"

def sp : Bytes := [32]
def nl (lines spaces : Nat) : Bytes := List.replicate lines 10 ++ List.replicate spaces 32
def w (s : String) (space : Bytes) : Check.Piece := ⟨s.toList, space⟩
/-- Its items and the white space behind each. -/
def pieces : List Check.Piece := [
  w "MakeAChoice" sp, w "DEFINITIONS" sp, w "IMPLICIT" sp, w "TAGS" sp, w "::=" sp, w "BEGIN" (nl 2 0), w "IMPORTS" sp, w "BoolMod2" sp, w "FROM" sp, w "OtherModule" [],
  w ";" (nl 2 0), w "Collection" sp, w "::=" sp, w "SEQUENCE" sp, w "{" (nl 1 5), w "the-choice" sp, w "CHOICE" sp, w "{" (nl 1 9), w "hello" sp, w "[" [], w "0" [],
  w "]" sp, w "OCTET" sp, w "STRING" [], w "," (nl 1 9), w "goodbye" sp, w "[" [], w "1" [], w "]" sp, w "OCTET" sp, w "STRING" [], w "," (nl 1 9), w "integer" sp,
  w "[" [], w "2" [], w "]" sp, w "INTEGER" [], w "," (nl 1 9), w "boolean" sp, w "[" [], w "3" [], w "]" sp, w "BoolMod2" [], w "," (nl 1 9), w "sequence" sp, w "[" [],
  w "4" [], w "]" sp, w "SEQUENCE" sp, w "{" sp, w "i" sp, w "INTEGER" sp, w "}" (nl 1 5), w "}" (nl 1 0), w "}" (nl 2 0), w "END" (nl 2 0), w "OtherModule" sp,
  w "DEFINITIONS" sp, w "IMPLICIT" sp, w "TAGS" sp, w "::=" sp, w "BEGIN" (nl 2 0), w "BoolMod2" sp, w "::=" sp, w "BOOLEAN" (nl 2 0), w "END" (nl 2 0),
  w "ExplicitChoice" sp, w "DEFINITIONS" sp, w "::=" sp, w "BEGIN" (nl 2 0), w "MySequence" sp, w "::=" sp, w "SEQUENCE" sp, w "{" (nl 2 0), w "}" (nl 2 0),
  w "MyChoice" sp, w "::=" sp, w "CHOICE" sp, w "{" (nl 1 4), w "hello" sp, w "[" [], w "0" [], w "]" sp, w "OCTET" sp, w "STRING" [], w "," (nl 1 4), w "goodbye" sp,
  w "[" [], w "1" [], w "]" sp, w "OCTET" sp, w "STRING" [], w "," (nl 1 4), w "integer" sp, w "[" [], w "2" [], w "]" sp, w "INTEGER" [], w "," (nl 1 4),
  w "boolean" sp, w "[" [], w "3" [], w "]" sp, w "BOOLEAN" [], w "," (nl 1 4), w "sequence" sp, w "[" [], w "4" [], w "]" sp, w "MySequence" (nl 1 0), w "}" (nl 2 0),
  w "END" (nl 2 0), w "SimpleChoice" sp, w "DEFINITIONS" sp, w "::=" sp, w "BEGIN" (nl 2 0), w "Simple" sp, w "::=" sp, w "CHOICE" sp, w "{" (nl 1 4), w "a" sp,
  w "INTEGER" [], w "," (nl 1 4), w "b" sp, w "OCTET" sp, w "STRING" (nl 1 0), w "}" (nl 2 0), w "END" (nl 2 0), w "Clashing" sp, w "DEFINITIONS" sp, w "::=" sp,
  w "BEGIN" (nl 2 0), w "Clash" sp, w "::=" sp, w "CHOICE" sp, w "{" (nl 1 4), w "a" sp, w "[" sp, w "98" [], w "]" sp, w "IMPLICIT" sp, w "INTEGER" [], w "," (nl 1 4),
  w "b" sp, w "[" sp, w "99" [], w "]" sp, w "IMPLICIT" sp, w "OCTET" sp, w "STRING" [], w "," (nl 1 4), w "c" sp, w "[" [], w "100" [], w "]" sp, w "IMPLICIT" sp,
  w "OCTET" sp, w "STRING" (nl 1 0), w "}" (nl 2 0), w "END" (nl 2 0), w "ChoiceOfChoice" sp, w "DEFINITIONS" sp, w "::=" sp, w "BEGIN" (nl 2 0), w "C" sp, w "::=" sp,
  w "CHOICE" sp, w "{" (nl 1 4), w "one" sp, w "CHOICE" sp, w "{" (nl 1 8), w "a" sp, w "[" [], w "1" [], w "]" sp, w "IMPLICIT" sp, w "OCTET" sp, w "STRING" [],
  w "," (nl 1 8), w "b" sp, w "[" [], w "2" [], w "]" sp, w "IMPLICIT" sp, w "OCTET" sp, w "STRING" (nl 1 4), w "}" [], w "," (nl 1 4), w "two" sp, w "CHOICE" sp,
  w "{" (nl 1 8), w "c" sp, w "[" [], w "3" [], w "]" sp, w "IMPLICIT" sp, w "OCTET" sp, w "STRING" [], w "," (nl 1 8), w "d" sp, w "[" [], w "4" [], w "]" sp,
  w "IMPLICIT" sp, w "OCTET" sp, w "STRING" (nl 1 4), w "}" (nl 1 0), w "}" (nl 2 0), w "END" (nl 1 0)]
def items : List Tok := [
  .upper "MakeAChoice".toList, kw "DEFINITIONS", kw "IMPLICIT", kw "TAGS", kw "::=", kw "BEGIN", kw "IMPORTS", .upper "BoolMod2".toList, kw "FROM",
  .upper "OtherModule".toList, kw ";", .upper "Collection".toList, kw "::=", kw "SEQUENCE", kw "{", .lower "the_choice".toList, kw "CHOICE", kw "{",
  .lower "hello".toList, kw "[", .number 0, kw "]", kw "OCTET", kw "STRING", kw ",", .lower "goodbye".toList, kw "[", .number 1, kw "]", kw "OCTET", kw "STRING", kw ",",
  .lower "integer".toList, kw "[", .number 2, kw "]", kw "INTEGER", kw ",", .lower "boolean".toList, kw "[", .number 3, kw "]", .upper "BoolMod2".toList, kw ",",
  .lower "sequence".toList, kw "[", .number 4, kw "]", kw "SEQUENCE", kw "{", .lower "i".toList, kw "INTEGER", kw "}", kw "}", kw "}", kw "END",
  .upper "OtherModule".toList, kw "DEFINITIONS", kw "IMPLICIT", kw "TAGS", kw "::=", kw "BEGIN", .upper "BoolMod2".toList, kw "::=", kw "BOOLEAN", kw "END",
  .upper "ExplicitChoice".toList, kw "DEFINITIONS", kw "::=", kw "BEGIN", .upper "MySequence".toList, kw "::=", kw "SEQUENCE", kw "{", kw "}", .upper "MyChoice".toList,
  kw "::=", kw "CHOICE", kw "{", .lower "hello".toList, kw "[", .number 0, kw "]", kw "OCTET", kw "STRING", kw ",", .lower "goodbye".toList, kw "[", .number 1, kw "]",
  kw "OCTET", kw "STRING", kw ",", .lower "integer".toList, kw "[", .number 2, kw "]", kw "INTEGER", kw ",", .lower "boolean".toList, kw "[", .number 3, kw "]",
  kw "BOOLEAN", kw ",", .lower "sequence".toList, kw "[", .number 4, kw "]", .upper "MySequence".toList, kw "}", kw "END", .upper "SimpleChoice".toList,
  kw "DEFINITIONS", kw "::=", kw "BEGIN", .upper "Simple".toList, kw "::=", kw "CHOICE", kw "{", .lower "a".toList, kw "INTEGER", kw ",", .lower "b".toList, kw "OCTET",
  kw "STRING", kw "}", kw "END", .upper "Clashing".toList, kw "DEFINITIONS", kw "::=", kw "BEGIN", .upper "Clash".toList, kw "::=", kw "CHOICE", kw "{",
  .lower "a".toList, kw "[", .number 98, kw "]", kw "IMPLICIT", kw "INTEGER", kw ",", .lower "b".toList, kw "[", .number 99, kw "]", kw "IMPLICIT", kw "OCTET",
  kw "STRING", kw ",", .lower "c".toList, kw "[", .number 100, kw "]", kw "IMPLICIT", kw "OCTET", kw "STRING", kw "}", kw "END", .upper "ChoiceOfChoice".toList,
  kw "DEFINITIONS", kw "::=", kw "BEGIN", .upper "C".toList, kw "::=", kw "CHOICE", kw "{", .lower "one".toList, kw "CHOICE", kw "{", .lower "a".toList, kw "[",
  .number 1, kw "]", kw "IMPLICIT", kw "OCTET", kw "STRING", kw ",", .lower "b".toList, kw "[", .number 2, kw "]", kw "IMPLICIT", kw "OCTET", kw "STRING", kw "}",
  kw ",", .lower "two".toList, kw "CHOICE", kw "{", .lower "c".toList, kw "[", .number 3, kw "]", kw "IMPLICIT", kw "OCTET", kw "STRING", kw ",", .lower "d".toList,
  kw "[", .number 4, kw "]", kw "IMPLICIT", kw "OCTET", kw "STRING", kw "}", kw "}", kw "END"]

set_option maxRecDepth 100000 in
theorem file_items : Text items (bytes file) := by
  have e0 : items = pieces.map fun p => Check.tokOf p.item := by decide +kernel
  have e : bytes file = Check.textOf pieces := Check.textOf_chars (by rfl)
  rw [e0, e]
  exact Check.items_sound (by decide +kernel)

def modules : List Module := [⟨"MakeAChoice", .implicit, [{ module := "OtherModule", types := ["BoolMod2"] }], [
  { name := "Collection", body := .type (.sequence [required "the_choice" (.choice [.mk "hello" (.prefixed .contextSpecific 0 .automatic (.leaf .octetString)), .mk "goodbye" (.prefixed .contextSpecific 1 .automatic (.leaf .octetString)), .mk "integer" (.prefixed .contextSpecific 2 .automatic (.leaf .integer)), .mk "boolean" (.prefixed .contextSpecific 3 .automatic (.defined none "BoolMod2" [])), .mk "sequence" (.prefixed .contextSpecific 4 .automatic (.sequence [required "i" (.leaf .integer)] false))] .static_)] false) }]⟩,
 ⟨"OtherModule", .implicit, [], [
  { name := "BoolMod2", body := .type (.leaf .boolean) }]⟩,
 ⟨"ExplicitChoice", .explicit_, [], [
  { name := "MySequence", body := .type (.sequence [] false) },
  { name := "MyChoice", body := .type (.choice [.mk "hello" (.prefixed .contextSpecific 0 .automatic (.leaf .octetString)), .mk "goodbye" (.prefixed .contextSpecific 1 .automatic (.leaf .octetString)), .mk "integer" (.prefixed .contextSpecific 2 .automatic (.leaf .integer)), .mk "boolean" (.prefixed .contextSpecific 3 .automatic (.leaf .boolean)), .mk "sequence" (.prefixed .contextSpecific 4 .automatic (.defined none "MySequence" []))] .static_) }]⟩,
 ⟨"SimpleChoice", .explicit_, [], [
  { name := "Simple", body := .type (.choice [.mk "a" (.leaf .integer), .mk "b" (.leaf .octetString)] .static_) }]⟩,
 ⟨"Clashing", .explicit_, [], [
  { name := "Clash", body := .type (.choice [.mk "a" (.prefixed .contextSpecific 98 .implicit (.leaf .integer)), .mk "b" (.prefixed .contextSpecific 99 .implicit (.leaf .octetString)), .mk "c" (.prefixed .contextSpecific 100 .implicit (.leaf .octetString))] .static_) }]⟩,
 ⟨"ChoiceOfChoice", .explicit_, [], [
  { name := "C", body := .type (.choice [.mk "one" (.choice [.mk "a" (.prefixed .contextSpecific 1 .implicit (.leaf .octetString)), .mk "b" (.prefixed .contextSpecific 2 .implicit (.leaf .octetString))] .static_), .mk "two" (.choice [.mk "c" (.prefixed .contextSpecific 3 .implicit (.leaf .octetString)), .mk "d" (.prefixed .contextSpecific 4 .implicit (.leaf .octetString))] .static_)] .static_) }]⟩]

theorem written (stod : Bytes → UInt64) : Written stod [bytes file] modules := by
  have h0_0 := TypeN.sequence (real := stod) (.root (.one (.required "the_choice".toList (.choice (.more "sequence".toList (.more "boolean".toList (.more "integer".toList (.more "goodbye".toList (.one "hello".toList (.tagged 0 .context (by decide) .default (.simple (real := stod) (ks := ["OCTET", "STRING"]) (k := .octetString) (by simp [simpleTypes])))) (.tagged 1 .context (by decide) .default (.simple (real := stod) (ks := ["OCTET", "STRING"]) (k := .octetString) (by simp [simpleTypes])))) (.tagged 2 .context (by decide) .default (.simple (real := stod) (ks := ["INTEGER"]) (k := .integer) (by simp [simpleTypes])))) (.tagged 3 .context (by decide) .default (.reference (real := stod) "BoolMod2".toList))) (.tagged 4 .context (by decide) .default (.sequence (.root (.one (.required "i".toList (.simple (real := stod) (ks := ["INTEGER"]) (k := .integer) (by simp [simpleTypes]))))))))))))
  have m0 := ModuleN.full (o := []) (e := []) "MakeAChoice".toList .nothing .implicit .nothing (.some_ (.one (.mk "OtherModule".toList (.one (.type 'B' "oolMod2".toList (by decide) (by decide))) .nothing))) (.one (.type "Collection".toList h0_0))
  have h1_0 := TypeN.simple (real := stod) (ks := ["BOOLEAN"]) (k := .boolean) (by simp [simpleTypes])
  have m1 := ModuleN.full (o := []) (e := []) (i := []) "OtherModule".toList .nothing .implicit .nothing .nothing (.one (.type "BoolMod2".toList h1_0))
  have h2_0 := TypeN.sequenceEmpty (real := stod)
  have h2_1 := TypeN.choice (real := stod) (.more "sequence".toList (.more "boolean".toList (.more "integer".toList (.more "goodbye".toList (.one "hello".toList (.tagged 0 .context (by decide) .default (.simple (real := stod) (ks := ["OCTET", "STRING"]) (k := .octetString) (by simp [simpleTypes])))) (.tagged 1 .context (by decide) .default (.simple (real := stod) (ks := ["OCTET", "STRING"]) (k := .octetString) (by simp [simpleTypes])))) (.tagged 2 .context (by decide) .default (.simple (real := stod) (ks := ["INTEGER"]) (k := .integer) (by simp [simpleTypes])))) (.tagged 3 .context (by decide) .default (.simple (real := stod) (ks := ["BOOLEAN"]) (k := .boolean) (by simp [simpleTypes])))) (.tagged 4 .context (by decide) .default (.reference (real := stod) "MySequence".toList)))
  have m2 := ModuleN.full (o := []) (e := []) (i := []) "ExplicitChoice".toList .nothing .nothing .nothing .nothing (.more (.type "MySequence".toList h2_0) (.one (.type "MyChoice".toList h2_1)))
  have h3_0 := TypeN.choice (real := stod) (.more "b".toList (.one "a".toList (.simple (real := stod) (ks := ["INTEGER"]) (k := .integer) (by simp [simpleTypes]))) (.simple (real := stod) (ks := ["OCTET", "STRING"]) (k := .octetString) (by simp [simpleTypes])))
  have m3 := ModuleN.full (o := []) (e := []) (i := []) "SimpleChoice".toList .nothing .nothing .nothing .nothing (.one (.type "Simple".toList h3_0))
  have h4_0 := TypeN.choice (real := stod) (.more "c".toList (.more "b".toList (.one "a".toList (.tagged 98 .context (by decide) .implicit (.simple (real := stod) (ks := ["INTEGER"]) (k := .integer) (by simp [simpleTypes])))) (.tagged 99 .context (by decide) .implicit (.simple (real := stod) (ks := ["OCTET", "STRING"]) (k := .octetString) (by simp [simpleTypes])))) (.tagged 100 .context (by decide) .implicit (.simple (real := stod) (ks := ["OCTET", "STRING"]) (k := .octetString) (by simp [simpleTypes]))))
  have m4 := ModuleN.full (o := []) (e := []) (i := []) "Clashing".toList .nothing .nothing .nothing .nothing (.one (.type "Clash".toList h4_0))
  have h5_0 := TypeN.choice (real := stod) (.more "two".toList (.one "one".toList (.choice (.more "b".toList (.one "a".toList (.tagged 1 .context (by decide) .implicit (.simple (real := stod) (ks := ["OCTET", "STRING"]) (k := .octetString) (by simp [simpleTypes])))) (.tagged 2 .context (by decide) .implicit (.simple (real := stod) (ks := ["OCTET", "STRING"]) (k := .octetString) (by simp [simpleTypes])))))) (.choice (.more "d".toList (.one "c".toList (.tagged 3 .context (by decide) .implicit (.simple (real := stod) (ks := ["OCTET", "STRING"]) (k := .octetString) (by simp [simpleTypes])))) (.tagged 4 .context (by decide) .implicit (.simple (real := stod) (ks := ["OCTET", "STRING"]) (k := .octetString) (by simp [simpleTypes]))))))
  have m5 := ModuleN.full (o := []) (e := []) (i := []) "ChoiceOfChoice".toList .nothing .nothing .nothing .nothing (.one (.type "C".toList h5_0))
  exact .cons file_items (.more m0 (.more m1 (.more m2 (.more m3 (.more m4 (.one m5)))))) .nil

/-- The conditions of C98 hold: the file is compiled. -/
theorem compiled (stod : Bytes → UInt64) : ∃ env, TextCompiled stod demoLib [bytes file] modules env :=
  C98_text_compiled_partial (written stod) (Check.plainSource_sound (by decide +kernel)) (Check.supportedSource_sound (fuel := 20) (by decide +kernel))
    (Check.legal_sound (fuel := 20) (by decide +kernel)) (Check.accepted_sound (fuel := 20) (by decide +kernel)) (Check.compilableSource_sound (fuel := 20) (by decide +kernel))
    (demoLib_takes (fuel := 20) (by decide +kernel)) demoLib_defaults

/-! ## The choice in `MakeAChoice.Collection` -/

def module : Module := modules[0]

def collection : AType := .sequence [required "the_choice" (.choice [.mk "hello" (.prefixed .contextSpecific 0 .automatic (.leaf .octetString)), .mk "goodbye" (.prefixed .contextSpecific 1 .automatic (.leaf .octetString)), .mk "integer" (.prefixed .contextSpecific 2 .automatic (.leaf .integer)), .mk "boolean" (.prefixed .contextSpecific 3 .automatic (.defined none "BoolMod2" [])), .mk "sequence" (.prefixed .contextSpecific 4 .automatic (.sequence [required "i" (.leaf .integer)] false))] .static_)] false

/-- A value of the choice with room in the library, and its octets. -/
inductive Chosen : Val → Bytes → Prop where
  | hello (s : Bytes) : s.length < 2 ^ 63 → Chosen (.alt 0 (.content s)) (elem 0x80 s)
  | goodbye (s : Bytes) : s.length < 2 ^ 63 → Chosen (.alt 1 (.content s)) (elem 0x81 s)
  | integer (i : Bytes) : i.length ≤ 8 → Chosen (.alt 2 (.content i)) (elem 0x82 i)
  | boolean (b : UInt8) : Chosen (.alt 3 (.content [b])) (elem 0x83 [b])
  | sequence (i : Bytes) : i.length ≤ 8 → Chosen (.alt 4 (.struct [.content i])) (elem 0xa4 (elem 0x02 i))

theorem assigned : SourceAssigned ⟨modules⟩ module "Collection" collection where
  module := .head _
  assignment := ⟨_, .head _, rfl, rfl⟩
  tags := Check.taggedStruct_sound 5 _ _ rfl

theorem chosen_value {v : Val} {c : Bytes} (h : Chosen v c) :
    Ast.Spec.Value storable (qualify ⟨modules⟩) (qualifyModule ⟨modules⟩ module) (qualifyType ⟨modules⟩ module.name collection) (.struct [v]) := by
  refine .intro (.here rfl) (.sequence (.mandatory (.intro (.here rfl) ?_) (.nil _)))
  cases h with
  | hello s hs => exact .choice (i := 0) rfl (.intro (.prefixed (.here rfl)) (.leaf hs))
  | goodbye s hs => exact .choice (i := 1) rfl (.intro (.prefixed (.here rfl)) (.leaf hs))
  | integer i hi => exact .choice (i := 2) rfl (.intro (.prefixed (.here rfl)) (.leaf hi))
  | boolean b => exact .choice (i := 3) rfl (.intro (.prefixed (.reference rfl (.here rfl))) (.leaf rfl))
  | sequence i hi => exact .choice (i := 4) rfl (.intro (.prefixed (.here rfl)) (.sequence (.mandatory (.intro (.here rfl) (.leaf hi)) (.nil _))))

theorem chosen_octets {v : Val} {c e : Bytes} (hv : Chosen v c)
    (h : Encodes (shortest holdable) (qualify ⟨modules⟩) (qualifyModule ⟨modules⟩ module) (qualifyType ⟨modules⟩ module.name collection) (.struct [v]) e) : e = elem 0x30 c := by
  obtain ⟨k, c', hc, l, hl, he⟩ := encodes_inv 5 (ts := [(.universal, 16)]) rfl rfl h
  cases hc with
  | sequence hs =>
    cases hs with | mandatory h1 hs =>
    cases hs
    cases hl
    obtain ⟨k', c'', hc, hw⟩ := encodes_inv 5 (ts := []) rfl rfl h1
    have : c'' = c := by
      cases hv with
      | hello s _ => cases hc with | choice hi h2 => cases hi; exact one_tag 5 rfl rfl rfl h2
      | goodbye s _ => cases hc with | choice hi h2 => cases hi; exact one_tag 5 rfl rfl rfl h2
      | integer i _ => cases hc with | choice hi h2 => cases hi; exact one_tag 5 rfl rfl rfl h2
      | boolean b => cases hc with | choice hi h2 => cases hi; exact one_tag 5 rfl rfl rfl h2
      | sequence i _ =>
        cases hc with
        | choice hi h2 =>
          cases hi
          obtain ⟨k3, c3, h3, l3, hl3, he3⟩ := encodes_inv 5 (ts := [(.contextSpecific, 4)]) rfl rfl h2
          cases h3 with
          | sequence hs =>
            cases hs with | mandatory h4 hs =>
            cases hs
            cases hl3
            have e4 := one_tag (i := 0x02) 5 rfl rfl rfl h4
            subst e4
            rw [he3]
            simp only [List.flatten_cons, List.flatten_nil, List.append_nil]
            rfl
    have hw2 := Eq.trans hw this
    subst hw2
    rw [he]
    simp only [List.flatten_cons, List.flatten_nil, List.append_nil]
    rfl

end FastBer.Props.ChoiceFile

namespace FastBer.Props
open FastBer FastBer.Ast FastBer.Ast.Spec FastBer.Spec Lexer Lexer.Spec Notation Parser
open TagsFile (elem)

/-- **C96, testfiles/choice.asn.** The program generated from the text of this file has an object for every alternative of the choice in `MakeAChoice.Collection`, with every value; each that was
assigned, not decoded, is encoded as the octets of that alternative (with its tag, and no tag for the CHOICE) in a SEQUENCE; and decoding them, whatever follows and whatever the object held
before, gives the alternative and the value back. -/
theorem C96_choice_file (stod : Bytes → UInt64) : ∃ env, (∃ fuel, compileFiles stod demoLib fuel [bytes ChoiceFile.file] = .ok env) ∧
    ∃ T, env.typeOf "MakeAChoice" "Collection" = some T ∧ ∀ v c, ChoiceFile.Chosen v c →
      (∃ o e, T.Rep o (.struct [v]) e ∧ T.Fresh o) ∧
      ∀ o e, T.Rep o (.struct [v]) e → T.Fresh o → e.length < 2 ^ 64 → ∀ buf, e.length ≤ buf.length → ∃ buf', T.encode o buf = .ok (⟨true, e.length⟩, buf') ∧
        buf'.take e.length = elem 0x30 c ∧
        ∀ o0, T.Holds o0 → ∀ suffix, ∃ o', T.decode o0 (elem 0x30 c ++ suffix) = .ok (true, o') ∧ T.Rep o' (.struct [v]) e := by
  obtain ⟨env, hc⟩ := ChoiceFile.compiled stod
  refine ⟨env, hc.output, ?_⟩
  obtain ⟨T, ht, h1, h2⟩ := C96_encodes_partial hc ChoiceFile.assigned
  obtain ⟨T', ht', h3⟩ := C96_round_trip_partial hc ChoiceFile.assigned
  cases ht.symm.trans ht'
  refine ⟨T, ht, fun v c hv => ⟨h2 _ (ChoiceFile.chosen_value hv), fun o e hr hf hl buf hb => ?_⟩⟩
  obtain ⟨buf', g1, g2⟩ := (h1 o _ e hr hf hl).2 buf hb
  have g3 := ChoiceFile.chosen_octets hv g2
  refine ⟨buf', g1, g3, fun o0 ho suffix => ?_⟩
  obtain ⟨o', k1, k2, _⟩ := h3 o _ e (ChoiceFile.chosen_value hv) hr hl buf _ buf' g1 rfl o0 ho suffix
  exact ⟨o', by rw [← g3]; exact k1, k2⟩

end FastBer.Props
