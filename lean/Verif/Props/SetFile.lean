import Verif.Props.AcceptsRecursive
import Verif.Props.Layout
/-!
# The sets of testfiles/set.asn
-/
namespace FastBer.Props.SetFile
open FastBer FastBer.Ast FastBer.Ast.Spec FastBer.Spec Lexer Lexer.Spec Notation Parser
/-- testfiles/set.asn. -/
def file : String :=
"Set DEFINITIONS EXPLICIT TAGS ::= BEGIN

Empty ::= SET {
}

Set ::= SET {
    null    NULL,
    integer INTEGER,
    boolean BOOLEAN OPTIONAL,
    string  UTF8String
}

SetWithExtensions ::= SET {
    null    NULL,
    integer INTEGER,
    boolean BOOLEAN OPTIONAL,
    string  UTF8String,
    ...
}

SetWithDuplicateTagDifferentClass ::= SET
{
    appl [APPLICATION 2] INTEGER,
    priv [PRIVATE 2]     INTEGER
}

END

SetAutomatic DEFINITIONS AUTOMATIC TAGS ::= BEGIN

Set ::= SET {
    null    NULL,
    integer INTEGER,
    boolean BOOLEAN OPTIONAL,
    string  UTF8String
}

END


"

def sp : Bytes := [32]
def nl (lines spaces : Nat) : Bytes := List.replicate lines 10 ++ List.replicate spaces 32
def w (s : String) (space : Bytes) : Check.Piece := ⟨s.toList, space⟩
/-- Its items and the white space behind each. -/
def pieces : List Check.Piece := [
  w "Set" sp, w "DEFINITIONS" sp, w "EXPLICIT" sp, w "TAGS" sp, w "::=" sp, w "BEGIN" (nl 2 0), w "Empty" sp, w "::=" sp, w "SET" sp, w "{" (nl 1 0), w "}" (nl 2 0),
  w "Set" sp, w "::=" sp, w "SET" sp, w "{" (nl 1 4), w "null" (nl 0 4), w "NULL" [], w "," (nl 1 4), w "integer" sp, w "INTEGER" [], w "," (nl 1 4), w "boolean" sp,
  w "BOOLEAN" sp, w "OPTIONAL" [], w "," (nl 1 4), w "string" (nl 0 2), w "UTF8String" (nl 1 0), w "}" (nl 2 0), w "SetWithExtensions" sp, w "::=" sp, w "SET" sp,
  w "{" (nl 1 4), w "null" (nl 0 4), w "NULL" [], w "," (nl 1 4), w "integer" sp, w "INTEGER" [], w "," (nl 1 4), w "boolean" sp, w "BOOLEAN" sp, w "OPTIONAL" [],
  w "," (nl 1 4), w "string" (nl 0 2), w "UTF8String" [], w "," (nl 1 4), w "..." (nl 1 0), w "}" (nl 2 0), w "SetWithDuplicateTagDifferentClass" sp, w "::=" sp,
  w "SET" (nl 1 0), w "{" (nl 1 4), w "appl" sp, w "[" [], w "APPLICATION" sp, w "2" [], w "]" sp, w "INTEGER" [], w "," (nl 1 4), w "priv" sp, w "[" [], w "PRIVATE" sp,
  w "2" [], w "]" (nl 0 5), w "INTEGER" (nl 1 0), w "}" (nl 2 0), w "END" (nl 2 0), w "SetAutomatic" sp, w "DEFINITIONS" sp, w "AUTOMATIC" sp, w "TAGS" sp, w "::=" sp,
  w "BEGIN" (nl 2 0), w "Set" sp, w "::=" sp, w "SET" sp, w "{" (nl 1 4), w "null" (nl 0 4), w "NULL" [], w "," (nl 1 4), w "integer" sp, w "INTEGER" [], w "," (nl 1 4),
  w "boolean" sp, w "BOOLEAN" sp, w "OPTIONAL" [], w "," (nl 1 4), w "string" (nl 0 2), w "UTF8String" (nl 1 0), w "}" (nl 2 0), w "END" (nl 3 0)]
def items : List Tok := [
  .upper "Set_".toList, kw "DEFINITIONS", kw "EXPLICIT", kw "TAGS", kw "::=", kw "BEGIN", .upper "Empty".toList, kw "::=", kw "SET", kw "{", kw "}",
  .upper "Set_".toList, kw "::=", kw "SET", kw "{", .lower "null".toList, kw "NULL", kw ",", .lower "integer".toList, kw "INTEGER", kw ",", .lower "boolean".toList,
  kw "BOOLEAN", kw "OPTIONAL", kw ",", .lower "string".toList, kw "UTF8String", kw "}", .upper "SetWithExtensions".toList, kw "::=", kw "SET", kw "{",
  .lower "null".toList, kw "NULL", kw ",", .lower "integer".toList, kw "INTEGER", kw ",", .lower "boolean".toList, kw "BOOLEAN", kw "OPTIONAL", kw ",",
  .lower "string".toList, kw "UTF8String", kw ",", kw "...", kw "}", .upper "SetWithDuplicateTagDifferentClass".toList, kw "::=", kw "SET", kw "{", .lower "appl".toList,
  kw "[", kw "APPLICATION", .number 2, kw "]", kw "INTEGER", kw ",", .lower "priv".toList, kw "[", kw "PRIVATE", .number 2, kw "]", kw "INTEGER", kw "}", kw "END",
  .upper "SetAutomatic".toList, kw "DEFINITIONS", kw "AUTOMATIC", kw "TAGS", kw "::=", kw "BEGIN", .upper "Set_".toList, kw "::=", kw "SET", kw "{",
  .lower "null".toList, kw "NULL", kw ",", .lower "integer".toList, kw "INTEGER", kw ",", .lower "boolean".toList, kw "BOOLEAN", kw "OPTIONAL", kw ",",
  .lower "string".toList, kw "UTF8String", kw "}", kw "END"]

set_option maxRecDepth 100000 in
theorem file_items : Text items (bytes file) := by
  have e0 : items = pieces.map fun p => Check.tokOf p.item := by decide +kernel
  have e : bytes file = Check.textOf pieces := Check.textOf_chars (by rfl)
  rw [e0, e]
  exact Check.items_sound (by decide +kernel)

def modules : List Module := [⟨"Set_", .explicit_, [], [
  { name := "Empty", body := .type (.set [] false) },
  { name := "Set_", body := .type (.set [required "null" (.leaf .null), required "integer" (.leaf .integer), optional "boolean" (.leaf .boolean), required "string" (.leaf (.charString 12))] false) },
  { name := "SetWithExtensions", body := .type (.set [required "null" (.leaf .null), required "integer" (.leaf .integer), optional "boolean" (.leaf .boolean), required "string" (.leaf (.charString 12))] true) },
  { name := "SetWithDuplicateTagDifferentClass", body := .type (.set [required "appl" (.prefixed .application 2 .automatic (.leaf .integer)), required "priv" (.prefixed .private_ 2 .automatic (.leaf .integer))] false) }]⟩,
 ⟨"SetAutomatic", .automatic, [], [
  { name := "Set_", body := .type (.set [required "null" (.leaf .null), required "integer" (.leaf .integer), optional "boolean" (.leaf .boolean), required "string" (.leaf (.charString 12))] false) }]⟩]

theorem written (stod : Bytes → UInt64) : Written stod [bytes file] modules := by
  have h0_0 := TypeN.setEmpty (real := stod)
  have h0_1 := TypeN.set (real := stod) (.root (.more (.more (.more (.one (.required "null".toList (.null))) (.required "integer".toList (.simple (real := stod) (ks := ["INTEGER"]) (k := .integer) (by simp [simpleTypes])))) (.optional "boolean".toList (.simple (real := stod) (ks := ["BOOLEAN"]) (k := .boolean) (by simp [simpleTypes])))) (.required "string".toList (.simple (real := stod) (ks := ["UTF8String"]) (k := (.charString 12)) (by simp [simpleTypes])))))
  have h0_2 := TypeN.set (real := stod) (.extensible (.more (.more (.more (.one (.required "null".toList (.null))) (.required "integer".toList (.simple (real := stod) (ks := ["INTEGER"]) (k := .integer) (by simp [simpleTypes])))) (.optional "boolean".toList (.simple (real := stod) (ks := ["BOOLEAN"]) (k := .boolean) (by simp [simpleTypes])))) (.required "string".toList (.simple (real := stod) (ks := ["UTF8String"]) (k := (.charString 12)) (by simp [simpleTypes])))))
  have h0_3 := TypeN.set (real := stod) (.root (.more (.one (.required "appl".toList (.tagged 2 .application (by decide) .default (.simple (real := stod) (ks := ["INTEGER"]) (k := .integer) (by simp [simpleTypes]))))) (.required "priv".toList (.tagged 2 .private_ (by decide) .default (.simple (real := stod) (ks := ["INTEGER"]) (k := .integer) (by simp [simpleTypes]))))))
  have m0 := ModuleN.full (o := []) (e := []) (i := []) "Set_".toList .nothing .explicit_ .nothing .nothing (.more (.type "Empty".toList h0_0) (.more (.type "Set_".toList h0_1) (.more (.type "SetWithExtensions".toList h0_2) (.one (.type "SetWithDuplicateTagDifferentClass".toList h0_3)))))
  have h1_0 := TypeN.set (real := stod) (.root (.more (.more (.more (.one (.required "null".toList (.null))) (.required "integer".toList (.simple (real := stod) (ks := ["INTEGER"]) (k := .integer) (by simp [simpleTypes])))) (.optional "boolean".toList (.simple (real := stod) (ks := ["BOOLEAN"]) (k := .boolean) (by simp [simpleTypes])))) (.required "string".toList (.simple (real := stod) (ks := ["UTF8String"]) (k := (.charString 12)) (by simp [simpleTypes])))))
  have m1 := ModuleN.full (o := []) (e := []) (i := []) "SetAutomatic".toList .nothing .automatic .nothing .nothing (.one (.type "Set_".toList h1_0))
  exact .cons file_items (.more m0 (.one m1)) .nil

/-- The conditions of C98 hold: the file is compiled. -/
theorem compiled (stod : Bytes → UInt64) : ∃ env, TextCompiled stod demoLib [bytes file] modules env :=
  C98_text_compiled_partial (written stod) (Check.plainSource_sound (by decide +kernel)) (Check.supportedSource_sound (fuel := 20) (by decide +kernel))
    (Check.legal_sound (fuel := 20) (by decide +kernel)) (Check.accepted_sound (fuel := 20) (by decide +kernel)) (Check.compilableSource_sound (fuel := 20) (by decide +kernel))
    (demoLib_takes (fuel := 20) (by decide +kernel)) demoLib_defaults

/-! ## What its sets are decoded from -/

def plain : Module := modules[0]
def automatic : Module := modules[1]

def set : AType := .set [required "null" (.leaf .null), required "integer" (.leaf .integer), optional "boolean" (.leaf .boolean), required "string" (.leaf (.charString 12))] false

theorem plain_assigned : SourceAssigned ⟨modules⟩ plain "Set_" set where
  module := .head _
  assignment := ⟨_, .tail _ (.head _), rfl, rfl⟩
  tags := Check.taggedStruct_sound 5 _ _ rfl

theorem automatic_assigned : SourceAssigned ⟨modules⟩ automatic "Set_" set where
  module := .tail _ (.head _)
  assignment := ⟨_, .head _, rfl, rfl⟩
  tags := Check.taggedStruct_sound 5 _ _ rfl

/-- An element with a one-octet identifier and any definite length field of at most eight further octets. -/
def IsElem (identifier : UInt8) (contents e : Bytes) : Prop := ∃ l, LengthField 8 contents.length l ∧ e = identifier :: (l ++ contents)

/-- The element of an optional component, or nothing. -/
def IsOptional (identifier : UInt8) (b : Option UInt8) (e : Bytes) : Prop := match b with | some b => IsElem identifier [b] e | none => e = []

def boolean : Option UInt8 → Val
  | some b => .present (.content [b])
  | none => .absent

theorem leaf_encodes {tree : Tree} {mod wm : Module} {t : AType} {b : Builtin} {tag : Ast.Spec.Tag} {c e : Bytes} {i : UInt8} (f : Nat) (hts : Check.ownTags tree f mod t = some [tag])
    (hu : Check.core tree f mod t = some (wm, .leaf b)) (hi : identifierOctets (Ast.Spec.classOf tag.1) .primitive tag.2 = [i]) (hc : readable b c) (h : IsElem i c e) :
    Encodes (definite readable) tree mod t (.content c) e := by
  obtain ⟨l, hl, rfl⟩ := h
  exact .intro (Check.ownTags_sound _ _ _ _ hts) (Check.core_sound _ _ _ _ _ hu) (.leaf hc) ⟨l, hl, by rw [hi]; rfl⟩

theorem short_noHuge {c : Bytes} (h : c.length ≤ 8) : NoHugeTag c := by
  rintro ⟨first, mid, tail, rfl, _, _, hm⟩
  have := value128_lt mid
  simp only [List.length_cons, List.length_append] at h
  have : 128 ^ mid.length ≤ 128 ^ 7 := Nat.pow_le_pow_right (by decide) (by omega)
  have : (128 : Nat) ^ 7 < 2 ^ 56 := by decide
  omega

end FastBer.Props.SetFile

namespace FastBer.Props.SetFile
open FastBer FastBer.Ast FastBer.Ast.Spec FastBer.Spec Lexer Lexer.Spec Notation Parser

/-- The component BOOLEAN OPTIONAL and the string behind it. -/
theorem rest_encodes {tree : Tree} {mod : Module} {bt st : AType} {tb ts : Ast.Spec.Tag} {ib is : UInt8} {b : Option UInt8} {s eb es : Bytes} (f : Nat)
    (h1 : Check.ownTags tree f mod bt = some [tb]) (h2 : Check.core tree f mod bt = some (mod, .leaf .boolean)) (h3 : identifierOctets (Ast.Spec.classOf tb.1) .primitive tb.2 = [ib])
    (h4 : Check.ownTags tree f mod st = some [ts]) (h5 : Check.core tree f mod st = some (mod, .leaf (.charString 12))) (h6 : identifierOctets (Ast.Spec.classOf ts.1) .primitive ts.2 = [is])
    (hs : s.length < 2 ^ 63) (hh : NoHugeTag s) (hb : IsOptional ib b eb) (he : IsElem is s es) :
    EncodesSlots (definite readable) tree mod [⟨true, bt⟩, ⟨false, st⟩] [boolean b, .content s] [eb, es] := by
  have g : EncodesSlots (definite readable) tree mod [⟨false, st⟩] [.content s] [es] := .mandatory (leaf_encodes f h4 h5 h6 ⟨hs, hh⟩ he) (.nil _)
  cases b with
  | none => cases hb; exact .absent g
  | some b => exact .present (leaf_encodes f h1 h2 h3 ⟨rfl, short_noHuge (by simp)⟩ hb) g

theorem plain_set {i s en ei eb es e : Bytes} {b : Option UInt8} {parts : List Bytes} (hi : i.length ≤ 8) (hs : s.length < 2 ^ 63) (hh : NoHugeTag s)
    (h1 : IsElem 0x05 [] en) (h2 : IsElem 0x02 i ei) (h3 : IsOptional 0x01 b eb) (h4 : IsElem 0x0c s es) (hp : [en, ei, eb, es].Perm parts) (he : IsElem 0x31 parts.flatten e) :
    Encodes (definite readable) (qualify ⟨modules⟩) (qualifyModule ⟨modules⟩ plain) (qualifyType ⟨modules⟩ plain.name set) (.struct [.content [], .content i, boolean b, .content s]) e := by
  obtain ⟨l, hl, rfl⟩ := he
  refine .intro (ts := [(.universal, 17)]) (Check.ownTags_sound 5 _ _ _ rfl) (Check.core_sound 5 _ _ _ _ rfl) (.set (es := [en, ei, eb, es]) (.mandatory ?_ (.mandatory ?_ ?_)) hp) ⟨l, hl, rfl⟩
  · exact leaf_encodes 5 rfl rfl rfl ⟨rfl, short_noHuge (by decide)⟩ h1
  · exact leaf_encodes 5 rfl rfl rfl ⟨hi, short_noHuge hi⟩ h2
  · exact rest_encodes 5 rfl rfl rfl rfl rfl rfl hs hh h3 h4

theorem automatic_set {i s en ei eb es e : Bytes} {b : Option UInt8} {parts : List Bytes} (hi : i.length ≤ 8) (hs : s.length < 2 ^ 63) (hh : NoHugeTag s)
    (h1 : IsElem 0x80 [] en) (h2 : IsElem 0x81 i ei) (h3 : IsOptional 0x82 b eb) (h4 : IsElem 0x83 s es) (hp : [en, ei, eb, es].Perm parts) (he : IsElem 0x31 parts.flatten e) :
    Encodes (definite readable) (qualify ⟨modules⟩) (qualifyModule ⟨modules⟩ automatic) (qualifyType ⟨modules⟩ automatic.name set)
      (.struct [.content [], .content i, boolean b, .content s]) e := by
  obtain ⟨l, hl, rfl⟩ := he
  refine .intro (ts := [(.universal, 17)]) (Check.ownTags_sound 5 _ _ _ rfl) (Check.core_sound 5 _ _ _ _ rfl) (.set (es := [en, ei, eb, es]) (.mandatory ?_ (.mandatory ?_ ?_)) hp) ⟨l, hl, rfl⟩
  · exact leaf_encodes 5 rfl rfl rfl ⟨rfl, short_noHuge (by decide)⟩ h1
  · exact leaf_encodes 5 rfl rfl rfl ⟨hi, short_noHuge hi⟩ h2
  · exact rest_encodes 5 rfl rfl rfl rfl rfl rfl hs hh h3 h4

end FastBer.Props.SetFile

namespace FastBer.Props
open FastBer FastBer.Ast FastBer.Ast.Spec FastBer.Spec Lexer Lexer.Spec Notation Parser
open SetFile (IsElem IsOptional)

/-- **C96, testfiles/set.asn.** The program generated from the text of this file decodes a `Set` from its components in any order, with any definite lengths, with or without the optional
component, whatever the object held before: in the first module from elements with universal tags, in the module with AUTOMATIC TAGS from elements with the tags 0 to 3.  (Strings must not begin
like an element whose tag number is 2^63 or more, `NoHugeTag`: C06, C44.) -/
theorem C96_set_file_partial (stod : Bytes → UInt64) : ∃ env, (∃ fuel, compileFiles stod demoLib fuel [bytes SetFile.file] = .ok env) ∧
    (∃ T, env.typeOf "Set_" "Set_" = some T ∧ ∀ i s b, i.length ≤ 8 → s.length < 2 ^ 63 → NoHugeTag s →
      ∀ en ei eb es, IsElem 0x05 [] en → IsElem 0x02 i ei → IsOptional 0x01 b eb → IsElem 0x0c s es → ∀ parts, [en, ei, eb, es].Perm parts → ∀ e, IsElem 0x31 parts.flatten e →
        e.length < 2 ^ 64 → ∀ o0, T.Holds o0 → ∃ o' e', T.decode o0 e = .ok (true, o') ∧ T.Rep o' (.struct [.content [], .content i, SetFile.boolean b, .content s]) e') ∧
    ∃ T, env.typeOf "SetAutomatic" "Set_" = some T ∧ ∀ i s b, i.length ≤ 8 → s.length < 2 ^ 63 → NoHugeTag s →
      ∀ en ei eb es, IsElem 0x80 [] en → IsElem 0x81 i ei → IsOptional 0x82 b eb → IsElem 0x83 s es → ∀ parts, [en, ei, eb, es].Perm parts → ∀ e, IsElem 0x31 parts.flatten e →
        e.length < 2 ^ 64 → ∀ o0, T.Holds o0 → ∃ o' e', T.decode o0 e = .ok (true, o') ∧ T.Rep o' (.struct [.content [], .content i, SetFile.boolean b, .content s]) e' := by
  obtain ⟨env, hc⟩ := SetFile.compiled stod
  have hb : NoBareChoice (qualify ⟨SetFile.modules⟩) := Check.noBareChoice_sound (fuel := 20) (by decide +kernel)
  refine ⟨env, hc.output, ?_, ?_⟩
  · obtain ⟨T, ht, h⟩ := C96_decodes_partial hc hb SetFile.plain_assigned
    refine ⟨T, ht, fun i s b hi hs hh en ei eb es h1 h2 h3 h4 parts hp e he hl o0 ho => ?_⟩
    have := h _ e (SetFile.plain_set hi hs hh h1 h2 h3 h4 hp he) hl [] sane_nil o0 ho
    rwa [List.append_nil] at this
  · obtain ⟨T, ht, h⟩ := C96_decodes_partial hc hb SetFile.automatic_assigned
    refine ⟨T, ht, fun i s b hi hs hh en ei eb es h1 h2 h3 h4 parts hp e he hl o0 ho => ?_⟩
    have := h _ e (SetFile.automatic_set hi hs hh h1 h2 h3 h4 hp he) hl [] sane_nil o0 ho
    rwa [List.append_nil] at this

/-- A set in reverse order without its optional component, as octets. -/
example : ∃ en ei eb es parts, IsElem 0x05 [] en ∧ IsElem 0x02 [42] ei ∧ IsOptional 0x01 none eb ∧ IsElem 0x0c [104, 105] es ∧ [en, ei, eb, es].Perm parts ∧ NoHugeTag [104, 105] ∧
    IsElem 0x31 parts.flatten [0x31, 0x81, 9, 0x0c, 2, 104, 105, 2, 1, 42, 5, 0] :=
  ⟨[5, 0], [2, 1, 42], [], [0x0c, 2, 104, 105], [[0x0c, 2, 104, 105], [], [2, 1, 42], [5, 0]], ⟨[0], .short (by decide), rfl⟩, ⟨[1], .short (by decide), rfl⟩, rfl, ⟨[2], .short (by decide), rfl⟩,
    (List.reverse_perm _).symm, SetFile.short_noHuge (by decide), ⟨[0x81, 9], .long (ds := [9]) (by decide) (by decide) (by decide), rfl⟩⟩

end FastBer.Props
