import Verif.Props.AcceptsRecursive
import Verif.Props.Layout
/-!
# The tags of testfiles/tags.asn
-/
namespace FastBer.Props.TagsFile
open FastBer FastBer.Ast FastBer.Ast.Spec FastBer.Spec Lexer Lexer.Spec Notation Parser
/-- testfiles/tags.asn. -/
def file : String :=
"Tags DEFINITIONS IMPLICIT TAGS ::= BEGIN

Collection ::= SEQUENCE {
    string1 [0] OCTET STRING,
    string2 [1] OCTET STRING,
    integer [2] EXPLICIT INTEGER,
    bool1 [3] IMPLICIT BOOLEAN,
    bool2 [PRIVATE 4] EXPLICIT BOOLEAN,
    bool3 [APPLICATION 5] BOOLEAN,
    enumerated [APPLICATION 6] ENUMERATED { enum }
}

DefaultCollection ::= SEQUENCE {
    string1 OCTET STRING,
    string2 OCTET STRING,
    string3 OCTET STRING
}

TaggedEnum ::= [APPLICATION 7] ENUMERATED { enum }

END

AutomaticTags DEFINITIONS AUTOMATIC TAGS ::= BEGIN

DefaultCollection ::= SEQUENCE {
    string1 OCTET STRING,
    string2 OCTET STRING,
    string3 OCTET STRING
}

END
"

def sp : Bytes := [32]
def nl (lines spaces : Nat) : Bytes := List.replicate lines 10 ++ List.replicate spaces 32
def w (s : String) (space : Bytes) : Check.Piece := ⟨s.toList, space⟩
/-- Its items and the white space behind each. -/
def pieces : List Check.Piece := [
  w "Tags" sp, w "DEFINITIONS" sp, w "IMPLICIT" sp, w "TAGS" sp, w "::=" sp, w "BEGIN" (nl 2 0), w "Collection" sp, w "::=" sp, w "SEQUENCE" sp, w "{" (nl 1 4),
  w "string1" sp, w "[" [], w "0" [], w "]" sp, w "OCTET" sp, w "STRING" [], w "," (nl 1 4), w "string2" sp, w "[" [], w "1" [], w "]" sp, w "OCTET" sp, w "STRING" [],
  w "," (nl 1 4), w "integer" sp, w "[" [], w "2" [], w "]" sp, w "EXPLICIT" sp, w "INTEGER" [], w "," (nl 1 4), w "bool1" sp, w "[" [], w "3" [], w "]" sp,
  w "IMPLICIT" sp, w "BOOLEAN" [], w "," (nl 1 4), w "bool2" sp, w "[" [], w "PRIVATE" sp, w "4" [], w "]" sp, w "EXPLICIT" sp, w "BOOLEAN" [], w "," (nl 1 4),
  w "bool3" sp, w "[" [], w "APPLICATION" sp, w "5" [], w "]" sp, w "BOOLEAN" [], w "," (nl 1 4), w "enumerated" sp, w "[" [], w "APPLICATION" sp, w "6" [], w "]" sp,
  w "ENUMERATED" sp, w "{" sp, w "enum" sp, w "}" (nl 1 0), w "}" (nl 2 0), w "DefaultCollection" sp, w "::=" sp, w "SEQUENCE" sp, w "{" (nl 1 4), w "string1" sp,
  w "OCTET" sp, w "STRING" [], w "," (nl 1 4), w "string2" sp, w "OCTET" sp, w "STRING" [], w "," (nl 1 4), w "string3" sp, w "OCTET" sp, w "STRING" (nl 1 0),
  w "}" (nl 2 0), w "TaggedEnum" sp, w "::=" sp, w "[" [], w "APPLICATION" sp, w "7" [], w "]" sp, w "ENUMERATED" sp, w "{" sp, w "enum" sp, w "}" (nl 2 0),
  w "END" (nl 2 0), w "AutomaticTags" sp, w "DEFINITIONS" sp, w "AUTOMATIC" sp, w "TAGS" sp, w "::=" sp, w "BEGIN" (nl 2 0), w "DefaultCollection" sp, w "::=" sp,
  w "SEQUENCE" sp, w "{" (nl 1 4), w "string1" sp, w "OCTET" sp, w "STRING" [], w "," (nl 1 4), w "string2" sp, w "OCTET" sp, w "STRING" [], w "," (nl 1 4),
  w "string3" sp, w "OCTET" sp, w "STRING" (nl 1 0), w "}" (nl 2 0), w "END" (nl 1 0)]
def items : List Tok := [
  .upper "Tags".toList, kw "DEFINITIONS", kw "IMPLICIT", kw "TAGS", kw "::=", kw "BEGIN", .upper "Collection".toList, kw "::=", kw "SEQUENCE", kw "{",
  .lower "string1".toList, kw "[", .number 0, kw "]", kw "OCTET", kw "STRING", kw ",", .lower "string2".toList, kw "[", .number 1, kw "]", kw "OCTET", kw "STRING",
  kw ",", .lower "integer".toList, kw "[", .number 2, kw "]", kw "EXPLICIT", kw "INTEGER", kw ",", .lower "bool1".toList, kw "[", .number 3, kw "]", kw "IMPLICIT",
  kw "BOOLEAN", kw ",", .lower "bool2".toList, kw "[", kw "PRIVATE", .number 4, kw "]", kw "EXPLICIT", kw "BOOLEAN", kw ",", .lower "bool3".toList, kw "[",
  kw "APPLICATION", .number 5, kw "]", kw "BOOLEAN", kw ",", .lower "enumerated".toList, kw "[", kw "APPLICATION", .number 6, kw "]", kw "ENUMERATED", kw "{",
  .lower "enum_".toList, kw "}", kw "}", .upper "DefaultCollection".toList, kw "::=", kw "SEQUENCE", kw "{", .lower "string1".toList, kw "OCTET", kw "STRING", kw ",",
  .lower "string2".toList, kw "OCTET", kw "STRING", kw ",", .lower "string3".toList, kw "OCTET", kw "STRING", kw "}", .upper "TaggedEnum".toList, kw "::=", kw "[",
  kw "APPLICATION", .number 7, kw "]", kw "ENUMERATED", kw "{", .lower "enum_".toList, kw "}", kw "END", .upper "AutomaticTags".toList, kw "DEFINITIONS", kw "AUTOMATIC",
  kw "TAGS", kw "::=", kw "BEGIN", .upper "DefaultCollection".toList, kw "::=", kw "SEQUENCE", kw "{", .lower "string1".toList, kw "OCTET", kw "STRING", kw ",",
  .lower "string2".toList, kw "OCTET", kw "STRING", kw ",", .lower "string3".toList, kw "OCTET", kw "STRING", kw "}", kw "END"]

set_option maxRecDepth 100000 in
theorem file_items : Text items (bytes file) := by
  have e0 : items = pieces.map fun p => Check.tokOf p.item := by decide +kernel
  have e : bytes file = Check.textOf pieces := Check.textOf_chars (by rfl)
  rw [e0, e]
  exact Check.items_sound (by decide +kernel)

def modules : List Module := [⟨"Tags", .implicit, [], [
  { name := "Collection", body := .type (.sequence [required "string1" (.prefixed .contextSpecific 0 .automatic (.leaf .octetString)), required "string2" (.prefixed .contextSpecific 1 .automatic (.leaf .octetString)), required "integer" (.prefixed .contextSpecific 2 .explicit_ (.leaf .integer)), required "bool1" (.prefixed .contextSpecific 3 .implicit (.leaf .boolean)), required "bool2" (.prefixed .private_ 4 .explicit_ (.leaf .boolean)), required "bool3" (.prefixed .application 5 .automatic (.leaf .boolean)), required "enumerated" (.prefixed .application 6 .automatic (.leaf .enumerated))] false) },
  { name := "DefaultCollection", body := .type (.sequence [required "string1" (.leaf .octetString), required "string2" (.leaf .octetString), required "string3" (.leaf .octetString)] false) },
  { name := "TaggedEnum", body := .type (.prefixed .application 7 .automatic (.leaf .enumerated)) }]⟩,
 ⟨"AutomaticTags", .automatic, [], [
  { name := "DefaultCollection", body := .type (.sequence [required "string1" (.leaf .octetString), required "string2" (.leaf .octetString), required "string3" (.leaf .octetString)] false) }]⟩]

theorem written (stod : Bytes → UInt64) : Written stod [bytes file] modules := by
  have h0_0 := TypeN.sequence (real := stod) (.root (.more (.more (.more (.more (.more (.more (.one (.required "string1".toList (.tagged 0 .context (by decide) .default (.simple (real := stod) (ks := ["OCTET", "STRING"]) (k := .octetString) (by simp [simpleTypes]))))) (.required "string2".toList (.tagged 1 .context (by decide) .default (.simple (real := stod) (ks := ["OCTET", "STRING"]) (k := .octetString) (by simp [simpleTypes]))))) (.required "integer".toList (.tagged 2 .context (by decide) .explicit_ (.simple (real := stod) (ks := ["INTEGER"]) (k := .integer) (by simp [simpleTypes]))))) (.required "bool1".toList (.tagged 3 .context (by decide) .implicit (.simple (real := stod) (ks := ["BOOLEAN"]) (k := .boolean) (by simp [simpleTypes]))))) (.required "bool2".toList (.tagged 4 .private_ (by decide) .explicit_ (.simple (real := stod) (ks := ["BOOLEAN"]) (k := .boolean) (by simp [simpleTypes]))))) (.required "bool3".toList (.tagged 5 .application (by decide) .default (.simple (real := stod) (ks := ["BOOLEAN"]) (k := .boolean) (by simp [simpleTypes]))))) (.required "enumerated".toList (.tagged 6 .application (by decide) .default (.enumerated (.root (.one (.plain "enum_".toList))))))))
  have h0_1 := TypeN.sequence (real := stod) (.root (.more (.more (.one (.required "string1".toList (.simple (real := stod) (ks := ["OCTET", "STRING"]) (k := .octetString) (by simp [simpleTypes])))) (.required "string2".toList (.simple (real := stod) (ks := ["OCTET", "STRING"]) (k := .octetString) (by simp [simpleTypes])))) (.required "string3".toList (.simple (real := stod) (ks := ["OCTET", "STRING"]) (k := .octetString) (by simp [simpleTypes])))))
  have h0_2 := TypeN.tagged (real := stod) 7 .application (by decide) .default (.enumerated (.root (.one (.plain "enum_".toList))))
  have m0 := ModuleN.full (o := []) (e := []) (i := []) "Tags".toList .nothing .implicit .nothing .nothing (.more (.type "Collection".toList h0_0) (.more (.type "DefaultCollection".toList h0_1) (.one (.type "TaggedEnum".toList h0_2))))
  have h1_0 := TypeN.sequence (real := stod) (.root (.more (.more (.one (.required "string1".toList (.simple (real := stod) (ks := ["OCTET", "STRING"]) (k := .octetString) (by simp [simpleTypes])))) (.required "string2".toList (.simple (real := stod) (ks := ["OCTET", "STRING"]) (k := .octetString) (by simp [simpleTypes])))) (.required "string3".toList (.simple (real := stod) (ks := ["OCTET", "STRING"]) (k := .octetString) (by simp [simpleTypes])))))
  have m1 := ModuleN.full (o := []) (e := []) (i := []) "AutomaticTags".toList .nothing .automatic .nothing .nothing (.one (.type "DefaultCollection".toList h1_0))
  exact .cons file_items (.more m0 (.one m1)) .nil

/-- The conditions of C98 hold: the file is compiled. -/
theorem compiled (stod : Bytes → UInt64) : ∃ env, TextCompiled stod demoLib [bytes file] modules env :=
  C98_text_compiled_partial (written stod) (Check.plainSource_sound (by decide +kernel)) (Check.supportedSource_sound (fuel := 20) (by decide +kernel))
    (Check.legal_sound (fuel := 20) (by decide +kernel)) (Check.accepted_sound (fuel := 20) (by decide +kernel)) (Check.compilableSource_sound (fuel := 20) (by decide +kernel))
    (demoLib_takes (fuel := 20) (by decide +kernel)) demoLib_defaults

/-! ## What the encodings of its types are -/

/-- An element with a one-octet identifier and the shortest length octets. -/
def elem (identifier : UInt8) (contents : Bytes) : Bytes := identifier :: (lengthOctets contents.length ++ contents)

theorem encodes_inv {r : Rules} {tree : Tree} {mod wm : Module} {t u : AType} {ts : List Ast.Spec.Tag} {x : Val} {e : Bytes} (f : Nat) (hts : Check.ownTags tree f mod t = some ts)
    (hu : Check.core tree f mod t = some (wm, u)) (h : Encodes r tree mod t x e) : ∃ k c, Contents r tree wm u x k c ∧ Wrapped r ts k c e := by
  cases h with
  | intro h1 h2 h3 h4 =>
    cases h1.unique (Check.ownTags_sound _ _ _ _ hts)
    obtain ⟨rfl, rfl⟩ := h2.unique (Check.core_sound _ _ _ _ _ hu)
    exact ⟨_, _, h3, h4⟩

/-- A simple type with one tag. -/
theorem one_tag {g : Builtin → Bytes → Prop} {tree : Tree} {mod wm : Module} {t : AType} {b : Builtin} {tag : Ast.Spec.Tag} {c e : Bytes} {i : UInt8} (f : Nat)
    (hts : Check.ownTags tree f mod t = some [tag]) (hu : Check.core tree f mod t = some (wm, .leaf b)) (hi : identifierOctets (Ast.Spec.classOf tag.1) .primitive tag.2 = [i])
    (h : Encodes (shortest g) tree mod t (.content c) e) : e = elem i c := by
  obtain ⟨k, c', hc, l, hl, he⟩ := encodes_inv f hts hu h
  cases hc
  cases hl
  rw [he, hi]; rfl

/-- A simple type with an explicit tag. -/
theorem two_tags {g : Builtin → Bytes → Prop} {tree : Tree} {mod wm : Module} {t : AType} {b : Builtin} {tag tag' : Ast.Spec.Tag} {c e : Bytes} {i i' : UInt8} (f : Nat)
    (hts : Check.ownTags tree f mod t = some [tag, tag']) (hu : Check.core tree f mod t = some (wm, .leaf b)) (hi : identifierOctets (Ast.Spec.classOf tag.1) .constructed tag.2 = [i])
    (hi' : identifierOctets (Ast.Spec.classOf tag'.1) .primitive tag'.2 = [i']) (h : Encodes (shortest g) tree mod t (.content c) e) : e = elem i (elem i' c) := by
  obtain ⟨k, c', hc, e', ⟨l', hl', he'⟩, l, hl, he⟩ := encodes_inv f hts hu h
  cases hc
  cases hl
  cases hl'
  rw [he, he', hi, hi']; rfl

def tags : Module := modules[0]
def automatic : Module := modules[1]

def collection : AType := .sequence [required "string1" (.prefixed .contextSpecific 0 .automatic (.leaf .octetString)), required "string2" (.prefixed .contextSpecific 1 .automatic (.leaf .octetString)),
  required "integer" (.prefixed .contextSpecific 2 .explicit_ (.leaf .integer)), required "bool1" (.prefixed .contextSpecific 3 .implicit (.leaf .boolean)),
  required "bool2" (.prefixed .private_ 4 .explicit_ (.leaf .boolean)), required "bool3" (.prefixed .application 5 .automatic (.leaf .boolean)),
  required "enumerated" (.prefixed .application 6 .automatic (.leaf .enumerated))] false
def defaultCollection : AType := .sequence [required "string1" (.leaf .octetString), required "string2" (.leaf .octetString), required "string3" (.leaf .octetString)] false

theorem collection_assigned : SourceAssigned ⟨modules⟩ tags "Collection" collection where
  module := .head _
  assignment := ⟨_, .head _, rfl, rfl⟩
  tags := Check.taggedStruct_sound 5 _ _ rfl

theorem default_assigned : SourceAssigned ⟨modules⟩ tags "DefaultCollection" defaultCollection where
  module := .head _
  assignment := ⟨_, .tail _ (.head _), rfl, rfl⟩
  tags := Check.taggedStruct_sound 5 _ _ rfl

theorem automatic_assigned : SourceAssigned ⟨modules⟩ automatic "DefaultCollection" defaultCollection where
  module := .tail _ (.head _)
  assignment := ⟨_, .head _, rfl, rfl⟩
  tags := Check.taggedStruct_sound 5 _ _ rfl

theorem collection_octets {s1 s2 i en : Bytes} {b1 b2 b3 : UInt8} {e : Bytes}
    (h : Encodes (shortest holdable) (qualify ⟨modules⟩) (qualifyModule ⟨modules⟩ tags) (qualifyType ⟨modules⟩ tags.name collection)
      (.struct [.content s1, .content s2, .content i, .content [b1], .content [b2], .content [b3], .content en]) e) :
    e = elem 0x30 (elem 0x80 s1 ++ (elem 0x81 s2 ++ (elem 0xa2 (elem 0x02 i) ++ (elem 0x83 [b1] ++ (elem 0xe4 (elem 0x01 [b2]) ++ (elem 0x45 [b3] ++ elem 0x46 en)))))) := by
  obtain ⟨k, c, hc, l, hl, he⟩ := encodes_inv 5 (ts := [(.universal, 16)]) rfl rfl h
  cases hc with
  | sequence hs =>
    cases hs with | mandatory h1 hs => cases hs with | mandatory h2 hs => cases hs with | mandatory h3 hs => cases hs with | mandatory h4 hs => cases hs with | mandatory h5 hs =>
    cases hs with | mandatory h6 hs => cases hs with | mandatory h7 hs =>
    cases hs
    cases hl
    have e1 := one_tag (i := 0x80) 5 rfl rfl rfl h1
    have e2 := one_tag (i := 0x81) 5 rfl rfl rfl h2
    have e3 := two_tags (i := 0xa2) (i' := 0x02) 5 rfl rfl rfl rfl h3
    have e4 := one_tag (i := 0x83) 5 rfl rfl rfl h4
    have e5 := two_tags (i := 0xe4) (i' := 0x01) 5 rfl rfl rfl rfl h5
    have e6 := one_tag (i := 0x45) 5 rfl rfl rfl h6
    have e7 := one_tag (i := 0x46) 5 rfl rfl rfl h7
    subst e1 e2 e3 e4 e5 e6 e7
    rw [he]
    simp only [List.flatten_cons, List.flatten_nil, List.append_nil]
    rfl

theorem default_octets {s1 s2 s3 : Bytes} {e : Bytes}
    (h : Encodes (shortest holdable) (qualify ⟨modules⟩) (qualifyModule ⟨modules⟩ tags) (qualifyType ⟨modules⟩ tags.name defaultCollection)
      (.struct [.content s1, .content s2, .content s3]) e) :
    e = elem 0x30 (elem 0x04 s1 ++ (elem 0x04 s2 ++ elem 0x04 s3)) := by
  obtain ⟨k, c, hc, l, hl, he⟩ := encodes_inv 5 (ts := [(.universal, 16)]) rfl rfl h
  cases hc with
  | sequence hs =>
    cases hs with | mandatory h1 hs => cases hs with | mandatory h2 hs => cases hs with | mandatory h3 hs =>
    cases hs
    cases hl
    have e1 := one_tag (i := 0x04) 5 rfl rfl rfl h1
    have e2 := one_tag (i := 0x04) 5 rfl rfl rfl h2
    have e3 := one_tag (i := 0x04) 5 rfl rfl rfl h3
    subst e1 e2 e3
    rw [he]
    simp only [List.flatten_cons, List.flatten_nil, List.append_nil]
    rfl

theorem automatic_octets {s1 s2 s3 : Bytes} {e : Bytes}
    (h : Encodes (shortest holdable) (qualify ⟨modules⟩) (qualifyModule ⟨modules⟩ automatic) (qualifyType ⟨modules⟩ automatic.name defaultCollection)
      (.struct [.content s1, .content s2, .content s3]) e) :
    e = elem 0x30 (elem 0x80 s1 ++ (elem 0x81 s2 ++ elem 0x82 s3)) := by
  obtain ⟨k, c, hc, l, hl, he⟩ := encodes_inv 5 (ts := [(.universal, 16)]) rfl rfl h
  cases hc with
  | sequence hs =>
    cases hs with | mandatory h1 hs => cases hs with | mandatory h2 hs => cases hs with | mandatory h3 hs =>
    cases hs
    cases hl
    have e1 := one_tag (i := 0x80) 5 rfl rfl rfl h1
    have e2 := one_tag (i := 0x81) 5 rfl rfl rfl h2
    have e3 := one_tag (i := 0x82) 5 rfl rfl rfl h3
    subst e1 e2 e3
    rw [he]
    simp only [List.flatten_cons, List.flatten_nil, List.append_nil]
    rfl

end FastBer.Props.TagsFile

namespace FastBer.Props
open FastBer FastBer.Ast FastBer.Ast.Spec FastBer.Spec Lexer Lexer.Spec Notation Parser
open TagsFile (elem)

/-- **C96, testfiles/tags.asn.** What the program generated from the text of this file writes, octet by octet: `Tags.Collection` with its context-specific, private and application tags, the
explicit ones around the universal ones; `Tags.DefaultCollection` with universal tags; the same type in the module with AUTOMATIC TAGS with the tags 0, 1, 2.  There is an object for every value
with room in the library (integers and enumerated values of up to eight octets), and every object with that value that was assigned, not decoded, is encoded as these octets. -/
theorem C96_tags_file (stod : Bytes → UInt64) : ∃ env, (∃ fuel, compileFiles stod demoLib fuel [bytes TagsFile.file] = .ok env) ∧
    (∃ T, env.typeOf "Tags" "Collection" = some T ∧ ∀ s1 s2 i en b1 b2 b3, s1.length < 2 ^ 63 → s2.length < 2 ^ 63 → i.length ≤ 8 → en.length ≤ 8 →
      let x : Val := .struct [.content s1, .content s2, .content i, .content [b1], .content [b2], .content [b3], .content en]
      (∃ o e, T.Rep o x e ∧ T.Fresh o) ∧
      ∀ o e, T.Rep o x e → T.Fresh o → e.length < 2 ^ 64 → ∀ buf, e.length ≤ buf.length → ∃ buf', T.encode o buf = .ok (⟨true, e.length⟩, buf') ∧
        buf'.take e.length = elem 0x30 (elem 0x80 s1 ++ (elem 0x81 s2 ++ (elem 0xa2 (elem 0x02 i) ++ (elem 0x83 [b1] ++ (elem 0xe4 (elem 0x01 [b2]) ++ (elem 0x45 [b3] ++ elem 0x46 en))))))) ∧
    (∃ T, env.typeOf "Tags" "DefaultCollection" = some T ∧ ∀ s1 s2 s3, s1.length < 2 ^ 63 → s2.length < 2 ^ 63 → s3.length < 2 ^ 63 →
      (∃ o e, T.Rep o (.struct [.content s1, .content s2, .content s3]) e ∧ T.Fresh o) ∧
      ∀ o e, T.Rep o (.struct [.content s1, .content s2, .content s3]) e → T.Fresh o → e.length < 2 ^ 64 → ∀ buf, e.length ≤ buf.length →
        ∃ buf', T.encode o buf = .ok (⟨true, e.length⟩, buf') ∧ buf'.take e.length = elem 0x30 (elem 0x04 s1 ++ (elem 0x04 s2 ++ elem 0x04 s3))) ∧
    ∃ T, env.typeOf "AutomaticTags" "DefaultCollection" = some T ∧ ∀ s1 s2 s3, s1.length < 2 ^ 63 → s2.length < 2 ^ 63 → s3.length < 2 ^ 63 →
      (∃ o e, T.Rep o (.struct [.content s1, .content s2, .content s3]) e ∧ T.Fresh o) ∧
      ∀ o e, T.Rep o (.struct [.content s1, .content s2, .content s3]) e → T.Fresh o → e.length < 2 ^ 64 → ∀ buf, e.length ≤ buf.length →
        ∃ buf', T.encode o buf = .ok (⟨true, e.length⟩, buf') ∧ buf'.take e.length = elem 0x30 (elem 0x80 s1 ++ (elem 0x81 s2 ++ elem 0x82 s3)) := by
  obtain ⟨env, hc⟩ := TagsFile.compiled stod
  refine ⟨env, hc.output, ?_, ?_, ?_⟩
  · obtain ⟨T, ht, h1, h2⟩ := C96_encodes_partial hc TagsFile.collection_assigned
    refine ⟨T, ht, fun s1 s2 i en b1 b2 b3 l1 l2 li le => ⟨h2 _ ?_, fun o e hr hf hl buf hb => ?_⟩⟩
    · exact .intro (.here rfl) (.sequence (.mandatory (.intro (.prefixed (.here rfl)) (.leaf l1)) (.mandatory (.intro (.prefixed (.here rfl)) (.leaf l2))
        (.mandatory (.intro (.prefixed (.here rfl)) (.leaf li)) (.mandatory (.intro (.prefixed (.here rfl)) (.leaf rfl)) (.mandatory (.intro (.prefixed (.here rfl)) (.leaf rfl))
        (.mandatory (.intro (.prefixed (.here rfl)) (.leaf rfl)) (.mandatory (.intro (.prefixed (.here rfl)) (.leaf le)) (.nil _)))))))))
    · obtain ⟨buf', g1, g2⟩ := (h1 o _ e hr hf hl).2 buf hb
      exact ⟨buf', g1, TagsFile.collection_octets g2⟩
  · obtain ⟨T, ht, h1, h2⟩ := C96_encodes_partial hc TagsFile.default_assigned
    refine ⟨T, ht, fun s1 s2 s3 l1 l2 l3 => ⟨h2 _ ?_, fun o e hr hf hl buf hb => ?_⟩⟩
    · exact .intro (.here rfl) (.sequence (.mandatory (.intro (.here rfl) (.leaf l1)) (.mandatory (.intro (.here rfl) (.leaf l2)) (.mandatory (.intro (.here rfl) (.leaf l3)) (.nil _)))))
    · obtain ⟨buf', g1, g2⟩ := (h1 o _ e hr hf hl).2 buf hb
      exact ⟨buf', g1, TagsFile.default_octets g2⟩
  · obtain ⟨T, ht, h1, h2⟩ := C96_encodes_partial hc TagsFile.automatic_assigned
    refine ⟨T, ht, fun s1 s2 s3 l1 l2 l3 => ⟨h2 _ ?_, fun o e hr hf hl buf hb => ?_⟩⟩
    · exact .intro (.here rfl) (.sequence (.mandatory (.intro (.prefixed (.here rfl)) (.leaf l1)) (.mandatory (.intro (.prefixed (.here rfl)) (.leaf l2)) (.mandatory (.intro (.prefixed (.here rfl)) (.leaf l3)) (.nil _)))))
    · obtain ⟨buf', g1, g2⟩ := (h1 o _ e hr hf hl).2 buf hb
      exact ⟨buf', g1, TagsFile.automatic_octets g2⟩

end FastBer.Props
