import Verif.Props.TagsFile
/-!
# The tagged types of testfiles/prefixed_types.asn

The file is the example of X.690 8.14.
-/
namespace FastBer.Props.PrefixedFile
open FastBer FastBer.Ast FastBer.Ast.Spec FastBer.Spec Lexer Lexer.Spec Notation Parser
open TagsFile (elem encodes_inv one_tag two_tags)

/-- testfiles/prefixed_types.asn. -/
def file : String :=
"PrefixedTypes DEFINITIONS EXPLICIT TAGS ::= BEGIN

Type1 ::= VisibleString
Type2 ::= [APPLICATION 3] IMPLICIT Type1
Type3 ::= [2] Type2
Type4 ::= [APPLICATION 7] IMPLICIT Type3
Type5 ::= [2] IMPLICIT Type2

Collection ::= SEQUENCE {
    type1 Type1,
    type2 Type2,
    type3 Type3,
    type4 Type4,
    type5 Type5
}

END
"

def sp : Bytes := [32]
def nl (lines spaces : Nat) : Bytes := List.replicate lines 10 ++ List.replicate spaces 32
def w (s : String) (space : Bytes) : Check.Piece := ⟨s.toList, space⟩
/-- Its items and the white space behind each. -/
def pieces : List Check.Piece := [
  w "PrefixedTypes" sp, w "DEFINITIONS" sp, w "EXPLICIT" sp, w "TAGS" sp, w "::=" sp, w "BEGIN" (nl 2 0), w "Type1" sp, w "::=" sp, w "VisibleString" (nl 1 0),
  w "Type2" sp, w "::=" sp, w "[" [], w "APPLICATION" sp, w "3" [], w "]" sp, w "IMPLICIT" sp, w "Type1" (nl 1 0), w "Type3" sp, w "::=" sp, w "[" [], w "2" [],
  w "]" sp, w "Type2" (nl 1 0), w "Type4" sp, w "::=" sp, w "[" [], w "APPLICATION" sp, w "7" [], w "]" sp, w "IMPLICIT" sp, w "Type3" (nl 1 0), w "Type5" sp,
  w "::=" sp, w "[" [], w "2" [], w "]" sp, w "IMPLICIT" sp, w "Type2" (nl 2 0), w "Collection" sp, w "::=" sp, w "SEQUENCE" sp, w "{" (nl 1 4), w "type1" sp,
  w "Type1" [], w "," (nl 1 4), w "type2" sp, w "Type2" [], w "," (nl 1 4), w "type3" sp, w "Type3" [], w "," (nl 1 4), w "type4" sp, w "Type4" [], w "," (nl 1 4),
  w "type5" sp, w "Type5" (nl 1 0), w "}" (nl 2 0), w "END" (nl 1 0)]
def items : List Tok := [
  .upper "PrefixedTypes".toList, kw "DEFINITIONS", kw "EXPLICIT", kw "TAGS", kw "::=", kw "BEGIN", .upper "Type1".toList, kw "::=", kw "VisibleString",
  .upper "Type2".toList, kw "::=", kw "[", kw "APPLICATION", .number 3, kw "]", kw "IMPLICIT", .upper "Type1".toList, .upper "Type3".toList, kw "::=", kw "[", .number 2,
  kw "]", .upper "Type2".toList, .upper "Type4".toList, kw "::=", kw "[", kw "APPLICATION", .number 7, kw "]", kw "IMPLICIT", .upper "Type3".toList,
  .upper "Type5".toList, kw "::=", kw "[", .number 2, kw "]", kw "IMPLICIT", .upper "Type2".toList, .upper "Collection".toList, kw "::=", kw "SEQUENCE", kw "{",
  .lower "type1".toList, .upper "Type1".toList, kw ",", .lower "type2".toList, .upper "Type2".toList, kw ",", .lower "type3".toList, .upper "Type3".toList, kw ",",
  .lower "type4".toList, .upper "Type4".toList, kw ",", .lower "type5".toList, .upper "Type5".toList, kw "}", kw "END"]

theorem file_items : Text items (bytes file) := by
  have e0 : items = pieces.map fun p => Check.tokOf p.item := by decide +kernel
  have e : bytes file = Check.textOf pieces := by decide +kernel
  rw [e0, e]
  exact Check.items_sound (by decide +kernel)

def modules : List Module := [⟨"PrefixedTypes", .explicit_, [], [
  { name := "Type1", body := .type (.leaf (.charString 26)) },
  { name := "Type2", body := .type (.prefixed .application 3 .implicit (.defined none "Type1" [])) },
  { name := "Type3", body := .type (.prefixed .contextSpecific 2 .automatic (.defined none "Type2" [])) },
  { name := "Type4", body := .type (.prefixed .application 7 .implicit (.defined none "Type3" [])) },
  { name := "Type5", body := .type (.prefixed .contextSpecific 2 .implicit (.defined none "Type2" [])) },
  { name := "Collection", body := .type (.sequence [required "type1" (.defined none "Type1" []), required "type2" (.defined none "Type2" []), required "type3" (.defined none "Type3" []), required "type4" (.defined none "Type4" []), required "type5" (.defined none "Type5" [])] false) }]⟩]

theorem written (stod : Bytes → UInt64) : Written stod [bytes file] modules := by
  have h0 := TypeN.simple (real := stod) (ks := ["VisibleString"]) (k := .charString 26) (by simp [simpleTypes])
  have h1 := TypeN.tagged 3 .application (by decide) .implicit (.reference (real := stod) "Type1".toList)
  have h2 := TypeN.tagged 2 .context (by decide) .default (.reference (real := stod) "Type2".toList)
  have h3 := TypeN.tagged 7 .application (by decide) .implicit (.reference (real := stod) "Type3".toList)
  have h4 := TypeN.tagged 2 .context (by decide) .implicit (.reference (real := stod) "Type2".toList)
  have h5 := TypeN.sequence (.root (.more (.more (.more (.more (.one (.required "type1".toList (.reference (real := stod) "Type1".toList))) (.required "type2".toList (.reference (real := stod) "Type2".toList))) (.required "type3".toList (.reference (real := stod) "Type3".toList))) (.required "type4".toList (.reference (real := stod) "Type4".toList))) (.required "type5".toList (.reference (real := stod) "Type5".toList))))
  have hm := FileN.one (.full (o := []) (e := []) (i := []) "PrefixedTypes".toList .nothing .explicit_ .nothing .nothing (.more (.type "Type1".toList h0) (.more (.type "Type2".toList h1) (.more (.type "Type3".toList h2) (.more (.type "Type4".toList h3) (.more (.type "Type5".toList h4) (.one (.type "Collection".toList h5))))))))
  exact .cons file_items hm .nil

/-- The conditions of C98 hold: the file is compiled. -/
theorem compiled (stod : Bytes → UInt64) : ∃ env, TextCompiled stod demoLib [bytes file] modules env :=
  C98_text_compiled_partial (written stod) (Check.plainSource_sound (by decide +kernel)) (Check.supportedSource_sound (fuel := 20) (by decide +kernel))
    (Check.legal_sound (fuel := 20) (by decide +kernel)) (Check.accepted_sound (fuel := 20) (by decide +kernel)) (Check.compilableSource_sound (fuel := 20) (by decide +kernel))
    (demoLib_takes (fuel := 20) (by decide +kernel)) demoLib_defaults

def module : Module := modules[0]

/-- The types with one string in them, as written. -/
def type1 : AType := .leaf (.charString 26)
def type2 : AType := .prefixed .application 3 .implicit (.defined none "Type1" [])
def type3 : AType := .prefixed .contextSpecific 2 .automatic (.defined none "Type2" [])
def type4 : AType := .prefixed .application 7 .implicit (.defined none "Type3" [])
def type5 : AType := .prefixed .contextSpecific 2 .implicit (.defined none "Type2" [])

def collection : AType := .sequence [required "type1" (.defined none "Type1" []), required "type2" (.defined none "Type2" []), required "type3" (.defined none "Type3" []),
  required "type4" (.defined none "Type4" []), required "type5" (.defined none "Type5" [])] false

/-- The octets X.690 8.14 gives for a string of each type. -/
def octets : List (String × (Bytes → Bytes)) := [
  ("Type1", fun s => elem 0x1a s),
  ("Type2", fun s => elem 0x43 s),
  ("Type3", fun s => elem 0xa2 (elem 0x43 s)),
  ("Type4", fun s => elem 0x67 (elem 0x43 s)),
  ("Type5", fun s => elem 0x82 s)]

/-- "Jones", as in X.690 8.14 and test/generated/PrefixedTypesTest.cpp:20-45. -/
example : octets.map (fun r => r.2 (bytes "Jones")) = [[0x1a, 0x05, 0x4a, 0x6f, 0x6e, 0x65, 0x73], [0x43, 0x05, 0x4a, 0x6f, 0x6e, 0x65, 0x73],
    [0xa2, 0x07, 0x43, 0x05, 0x4a, 0x6f, 0x6e, 0x65, 0x73], [0x67, 0x07, 0x43, 0x05, 0x4a, 0x6f, 0x6e, 0x65, 0x73], [0x82, 0x05, 0x4a, 0x6f, 0x6e, 0x65, 0x73]] := by
  decide +kernel

/-- Each of them is assigned, holds any string with room in the library, and is encoded as these octets. -/
theorem types {name : String} {f : Bytes → Bytes} (h : (name, f) ∈ octets) : ∃ t, SourceAssigned ⟨modules⟩ module name t ∧
    (∀ s : Bytes, s.length < 2 ^ 63 → Ast.Spec.Value storable (qualify ⟨modules⟩) (qualifyModule ⟨modules⟩ module) (qualifyType ⟨modules⟩ module.name t) (.content s)) ∧
    ∀ s e, Encodes (shortest holdable) (qualify ⟨modules⟩) (qualifyModule ⟨modules⟩ module) (qualifyType ⟨modules⟩ module.name t) (.content s) e → e = f s := by
  simp only [octets, List.mem_cons, Prod.mk.injEq, List.not_mem_nil, or_false] at h
  obtain ⟨rfl, rfl⟩ | ⟨rfl, rfl⟩ | ⟨rfl, rfl⟩ | ⟨rfl, rfl⟩ | ⟨rfl, rfl⟩ := h
  · exact ⟨type1, ⟨.head _, ⟨_, .head _, rfl, rfl⟩, Check.taggedStruct_sound 9 _ _ rfl⟩, fun s hs => .intro (.here rfl) (.leaf hs), fun s e h => one_tag 9 rfl rfl rfl h⟩
  · exact ⟨type2, ⟨.head _, ⟨_, .tail _ (.head _), rfl, rfl⟩, Check.taggedStruct_sound 9 _ _ rfl⟩, fun s hs => .intro (.prefixed (.reference rfl (.here rfl))) (.leaf hs),
      fun s e h => one_tag 9 rfl rfl rfl h⟩
  · exact ⟨type3, ⟨.head _, ⟨_, .tail _ (.tail _ (.head _)), rfl, rfl⟩, Check.taggedStruct_sound 9 _ _ rfl⟩,
      fun s hs => .intro (.prefixed (.reference rfl (.prefixed (.reference rfl (.here rfl))))) (.leaf hs), fun s e h => two_tags 9 rfl rfl rfl rfl h⟩
  · exact ⟨type4, ⟨.head _, ⟨_, .tail _ (.tail _ (.tail _ (.head _))), rfl, rfl⟩, Check.taggedStruct_sound 9 _ _ rfl⟩,
      fun s hs => .intro (.prefixed (.reference rfl (.prefixed (.reference rfl (.prefixed (.reference rfl (.here rfl))))))) (.leaf hs), fun s e h => two_tags 9 rfl rfl rfl rfl h⟩
  · exact ⟨type5, ⟨.head _, ⟨_, .tail _ (.tail _ (.tail _ (.tail _ (.head _)))), rfl, rfl⟩, Check.taggedStruct_sound 9 _ _ rfl⟩,
      fun s hs => .intro (.prefixed (.reference rfl (.prefixed (.reference rfl (.here rfl))))) (.leaf hs), fun s e h => one_tag 9 rfl rfl rfl h⟩

theorem collection_assigned : SourceAssigned ⟨modules⟩ module "Collection" collection where
  module := .head _
  assignment := ⟨_, .tail _ (.tail _ (.tail _ (.tail _ (.tail _ (.head _))))), rfl, rfl⟩
  tags := Check.taggedStruct_sound 9 _ _ rfl

theorem collection_value {s1 s2 s3 s4 s5 : Bytes} (l1 : s1.length < 2 ^ 63) (l2 : s2.length < 2 ^ 63) (l3 : s3.length < 2 ^ 63) (l4 : s4.length < 2 ^ 63) (l5 : s5.length < 2 ^ 63) :
    Ast.Spec.Value storable (qualify ⟨modules⟩) (qualifyModule ⟨modules⟩ module) (qualifyType ⟨modules⟩ module.name collection)
      (.struct [.content s1, .content s2, .content s3, .content s4, .content s5]) :=
  .intro (.here rfl) (.sequence (.mandatory (.intro (.reference rfl (.here rfl)) (.leaf l1)) (.mandatory (.intro (.reference rfl (.prefixed (.reference rfl (.here rfl)))) (.leaf l2))
    (.mandatory (.intro (.reference rfl (.prefixed (.reference rfl (.prefixed (.reference rfl (.here rfl)))))) (.leaf l3))
    (.mandatory (.intro (.reference rfl (.prefixed (.reference rfl (.prefixed (.reference rfl (.prefixed (.reference rfl (.here rfl)))))))) (.leaf l4))
    (.mandatory (.intro (.reference rfl (.prefixed (.reference rfl (.prefixed (.reference rfl (.here rfl)))))) (.leaf l5)) (.nil _)))))))

theorem collection_octets {s1 s2 s3 s4 s5 : Bytes} {e : Bytes}
    (h : Encodes (shortest holdable) (qualify ⟨modules⟩) (qualifyModule ⟨modules⟩ module) (qualifyType ⟨modules⟩ module.name collection)
      (.struct [.content s1, .content s2, .content s3, .content s4, .content s5]) e) :
    e = elem 0x30 (elem 0x1a s1 ++ (elem 0x43 s2 ++ (elem 0xa2 (elem 0x43 s3) ++ (elem 0x67 (elem 0x43 s4) ++ elem 0x82 s5)))) := by
  obtain ⟨k, c, hc, l, hl, he⟩ := encodes_inv 9 (ts := [(.universal, 16)]) rfl rfl h
  cases hc with
  | sequence hs =>
    cases hs with | mandatory h1 hs => cases hs with | mandatory h2 hs => cases hs with | mandatory h3 hs => cases hs with | mandatory h4 hs => cases hs with | mandatory h5 hs =>
    cases hs
    cases hl
    have e1 := one_tag (i := 0x1a) 9 rfl rfl rfl h1
    have e2 := one_tag (i := 0x43) 9 rfl rfl rfl h2
    have e3 := two_tags (i := 0xa2) (i' := 0x43) 9 rfl rfl rfl rfl h3
    have e4 := two_tags (i := 0x67) (i' := 0x43) 9 rfl rfl rfl rfl h4
    have e5 := one_tag (i := 0x82) 9 rfl rfl rfl h5
    subst e1 e2 e3 e4 e5
    rw [he]
    simp only [List.flatten_cons, List.flatten_nil, List.append_nil]
    rfl

end FastBer.Props.PrefixedFile

namespace FastBer.Props
open FastBer FastBer.Ast FastBer.Ast.Spec FastBer.Spec Lexer Lexer.Spec Notation Parser
open TagsFile (elem)

/-- **C96, testfiles/prefixed_types.asn.** For each of Type1 to Type5 the program generated from the text of this file has an object for every string; each that was assigned, not decoded, is
encoded as X.690 8.14 says (an implicit tag in place of the last one, an explicit one around it, through any number of references); decoding these octets, whatever follows and whatever the object
held before, gives the string back.  The same for the collection of the five. -/
theorem C96_prefixed_types_file (stod : Bytes → UInt64) : ∃ env, (∃ fuel, compileFiles stod demoLib fuel [bytes PrefixedFile.file] = .ok env) ∧
    (∀ name octets, (name, octets) ∈ PrefixedFile.octets → ∃ T, env.typeOf "PrefixedTypes" name = some T ∧ ∀ s : Bytes, s.length < 2 ^ 63 →
      (∃ o e, T.Rep o (.content s) e ∧ T.Fresh o) ∧
      ∀ o e, T.Rep o (.content s) e → T.Fresh o → e.length < 2 ^ 64 → ∀ buf, e.length ≤ buf.length → ∃ buf', T.encode o buf = .ok (⟨true, e.length⟩, buf') ∧
        buf'.take e.length = octets s ∧
        ∀ o0, T.Holds o0 → ∀ suffix, ∃ o', T.decode o0 (octets s ++ suffix) = .ok (true, o') ∧ T.Rep o' (.content s) e) ∧
    ∃ T, env.typeOf "PrefixedTypes" "Collection" = some T ∧ ∀ s1 s2 s3 s4 s5 : Bytes, s1.length < 2 ^ 63 → s2.length < 2 ^ 63 → s3.length < 2 ^ 63 → s4.length < 2 ^ 63 → s5.length < 2 ^ 63 →
      let x : Val := .struct [.content s1, .content s2, .content s3, .content s4, .content s5]
      let octets := elem 0x30 (elem 0x1a s1 ++ (elem 0x43 s2 ++ (elem 0xa2 (elem 0x43 s3) ++ (elem 0x67 (elem 0x43 s4) ++ elem 0x82 s5))))
      (∃ o e, T.Rep o x e ∧ T.Fresh o) ∧
      ∀ o e, T.Rep o x e → T.Fresh o → e.length < 2 ^ 64 → ∀ buf, e.length ≤ buf.length → ∃ buf', T.encode o buf = .ok (⟨true, e.length⟩, buf') ∧
        buf'.take e.length = octets ∧
        ∀ o0, T.Holds o0 → ∀ suffix, ∃ o', T.decode o0 (octets ++ suffix) = .ok (true, o') ∧ T.Rep o' x e := by
  obtain ⟨env, hc⟩ := PrefixedFile.compiled stod
  refine ⟨env, hc.output, fun name f hm => ?_, ?_⟩
  · obtain ⟨t, ha, hv, ho⟩ := PrefixedFile.types hm
    obtain ⟨T, ht, h1, h2⟩ := C96_encodes_partial hc ha
    obtain ⟨T', ht', h3⟩ := C96_round_trip_partial hc ha
    cases ht.symm.trans ht'
    refine ⟨T, ht, fun s hs => ⟨h2 _ (hv s hs), fun o e hr hf hl buf hb => ?_⟩⟩
    obtain ⟨buf', g1, g2⟩ := (h1 o _ e hr hf hl).2 buf hb
    have g3 := ho _ _ g2
    refine ⟨buf', g1, g3, fun o0 h0 suffix => ?_⟩
    obtain ⟨o', k1, k2, _⟩ := h3 o _ e (hv s hs) hr hl buf _ buf' g1 rfl o0 h0 suffix
    exact ⟨o', by rw [← g3]; exact k1, k2⟩
  · obtain ⟨T, ht, h1, h2⟩ := C96_encodes_partial hc PrefixedFile.collection_assigned
    obtain ⟨T', ht', h3⟩ := C96_round_trip_partial hc PrefixedFile.collection_assigned
    cases ht.symm.trans ht'
    refine ⟨T, ht, fun s1 s2 s3 s4 s5 l1 l2 l3 l4 l5 => ⟨h2 _ (PrefixedFile.collection_value l1 l2 l3 l4 l5), fun o e hr hf hl buf hb => ?_⟩⟩
    obtain ⟨buf', g1, g2⟩ := (h1 o _ e hr hf hl).2 buf hb
    have g3 := PrefixedFile.collection_octets g2
    refine ⟨buf', g1, g3, fun o0 h0 suffix => ?_⟩
    obtain ⟨o', k1, k2, _⟩ := h3 o _ e (PrefixedFile.collection_value l1 l2 l3 l4 l5) hr hl buf _ buf' g1 rfl o0 h0 suffix
    exact ⟨o', by rw [← g3]; exact k1, k2⟩

end FastBer.Props
