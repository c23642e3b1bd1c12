import Verif.Props.AcceptsRecursive
import Verif.Props.Layout
/-!
# The schema of the sample programs, testfiles/pokemon.asn
-/
namespace FastBer.Props
open FastBer FastBer.Ast FastBer.Ast.Spec FastBer.Spec Lexer Lexer.Spec Notation Parser

/-- testfiles/pokemon.asn. -/
def pokemonFile : String :=
"Pokemon DEFINITIONS EXPLICIT TAGS ::= BEGIN

Team ::= SEQUENCE {
    team-name OCTET STRING,
    members SEQUENCE OF Pokemon
}

Pokemon ::= SEQUENCE {
    name OCTET STRING,
    category OCTET STRING,
    type Type,
    ability OCTET STRING,
    weakness OCTET STRING,
    weight INTEGER
}

Type ::= ENUMERATED {
    normal,
    fire,
    fighting,
    water,
    flying,
    grass
}

END
"

namespace Pokemon
def sp : Bytes := [32]
def nl (lines spaces : Nat) : Bytes := List.replicate lines 10 ++ List.replicate spaces 32
def w (s : String) (space : Bytes) : Check.Piece := ⟨s.toList, space⟩
/-- Its items and the white space behind each. -/
def pieces : List Check.Piece := [
  w "Pokemon" sp, w "DEFINITIONS" sp, w "EXPLICIT" sp, w "TAGS" sp, w "::=" sp, w "BEGIN" (nl 2 0), w "Team" sp, w "::=" sp, w "SEQUENCE" sp, w "{" (nl 1 4), w "team-name" sp,
  w "OCTET" sp, w "STRING" [], w "," (nl 1 4), w "members" sp, w "SEQUENCE" sp, w "OF" sp, w "Pokemon" (nl 1 0), w "}" (nl 2 0), w "Pokemon" sp, w "::=" sp, w "SEQUENCE" sp,
  w "{" (nl 1 4), w "name" sp, w "OCTET" sp, w "STRING" [], w "," (nl 1 4), w "category" sp, w "OCTET" sp, w "STRING" [], w "," (nl 1 4), w "type" sp, w "Type" [], w "," (nl 1 4),
  w "ability" sp, w "OCTET" sp, w "STRING" [], w "," (nl 1 4), w "weakness" sp, w "OCTET" sp, w "STRING" [], w "," (nl 1 4), w "weight" sp, w "INTEGER" (nl 1 0), w "}" (nl 2 0),
  w "Type" sp, w "::=" sp, w "ENUMERATED" sp, w "{" (nl 1 4), w "normal" [], w "," (nl 1 4), w "fire" [], w "," (nl 1 4), w "fighting" [], w "," (nl 1 4), w "water" [],
  w "," (nl 1 4), w "flying" [], w "," (nl 1 4), w "grass" (nl 1 0), w "}" (nl 2 0), w "END" (nl 1 0)]
def items : List Tok := [
  .upper "Pokemon".toList, kw "DEFINITIONS", kw "EXPLICIT", kw "TAGS", kw "::=", kw "BEGIN", .upper "Team".toList, kw "::=", kw "SEQUENCE", kw "{", .lower "team_name".toList,
  kw "OCTET", kw "STRING", kw ",", .lower "members".toList, kw "SEQUENCE", kw "OF", .upper "Pokemon".toList, kw "}", .upper "Pokemon".toList, kw "::=", kw "SEQUENCE", kw "{",
  .lower "name".toList, kw "OCTET", kw "STRING", kw ",", .lower "category".toList, kw "OCTET", kw "STRING", kw ",", .lower "type".toList, .upper "Type".toList, kw ",",
  .lower "ability".toList, kw "OCTET", kw "STRING", kw ",", .lower "weakness".toList, kw "OCTET", kw "STRING", kw ",", .lower "weight".toList, kw "INTEGER", kw "}",
  .upper "Type".toList, kw "::=", kw "ENUMERATED", kw "{", .lower "normal".toList, kw ",", .lower "fire".toList, kw ",", .lower "fighting".toList, kw ",", .lower "water".toList,
  kw ",", .lower "flying".toList, kw ",", .lower "grass".toList, kw "}", kw "END"]
end Pokemon

set_option maxRecDepth 100000 in
theorem pokemon_items : Text Pokemon.items (bytes pokemonFile) := by
  have e0 : Pokemon.items = Pokemon.pieces.map fun p => Check.tokOf p.item := by decide +kernel
  have e : bytes pokemonFile = Check.textOf Pokemon.pieces := Check.textOf_chars (by rfl)
  rw [e0, e]
  exact Check.items_sound (by decide +kernel)

def pokemonModules : List Module := [⟨"Pokemon", .explicit_, [], [
  { name := "Team", body := .type (.sequence [required "team_name" (.leaf .octetString), required "members" (.seqOf none (.defined none "Pokemon" []) .smallBuffer)] false) },
  { name := "Pokemon", body := .type (.sequence [required "name" (.leaf .octetString), required "category" (.leaf .octetString), required "type" (.defined none "Type" []),
    required "ability" (.leaf .octetString), required "weakness" (.leaf .octetString), required "weight" (.leaf .integer)] false) },
  { name := "Type", body := .type (.leaf .enumerated) }]⟩]

theorem pokemon_written (stod : Bytes → UInt64) : Written stod [bytes pokemonFile] pokemonModules := by
  have hs : ∀ n, ComponentN stod (.lower n :: [kw "OCTET", kw "STRING"]) (required (nm n) (.leaf .octetString)) := fun n =>
    .required n (.simple (real := stod) (ks := ["OCTET", "STRING"]) (k := .octetString) (by simp [simpleTypes]))
  have h1 := TypeN.sequence (.root (.more (.one (hs "team_name".toList)) (.required "members".toList (.sequenceOf .nothing (.plain (.reference (real := stod) "Pokemon".toList))))))
  have h2 := TypeN.sequence (.root (.more (.more (.more (.more (.more (.one (hs "name".toList)) (hs "category".toList)) (.required "type".toList (.reference "Type".toList)))
    (hs "ability".toList)) (hs "weakness".toList)) (.required "weight".toList (.simple (real := stod) (ks := ["INTEGER"]) (k := .integer) (by simp [simpleTypes])))))
  have h3 := TypeN.enumerated (real := stod) (.root (.more (.more (.more (.more (.more (.one (.plain "normal".toList)) (.plain "fire".toList)) (.plain "fighting".toList)) (.plain "water".toList))
    (.plain "flying".toList)) (.plain "grass".toList)))
  have hm := FileN.one (.full (o := []) (e := []) (i := []) "Pokemon".toList .nothing .explicit_ .nothing .nothing
    (.more (.type "Team".toList h1) (.more (.type "Pokemon".toList h2) (.one (.type "Type".toList h3)))))
  exact .cons pokemon_items hm .nil

/-- What the passes make of the module. -/
def pokemonOut : Tree := ⟨[⟨"Pokemon", .explicit_, [], [
  { name := "Type", body := .type (.leaf .enumerated) },
  { name := "Pokemon", body := .type (.sequence [required "name" (.leaf .octetString), required "category" (.leaf .octetString), required "type" (.defined none "Type" []),
    required "ability" (.leaf .octetString), required "weakness" (.leaf .octetString), required "weight" (.leaf .integer)] false) },
  { name := "Team", body := .type (.sequence [required "team_name" (.leaf .octetString), required "members" (.seqOf none (.defined none "Pokemon" []) .smallBuffer)] false) }]⟩]⟩

/-- The C++ types. -/
def pokemonTy : Ty := .seq (univ 16) <|
  .cons .mandatory [] (.leaf .str (univ 4)) <| .cons .mandatory [] (.leaf .str (univ 4)) <| .cons .mandatory [] (.leaf .enum (univ 10)) <|
  .cons .mandatory [] (.leaf .str (univ 4)) <| .cons .mandatory [] (.leaf .str (univ 4)) <| .cons .mandatory [] (.leaf .int (univ 2)) .nil
def teamTy : Ty := .seq (univ 16) <| .cons .mandatory [] (.leaf .str (univ 4)) <| .cons .mandatory [] (.seqOf (univ 16) pokemonTy) .nil

theorem pokemon_frontEnd : frontEnd 20 (backT ⟨pokemonModules⟩) = .ok pokemonOut := by rfl

theorem pokemon_generate (lib : Lib) : ∃ env, generate lib 20 pokemonOut = .ok env ∧ env.typeOf "Pokemon" "Team" = some teamTy := ⟨_, rfl, rfl⟩

theorem pokemon_compiles (stod : Bytes → UInt64) (lib : Lib) (hv : ∀ T v d, lib.default T v = some d → T.Holds d) :
    ∃ env, TextCompiled stod lib [bytes pokemonFile] pokemonModules env ∧ env.typeOf "Pokemon" "Team" = some teamTy := by
  obtain ⟨env, h2, h3⟩ := pokemon_generate lib
  refine ⟨env, ⟨pokemon_written stod, by decide +kernel, Check.plainSource_sound (by decide +kernel), Check.supportedSource_sound (fuel := 20) (by decide +kernel),
    Check.legal_sound (fuel := 20) (by decide +kernel), hv, 20, ?_⟩, h3⟩
  rw [C96_compile (pokemon_written stod)]
  show compile lib 20 (backT ⟨pokemonModules⟩) = _
  unfold compile
  rw [pokemon_frontEnd]
  exact h2

end FastBer.Props
